import Verif.Comb.Loop
import Verif.Props.PanicC

/-!
# C66: what goes wrong first when the constrained triangulation goes wrong

Nothing is assumed about the arithmetic: the predicates may answer anything.
-/

set_option linter.unusedSectionVars false
set_option linter.unusedVariables false

namespace CDT

section
variable {F : Type} [FloatOps F] [IdCfg]

/-- A consistent state: neighbors point to each other across the same edge, the vertices of a triangle are different, no two triangles have the
same vertices, and the table of `vertex_to_triangle` names for every vertex of the mesh a triangle that has this vertex. -/
structure Spec.Consistent (n : Nat) (ts : List Tri) (v2t : List Nat) : Prop where
  adjacency : Spec.Adjacency ts
  distinct : Spec.Distinct3 ts
  once : ¬ Spec.Twice ts
  table : ∀ v < n, Spec.InMesh ts v → ∃ k t, v2t[v]? = some k ∧ ts[k]? = some t ∧ (v = t.v1 ∨ v = t.v2 ∨ v = t.v3)

/-- A list of edges in which two entries are the same edge of the mesh. -/
def Spec.Repeated (l : List EdgeData) : Prop :=
  ∃ (i j : Nat) (d e : EdgeData), i < j ∧ l[i]? = some d ∧ l[j]? = some e ∧
    ((d.edge.src = e.edge.src ∧ d.edge.dst = e.edge.dst) ∨ (d.edge.src = e.edge.dst ∧ d.edge.dst = e.edge.src))

/-- At some point of the run the constraint `ce`, with ends already merged, is inserted in the state `s`. -/
def ConstraintRun (fuel b : Nat) (vs : List (Vtx F)) (es : List Edge) (ce : Edge) (s : AC) : Prop :=
  ∃ s0 v2t, wrapAndTriangulate fuel b vs (some (mergeTable vs.length)) = .ok s0 ∧
    buildV2t s0.ts 0 (List.replicate vs.length 0) = .ok v2t ∧ Comb.Inserts vs fuel (s0.merge.getD []) es ⟨s0.ts, v2t, []⟩ ce s

/-- The three ways in which a run can leave the consistent states. -/
inductive RootCause (fuel b : Nat) (vs : List (Vtx F)) (es : List Edge) : Prop
  /-- a swap during the insertion of the vertices makes two triangles on the same vertices -/
  | vertices (us : List Tri) : Visited fuel b vs (some (mergeTable vs.length)) us → Spec.Twice us → RootCause fuel b vs es
  /-- a swap during the insertion of a constraint makes two triangles on the same vertices -/
  | constraint (ce : Edge) (s : AC) (us : List Tri) : ConstraintRun fuel b vs es ce s → Comb.EVisits vs fuel ce s us → Spec.Twice us →
      RootCause fuel b vs es
  /-- the search for the edges crossed by a constraint lists an edge twice -/
  | search (ce : Edge) (s : AC) (A B : Vtx F) (l : List EdgeData) : ConstraintRun fuel b vs es ce s → vs[ce.src]? = some A → vs[ce.dst]? = some B →
      registerEdges vs s.ts ce (A, B) s.v2t = .ok l → Spec.Repeated l → RootCause fuel b vs es

theorem repeated_of_twice {l : List EdgeData} (h : Comb.ListedTwice l) : Spec.Repeated l := by
  by_contra hno
  refine h ?_
  rw [List.pairwise_iff_getElem]
  intro i j hi hj hij hc
  exact hno ⟨i, j, _, _, hij, List.getElem?_eq_getElem hi, List.getElem?_eq_getElem hj, hc⟩

theorem inMesh_occ {ts : List Tri} {v : Nat} : Spec.InMesh ts v ↔ Occ ts v := by
  unfold Spec.InMesh Occ
  constructor
  · rintro ⟨t, ht, h⟩
    obtain ⟨i, hi⟩ := List.mem_iff_getElem?.1 ht
    exact ⟨i, t, hi, by rw [hasVert_iff]; rcases h with rfl | rfl | rfl <;> simp⟩
  · rintro ⟨i, t, ht, h⟩
    refine ⟨t, List.mem_of_getElem? ht, ?_⟩
    rw [hasVert_iff] at h
    rcases h with rfl | rfl | rfl <;> simp

theorem minv_consistent {n : Nat} {ts : List Tri} {v2t : List Nat} (h : Comb.MInv n ts v2t) : Spec.Consistent n ts v2t := by
  refine ⟨comb_adjacency h.valid, fun t ht => ?_, fun hd => ?_, fun v hv ho => ?_⟩
  · obtain ⟨i, hi⟩ := List.mem_iff_getElem?.1 ht
    exact (h.valid.pos i t hi).ne
  · obtain ⟨i, j, t, u, a1, a2, a3, a4⟩ := doubled_iff.2 hd
    exact h.valid.single i j t u a1 a2 a3 a4
  · obtain ⟨k, t, h1, h2, h3⟩ := h.v2t.2 v hv (inMesh_occ.1 ho)
    rw [hasVert_iff] at h3
    exact ⟨k, t, h1, h2, by rcases h3 with rfl | rfl | rfl <;> simp⟩

/-- The state after the insertion of the vertices. -/
theorem start_minv {vs : List (Vtx F)} {fuel b : Nat} {es : List Edge} (hno : ¬ RootCause fuel b vs es) {first : Nat} {rest : List Nat}
    (hs : binSort b vs = .ok (first :: rest)) (hp : (first :: rest).Perm (List.range vs.length)) (hn : 2 * vs.length + 2 ≤ NONE)
    (hfuel : 6 * vs.length + 10 ≤ fuel) {s : DT} (hw : wrapAndTriangulate fuel b vs (some (mergeTable vs.length)) = .ok s) :
    ∃ v2t m, buildV2t s.ts 0 (List.replicate vs.length 0) = .ok v2t ∧ Comb.MInv vs.length s.ts v2t ∧ s.merge = some m ∧ m.length = vs.length ∧
      ∀ v < vs.length, ∃ x, m[v]? = some x ∧ Occ s.ts x := by
  have hb := IdCfg.big
  have hinf : vs.length ≤ INF0 := by unfold INF0; unfold NONE at hn; omega
  obtain ⟨h1, h2, h3, h4, h5⟩ := perm_parts hp
  have hM : Comb.Merged vs.length [first] ⟨initialTriangles first, 3, some (mergeTable vs.length)⟩ := by
    have hm : ∀ v < vs.length, (mergeTable vs.length)[v]? = some v := fun v hv => by
      unfold mergeTable toId
      rw [List.getElem?_map, List.getElem?_range hv]
      simp only [Option.map_some, Option.some.injEq]
      exact Nat.mod_eq_of_lt (by unfold NONE at hn; omega)
    refine ⟨_, rfl, by simp [mergeTable], fun v hv => ⟨fun _ => hm v hv, fun hin => ?_⟩⟩
    simp only [List.mem_singleton] at hin
    subst hin
    exact ⟨v, hm v hv, 0, _, rfl, by simp [hasVert_iff]⟩
  rw [wrap_unfold hs] at hw
  obtain ⟨hI, hM⟩ := Comb.insertAll_merged hn hfuel rest [first] _ (Comb.initial_linv h1 hinf _) hM h2 h3 h4
    (by simp only [List.length_cons, List.length_nil]; omega)
    (fun us hus hd => hno (.vertices us ⟨first, rest, hs, hus⟩ (doubled_iff.1 hd))) hw
  obtain ⟨v2t, hv, hv2⟩ := buildV2t_ok hinf hI.valid.len hI.sane.vert
  obtain ⟨m, hm, hl, h⟩ := hM.ex
  refine ⟨v2t, m, hv, ⟨hI.valid, hI.sane.vert, hv2⟩, hm, hl, fun v hv => (h v hv).2 ?_⟩
  have := hp.mem_iff.2 (List.mem_range.2 hv)
  simp only [List.mem_cons] at this
  simp only [List.mem_append, List.mem_reverse, List.mem_singleton]
  tauto

/-- **C66**: in every arithmetic, unless one of the three root causes occurs, every state of the constrained phase is consistent: in
particular every input vertex is in the mesh or merged with a vertex of the mesh. -/
theorem C66_consistent (fuel b : Nat) (vs : List (Vtx F)) (es : List Edge) {first : Nat} {rest : List Nat}
    (hs : binSort b vs = .ok (first :: rest)) (hp : (first :: rest).Perm (List.range vs.length)) (hn : 2 * vs.length + 2 ≤ NONE)
    (hfuel : 6 * vs.length + 10 ≤ fuel) (hno : ¬ RootCause fuel b vs es) {pre post : List Edge} (hes : es = pre ++ post) {s : DT} {r : AC}
    (hr : ConstraintState fuel b vs pre s r) :
    Spec.Consistent vs.length r.ts r.v2t ∧ ∃ m, s.merge = some m ∧ ∀ v < vs.length, ∃ x, m[v]? = some x ∧ Spec.InMesh r.ts x := by
  have hb := IdCfg.big
  have hinf : vs.length ≤ INF0 := by unfold INF0; unfold NONE at hn; omega
  obtain ⟨hw, v2t, hv, hl⟩ := hr
  obtain ⟨v2t', m, hv', hM, hm, hml, hocc⟩ := start_minv hno hs hp hn hfuel hw
  rw [hv] at hv'; simp only [Res.ok.injEq] at hv'; subst hv'
  have ext : ∀ ce x, Comb.Inserts vs fuel (s.merge.getD []) pre ⟨s.ts, v2t, []⟩ ce x → ConstraintRun fuel b vs es ce x := by
    rintro ce x ⟨p1, e, p2, s1, rfl, h⟩
    exact ⟨s, v2t, hw, hv, p1, e, p2 ++ post, s1, by rw [hes]; simp, h⟩
  obtain ⟨h1, h2⟩ := Comb.applyLoop_comb hinf pre (s := ⟨s.ts, v2t, []⟩) hM
    (fun ce x us hi hu hd => hno (.constraint ce x us (ext ce x hi) hu (doubled_iff.1 hd)))
    (fun ce x hi ⟨A, B, l, ha, hb, hl, h2⟩ => hno (.search ce x A B l (ext ce x hi) ha hb hl (repeated_of_twice h2))) hl
  exact ⟨minv_consistent h1, m, hm, fun v hv => by
    obtain ⟨x, hx, ho⟩ := hocc v hv
    exact ⟨x, hx, inMesh_occ.2 (h2 x ho)⟩⟩

/-- **C66**, panics: if all constraints name vertices and `constrained_triangulation_from_2d_vertices` panics, then one of the root causes has
occurred, or an edge to be removed has an artificial vertex on the side of its first triangle. -/
theorem C66_panic (fuel : Nat) (bins : Nat → Nat) (vs : List (Vtx F)) (es : List Edge) (h3 : 3 ≤ vs.length) {first : Nat} {rest : List Nat}
    (hs : binSort (bins vs.length) (normalizeVerts vs) = .ok (first :: rest)) (hp : (first :: rest).Perm (List.range vs.length))
    (hn : 2 * vs.length + 2 ≤ NONE) (hfuel : 6 * vs.length + 10 ≤ fuel) (hr : ∀ e ∈ es, e.src < vs.length ∧ e.dst < vs.length)
    (hpan : constrained2d fuel bins vs es = .panic) :
    RootCause fuel (bins vs.length) (normalizeVerts vs) es ∨
      ∃ pre e post s s', es = pre ++ e :: post ∧ ConstraintState fuel (bins vs.length) (normalizeVerts vs) pre s s' ∧
        ArtificialApex (normalizeVerts vs) fuel (s.merge.getD []) e s' := by
  have hb := IdCfg.big
  have hlen : (normalizeVerts vs).length = vs.length := normalizeVerts_length vs
  have hinf : (normalizeVerts vs).length ≤ INF0 := by rw [hlen]; unfold INF0; unfold NONE at hn; omega
  have hp' : (first :: rest).Perm (List.range (normalizeVerts vs).length) := by rw [hlen]; exact hp
  by_cases hno : RootCause fuel (bins vs.length) (normalizeVerts vs) es
  · exact .inl hno
  right
  rcases (C65_panic_site fuel bins vs es h3 hs hp hn).1 hpan with hq | ⟨pre, e, post, s, s', hes, hst, hc⟩
  · exfalso
    obtain ⟨us, h1, h2⟩ := C47_root_cause fuel (bins vs.length) (normalizeVerts vs) (some (mergeTable vs.length)) hs hp' (by rw [hlen]; exact hn)
      (by rw [hlen]; exact hfuel) (.inl ((C47_panic_site fuel _ _ _ hs hp' (by rw [hlen]; exact hn)).2 hq))
    exact hno (.vertices us (by rw [hlen]; exact h1) h2)
  refine ⟨pre, e, post, s, s', hes, hst, ?_⟩
  obtain ⟨hw, v2t, hv, hl⟩ := hst
  obtain ⟨v2t', m, hv', hM, hm, hml, hocc⟩ := start_minv hno hs hp' (by rw [hlen]; exact hn) (by rw [hlen]; exact hfuel) hw
  rw [hv] at hv'; simp only [Res.ok.injEq] at hv'; subst hv'
  have ext : ∀ ce x, Comb.Inserts (normalizeVerts vs) fuel (s.merge.getD []) pre ⟨s.ts, v2t, []⟩ ce x →
      ConstraintRun fuel (bins vs.length) (normalizeVerts vs) es ce x := by
    rintro ce x ⟨p1, e1, p2, s1, rfl, h⟩
    exact ⟨s, v2t, hw, hv, p1, e1, p2 ++ e :: post, s1, by rw [hes]; simp, h⟩
  obtain ⟨g1, g2⟩ := Comb.applyLoop_comb hinf pre (s := ⟨s.ts, v2t, []⟩) hM
    (fun ce x us hi hu hd => hno (.constraint ce x us (ext ce x hi) hu (doubled_iff.1 hd)))
    (fun ce x hi ⟨A, B, l, ha, hb, hl, h2⟩ => hno (.search ce x A B l (ext ce x hi) ha hb hl (repeated_of_twice h2))) hl
  obtain ⟨r1, r2⟩ := hr e (by rw [hes]; simp)
  have hgm : s.merge.getD [] = m := by rw [hm]; rfl
  rw [hgm] at hc ⊢
  rcases hc with hc | hc | ⟨a, b, ha, hb, hab, hS, A, B, hA, hB, q | ⟨l, k, x, q1, q2, q3, q4⟩⟩
  · rw [hml, hlen] at hc; omega
  · rw [hml, hlen] at hc; omega
  · exfalso
    obtain ⟨a', ha', ho⟩ := hocc e.src (by rw [hlen]; exact r1)
    rw [ha] at ha'; simp only [Option.some.injEq] at ha'; subst ha'
    exact Comb.not_bareStart hinf g1 (ce := ⟨a, b⟩) (lt_of_getElem? hA) (g2 _ ho) q
  · exact ⟨a, b, A, B, l, k, x, ha, hb, hab, hS, hA, hB, q1, q2, q3, q4⟩

/-- Two triangles with the same vertices, in any order. -/
def Spec.SameOut (o o' : Out) : Prop := ∀ v, (v = o.1 ∨ v = o.2.1 ∨ v = o.2.2) ↔ (v = o'.1 ∨ v = o'.2.1 ∨ v = o'.2.2)

theorem out_of_once {S : List Edge} {ts : List Tri} {out : List Out} {ids : List Nat} (h : Spec.IsDomainList S ts out ids)
    (hd : Spec.Distinct3 ts) (ho : ¬ Spec.Twice ts) :
    (∀ a b c, (a, b, c) ∈ out → a ≠ b ∧ b ≠ c ∧ c ≠ a) ∧ out.Pairwise fun o o' => ¬ Spec.SameOut o o' := by
  obtain ⟨h1, h2, rfl⟩ := h
  constructor
  · intro a b c hm
    obtain ⟨i, hi, e⟩ := List.mem_map.1 hm
    obtain ⟨-, t, ht, -⟩ := (h2 i).1 hi
    unfold Spec.vertsAt at e
    rw [ht] at e
    simp only [Prod.mk.injEq] at e
    obtain ⟨rfl, rfl, rfl⟩ := e
    exact hd t (List.mem_of_getElem? ht)
  · rw [List.pairwise_map]
    refine List.Pairwise.imp_of_mem ?_ h1
    intro i j hi hj hij hs
    obtain ⟨-, t, ht, -⟩ := (h2 i).1 hi
    obtain ⟨-, u, hu, -⟩ := (h2 j).1 hj
    unfold Spec.vertsAt at hs
    rw [ht, hu] at hs
    exact ho ⟨i, j, t, u, hij, ht, hu, hs⟩

/-- **C66**, output: without a root cause the output triangles have three different vertices each, and no two of them have
the same vertices. -/
theorem C66_output (fuel : Nat) (bins : Nat → Nat) (vs : List (Vtx F)) (es : List Edge) (h3 : 3 ≤ vs.length) {first : Nat} {rest : List Nat}
    (hs : binSort (bins vs.length) (normalizeVerts vs) = .ok (first :: rest)) (hp : (first :: rest).Perm (List.range vs.length))
    (hn : 2 * vs.length + 2 ≤ NONE) (hfuel : 6 * vs.length + 10 ≤ fuel)
    (hno : ¬ RootCause fuel (bins vs.length) (normalizeVerts vs) es) {out : List Out} (hout : constrained2d fuel bins vs es = .ok out) :
    (∀ a b c, (a, b, c) ∈ out → a ≠ b ∧ b ≠ c ∧ c ≠ a) ∧ out.Pairwise fun o o' => ¬ Spec.SameOut o o' := by
  have hlen : (normalizeVerts vs).length = vs.length := normalizeVerts_length vs
  obtain ⟨r, ids, hr, hids⟩ := C23_constrained2d fuel bins vs es out h3 hout
  simp only [constrainedMesh, Res.bind_eq_ok] at hr
  obtain ⟨s, hw, hr⟩ := hr
  unfold applyConstraints at hr
  rw [Res.bind_eq_ok] at hr
  obtain ⟨v2t, hv, hr⟩ := hr
  have := (C66_consistent fuel (bins vs.length) (normalizeVerts vs) es hs (by rw [hlen]; exact hp) (by rw [hlen]; exact hn)
    (by rw [hlen]; exact hfuel) hno (pre := es) (post := []) (by simp) (s := s) (r := r) ⟨by rw [hlen]; exact hw, v2t, hv, hr⟩).1
  exact out_of_once hids this.distinct this.once

end

/-- **C66** for `f32`/`f64`, for all inputs without NaN and infinite coordinates: a run whose constraints name vertices and that panics
without an artificial vertex opposite to an edge to be removed, or that returns a triangle with a repeated vertex or two triangles on
the same vertices, has gone through one of the three root causes. -/
theorem C66_ieee {f : Fmt} [IdCfg] [Fl.Ok f] (fuel : Nat) (bins : Nat → Nat) (vs : List (Vtx (Fl f))) (es : List Edge)
    (hv : ∀ v ∈ vs, v.x.IsValue ∧ v.y.IsValue) (h3 : 3 ≤ vs.length) (hb : 1 ≤ bins vs.length) (hc : bins vs.length ≤ Fl.usizeMax)
    (hn : 2 * vs.length + 2 ≤ NONE) (hfuel : 6 * vs.length + 10 ≤ fuel) (hr : ∀ e ∈ es, e.src < vs.length ∧ e.dst < vs.length)
    (bad : (constrained2d fuel bins vs es = .panic ∧ ¬ ∃ pre e post s s', es = pre ++ e :: post ∧
        ConstraintState fuel (bins vs.length) (normalizeVerts vs) pre s s' ∧ ArtificialApex (normalizeVerts vs) fuel (s.merge.getD []) e s') ∨
      ∃ out, constrained2d fuel bins vs es = .ok out ∧
        ¬ ((∀ a b c, (a, b, c) ∈ out → a ≠ b ∧ b ≠ c ∧ c ≠ a) ∧ out.Pairwise fun o o' => ¬ Spec.SameOut o o')) :
    RootCause fuel (bins vs.length) (normalizeVerts vs) es := by
  obtain ⟨first, rest, hs, hp⟩ := ieee_sort bins vs hv h3 hb hc hn
  rw [Rounded.normalizeVerts_length' vs] at hp
  rcases bad with ⟨h1, h2⟩ | ⟨out, h1, h2⟩
  · exact (C66_panic fuel bins vs es h3 hs hp hn hfuel hr h1).resolve_right h2
  · by_contra hno
    exact h2 (C66_output fuel bins vs es h3 hs hp hn hfuel hno h1)

/-! ## Checking a run -/

section
variable {F : Type} [FloatOps F] [IdCfg]

def cleanRC (vs : List (Vtx F)) (cv : EV F) : Nat → RC → Bool
  | 0, s => cleanMesh s.ts && s.isects.isEmpty
  | n + 1, s => cleanMesh s.ts &&
      match s.isects with
      | [] => true
      | d :: rest =>
        match removeStep vs cv d { s with isects := rest } with
        | .ok s' => cleanRC vs cv n s'
        | _ => true

theorem cleanRC_not {vs : List (Vtx F)} {cv : EV F} {k : Nat} {s x : RC} (h : RCSteps vs cv k s x) :
    ∀ n, cleanRC vs cv n s = true → ¬ Comb.Doubled x.ts := by
  induction h with
  | zero s =>
    intro n hc
    cases n <;> (rw [cleanRC, Bool.and_eq_true] at hc; exact cleanMesh_not hc.1)
  | succ e h r ih =>
    intro n hc
    cases n with
    | zero => rw [cleanRC, Bool.and_eq_true, e] at hc; simp at hc
    | succ n =>
      rw [cleanRC, Bool.and_eq_true, e] at hc
      dsimp only at hc
      rw [h] at hc
      exact ih n hc.2

def cleanRS (vs : List (Vtx F)) (ce : Edge) : Nat → RS → Bool
  | 0, s => cleanMesh s.ts && s.diags.isEmpty
  | n + 1, s => cleanMesh s.ts &&
      match s.diags with
      | [] => true
      | d :: rest =>
        match restoreStepC vs ce d { s with diags := rest } with
        | .ok s' => cleanRS vs ce n s'
        | _ => true

theorem cleanRS_not {vs : List (Vtx F)} {ce : Edge} {k : Nat} {s x : RS} (h : Comb.RSSteps vs ce k s x) :
    ∀ n, cleanRS vs ce n s = true → ¬ Comb.Doubled x.ts := by
  induction h with
  | zero s =>
    intro n hc
    cases n <;> (rw [cleanRS, Bool.and_eq_true] at hc; exact cleanMesh_not hc.1)
  | succ e h r ih =>
    intro n hc
    cases n with
    | zero => rw [cleanRS, Bool.and_eq_true, e] at hc; simp at hc
    | succ n =>
      rw [cleanRS, Bool.and_eq_true, e] at hc
      dsimp only at hc
      rw [h] at hc
      exact ih n hc.2

def listedOnce : List EdgeData → Bool
  | [] => true
  | d :: l => l.all (fun e => !decide ((d.edge.src = e.edge.src ∧ d.edge.dst = e.edge.dst) ∨ (d.edge.src = e.edge.dst ∧ d.edge.dst = e.edge.src))) &&
      listedOnce l

theorem listedOnce_not {l : List EdgeData} (h : listedOnce l = true) : ¬ Spec.Repeated l := by
  induction l with
  | nil => rintro ⟨i, j, d, e, _, h1, _⟩; simp at h1
  | cons a l ih =>
    simp only [listedOnce, Bool.and_eq_true, List.all_eq_true, Bool.not_eq_true', decide_eq_false_iff_not] at h
    rintro ⟨i, j, d, e, hij, h1, h2, h3⟩
    cases j with
    | zero => omega
    | succ j =>
      rw [List.getElem?_cons_succ] at h2
      cases i with
      | zero =>
        simp only [List.getElem?_cons_zero, Option.some.injEq] at h1
        subst h1
        exact h.1 e (List.mem_of_getElem? h2) h3
      | succ i =>
        rw [List.getElem?_cons_succ] at h1
        exact ih h.2 ⟨i, j, d, e, by omega, h1, h2, h3⟩

def cleanEdge (vs : List (Vtx F)) (fuel : Nat) (ce : Edge) (s : AC) : Bool :=
  match vs[ce.src]?, vs[ce.dst]? with
  | some A, some B =>
    match registerEdges vs s.ts ce (A, B) s.v2t with
    | .ok l => listedOnce l && cleanRC vs (A, B) fuel ⟨s.ts, s.v2t, l, [], 0⟩ &&
        match removeCrossed vs (A, B) fuel ⟨s.ts, s.v2t, l, [], 0⟩ with
        | .ok rc => cleanRS vs ce fuel ⟨rc.ts, rc.v2t, rc.diags, []⟩
        | _ => true
    | _ => true
  | _, _ => true

theorem cleanEdge_not {vs : List (Vtx F)} {fuel : Nat} {ce : Edge} {s : AC} (h : cleanEdge vs fuel ce s = true) :
    (∀ us, Comb.EVisits vs fuel ce s us → ¬ Comb.Doubled us) ∧
    ∀ A B l, vs[ce.src]? = some A → vs[ce.dst]? = some B → registerEdges vs s.ts ce (A, B) s.v2t = .ok l → ¬ Spec.Repeated l := by
  unfold cleanEdge at h
  constructor
  · rintro us ⟨A, B, l, h1, h2, h3, ⟨k, x, h4, rfl⟩ | ⟨rc, k, x, h4, h5, rfl⟩⟩
    · rw [h1, h2] at h
      simp only [h3, Bool.and_eq_true] at h
      exact cleanRC_not h4 _ h.1.2
    · rw [h1, h2] at h
      simp only [h3, h4, Bool.and_eq_true] at h
      exact cleanRS_not h5 _ h.2
  · intro A B l h1 h2 h3
    rw [h1, h2] at h
    simp only [h3, Bool.and_eq_true] at h
    exact listedOnce_not h.1.1

def cleanLoop (vs : List (Vtx F)) (fuel : Nat) (merge : List Nat) : List Edge → AC → Bool
  | [], _ => true
  | e :: es, s =>
    (match merge[e.src]?, merge[e.dst]? with
    | some a, some b => cleanEdge vs fuel ⟨a, b⟩ ⟨s.ts, s.v2t, ⟨a, b⟩ :: s.S⟩
    | _, _ => true) &&
    match applyOne vs fuel merge e s with
    | .ok s' => cleanLoop vs fuel merge es s'
    | _ => true

theorem cleanLoop_not {vs : List (Vtx F)} {fuel : Nat} {merge : List Nat} {es : List Edge} {s : AC} (h : cleanLoop vs fuel merge es s = true) :
    ∀ ce x, Comb.Inserts vs fuel merge es s ce x → cleanEdge vs fuel ce x = true := by
  induction es generalizing s with
  | nil => rintro ce x ⟨pre, e, post, s1, he, _⟩; simp at he
  | cons e es ih =>
    rw [cleanLoop, Bool.and_eq_true] at h
    rintro ce x ⟨pre, e', post, s1, he, h1, h2, h3, h4, h5, rfl⟩
    cases pre with
    | nil =>
      simp only [List.nil_append, List.cons.injEq] at he
      obtain ⟨rfl, rfl⟩ := he
      simp only [applyLoop, Res.ok.injEq] at h1
      subst h1
      rw [h2, h3] at h
      exact h.1
    | cons w pre =>
      simp only [List.cons_append, List.cons.injEq] at he
      obtain ⟨rfl, he⟩ := he
      simp only [applyLoop, Res.bind_eq_ok] at h1
      obtain ⟨s2, hi, h1⟩ := h1
      rw [hi] at h
      exact ih h.2 _ _ ⟨pre, e', post, s1, he, h1, h2, h3, h4, h5, rfl⟩

/-- The whole run, checked. -/
def cleanCdt (fuel b : Nat) (vs : List (Vtx F)) (es : List Edge) : Bool :=
  cleanRun fuel b vs (some (mergeTable vs.length)) &&
  match wrapAndTriangulate fuel b vs (some (mergeTable vs.length)) with
  | .ok s =>
    match buildV2t s.ts 0 (List.replicate vs.length 0) with
    | .ok v2t => cleanLoop vs fuel (s.merge.getD []) es ⟨s.ts, v2t, []⟩
    | _ => true
  | _ => true

theorem cleanCdt_not {fuel b : Nat} {vs : List (Vtx F)} {es : List Edge} (h : cleanCdt fuel b vs es = true) : ¬ RootCause fuel b vs es := by
  unfold cleanCdt at h
  rw [Bool.and_eq_true] at h
  obtain ⟨h0, h⟩ := h
  rintro (⟨us, h1, h2⟩ | ⟨ce, s, us, ⟨s0, v2t, h1, h2, h3⟩, h4, h5⟩ | ⟨ce, s, A, B, l, ⟨s0, v2t, h1, h2, h3⟩, h4, h5, h6, h7⟩)
  · exact cleanRun_not h0 ⟨us, h1, h2⟩
  · simp only [h1, h2] at h
    exact (cleanEdge_not (cleanLoop_not h _ _ h3)).1 us h4 (doubled_iff.2 h5)
  · simp only [h1, h2] at h
    exact (cleanEdge_not (cleanLoop_not h _ _ h3)).2 A B l h4 h5 h6 h7

end

section
open Witness
local instance rootCCfg : IdCfg := u32Cfg

/-- Seven points and a constraint that crosses edges of their triangulation: no root cause. -/
def crossRun : List (Int × Int) := [(0,0),(4,0),(4,4),(0,4),(2,3),(1,3),(9,2)]

theorem crossRun_clean : ¬ RootCause 200 (defaultBins 7) (normalizeVerts (fpts crossRun)) [⟨0, 6⟩, ⟨6, 3⟩, ⟨3, 0⟩] :=
  cleanCdt_not (by decide +kernel)

/-- Edges are swapped in this run: the last mesh is not the triangulation of the vertices. -/
example : (constrainedMesh 200 defaultBins (fpts crossRun) [⟨0, 6⟩, ⟨6, 3⟩, ⟨3, 0⟩] >>= fun r => .ok (r.ts.map Tri.verts)) ≠
    (constrainedMesh 200 defaultBins (fpts crossRun) [] >>= fun r => .ok (r.ts.map Tri.verts)) := by decide +kernel

/-- The theorem for the output of this run. -/
example : ∀ out, constrained2d 200 defaultBins (fpts crossRun) [⟨0, 6⟩, ⟨6, 3⟩, ⟨3, 0⟩] = .ok out →
    (∀ a b c, (a, b, c) ∈ out → a ≠ b ∧ b ≠ c ∧ c ≠ a) ∧ out.Pairwise fun o o' => ¬ Spec.SameOut o o' := by
  intro out ho
  by_contra hb
  exact crossRun_clean (C66_ieee 200 defaultBins (fpts crossRun) _ (fpts_values _) (by decide) (by decide) (by decide) (by decide) (by decide)
    (by decide) (.inr ⟨out, ho, hb⟩))

/-- A run with output triangles that have a repeated vertex: a root cause has occurred. -/
example : RootCause 200 (defaultBins 6) (normalizeVerts (fpts repeatPts)) [⟨5, 4⟩, ⟨4, 2⟩] :=
  C66_ieee 200 defaultBins (fpts repeatPts) _ (fpts_values _) (by decide) (by decide) (by decide) (by decide) (by decide) (by decide)
    (.inr ⟨[(5, 4, 2), (0, 5, 2), (0, 2, 4), (0, 4, 3), (0, 3, 5), (0, 0, 5), (0, 1, 0)], by decide +kernel,
      fun h => (h.1 0 0 5 (by decide)).1 rfl⟩)

/-- Seven points close to a line. -/
def latePts : List (Int × Int) := [(10000000071,7000000013),(7000000050,4900000010),(5000000035,3500000006),(6000000042,4200000009),
  (9000000063,6300000010),(5000000036,3500000007),(5000000035,3500000007)]

/-- The insertion of the vertices can be free of root causes, and the insertion of a constraint not: two output triangles are on the
vertices 2, 3 and 5. -/
example : (¬ ∃ us, Visited 200 (defaultBins 7) (normalizeVerts (fpts latePts)) (some (mergeTable 7)) us ∧ Spec.Twice us) ∧
    RootCause 200 (defaultBins 7) (normalizeVerts (fpts latePts)) [⟨3, 2⟩] :=
  ⟨cleanRun_not (by decide +kernel),
    C66_ieee 200 defaultBins (fpts latePts) _ (fpts_values _) (by decide) (by decide) (by decide) (by decide) (by decide) (by decide)
      (.inr ⟨[(2, 6, 3), (0, 4, 1), (0, 1, 3), (2, 3, 1), (2, 5, 3), (2, 3, 5)], by decide +kernel,
        fun h => (List.pairwise_iff_getElem.1 h.2) 4 5 (by decide) (by decide) (by decide) fun v => by simp; tauto⟩)⟩

end

end CDT

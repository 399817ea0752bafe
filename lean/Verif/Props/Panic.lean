import Verif.Comb.Run
import Verif.Spec.Symbolic
import Verif.Spec.Twice
import Verif.Props.Ieee
import Verif.Props.Rounding
import Verif.Props.RoundedC

/-!
# C47: where the unconstrained triangulation can panic, and why

Nothing is assumed about the arithmetic: the predicates may answer anything. The only panic is an unwrapped missing
neighbor behind the edge on which a vertex was placed, and it can only occur after some swap made two triangles
with the same three vertices.
-/

set_option linter.unusedSectionVars false
set_option linter.unusedVariables false

namespace CDT

section
variable {F : Type} [FloatOps F] [IdCfg]

/-- The meshes that exist during a run of the insertion loop (`triangulation.rs:386-519`) after the first vertex: after
each split and after each processed entry of the restoration stack. -/
def Visited (fuel b : Nat) (vs : List (Vtx F)) (m : Option (List Nat)) (us : List Tri) : Prop :=
  ∃ first rest, binSort b vs = .ok (first :: rest) ∧ Comb.Visits vs fuel rest ⟨initialTriangles first, 3, m⟩ us

theorem same_iff {t u : Tri} : Comb.Same t u ↔
    ∀ v, (v = t.v1 ∨ v = t.v2 ∨ v = t.v3) ↔ (v = u.v1 ∨ v = u.v2 ∨ v = u.v3) := by
  have e : ∀ (t : Tri) (v : Nat), t.hasVert v = true ↔ (v = t.v1 ∨ v = t.v2 ∨ v = t.v3) := fun t v => by
    rw [hasVert_iff, eq_comm (a := t.v1), eq_comm (a := t.v2), eq_comm (a := t.v3)]
  unfold Comb.Same
  simp only [e]

theorem doubled_iff {ts : List Tri} : Comb.Doubled ts ↔ Spec.Twice ts := by
  unfold Comb.Doubled Spec.Twice
  constructor
  · rintro ⟨i, j, t, u, h1, h2, h3, h4⟩; exact ⟨i, j, t, u, h3, h1, h2, same_iff.1 h4⟩
  · rintro ⟨i, j, t, u, h3, h1, h2, h4⟩; exact ⟨i, j, t, u, h1, h2, h3, same_iff.2 h4⟩

theorem comb_adjacency {ts : List Tri} (h : Comb.Valid ts) : Spec.Adjacency ts := by
  intro i t ht a b j he
  have hE : Ent ts i a b j := by
    refine ⟨t, ht, ?_⟩
    simp only [Spec.edges, List.mem_cons, Prod.mk.injEq, List.not_mem_nil, or_false] at he
    rcases he with ⟨rfl, rfl, rfl⟩ | ⟨rfl, rfl, rfl⟩ | ⟨rfl, rfl, rfl⟩
    · exact has_0 t
    · exact has_1 t
    · exact has_2 t
  rcases h.adj _ _ _ _ hE with ⟨h1, h2, h3⟩ | ⟨h1, h2⟩
  · exact .inl ⟨h1, by omega, by omega⟩
  · right
    refine ⟨h2.lt, ?_⟩
    obtain ⟨u, hu, hh⟩ := h2
    refine ⟨u, hu, ?_⟩
    simp only [Spec.edges, List.mem_cons, Prod.mk.injEq, List.not_mem_nil, or_false]
    rcases hh with ⟨r1, r2, r3⟩ | ⟨r1, r2, r3⟩ | ⟨r1, r2, r3⟩ <;> simp [r1, r2, r3]

theorem perm_parts {n first : Nat} {rest : List Nat} (hp : (first :: rest).Perm (List.range n)) :
    first < n ∧ rest.Nodup ∧ (∀ v ∈ rest, v ∉ [first]) ∧ (∀ v ∈ rest, v < n) ∧ rest.length + 1 = n := by
  have hm : ∀ v ∈ first :: rest, v < n := fun v hv => List.mem_range.1 (hp.mem_iff.1 hv)
  have hnd : (first :: rest).Nodup := hp.nodup_iff.2 List.nodup_range
  rw [List.nodup_cons] at hnd
  have hl := hp.length_eq
  simp only [List.length_cons, List.length_range] at hl
  refine ⟨hm _ (by simp), hnd.2, fun v hv h => ?_, fun v hv => hm v (by simp [hv]), hl⟩
  simp only [List.mem_singleton] at h
  exact hnd.1 (h ▸ hv)

theorem wrap_unfold {fuel b : Nat} {vs : List (Vtx F)} {first : Nat} {rest : List Nat} (hs : binSort b vs = .ok (first :: rest))
    (m : Option (List Nat)) :
    wrapAndTriangulate fuel b vs m = insertAll vs fuel rest ⟨initialTriangles first, 3, m⟩ := by
  have hb := IdCfg.big
  have : lastId (initialTriangles first) = .ok 3 :=
    lastId_ok (by simp [initialTriangles]) (by simp [initialTriangles]; unfold NONE; omega)
  simp only [wrapAndTriangulate, hs, Res.ok_bind, this]

/-- **C47**, first part: the insertion loop panics if and only if, at some point of the run, the search places a vertex on
an edge without a triangle behind it, and the vertex is not merged with an end of that edge. -/
theorem C47_panic_site (fuel b : Nat) (vs : List (Vtx F)) (m : Option (List Nat)) {first : Nat} {rest : List Nat}
    (hs : binSort b vs = .ok (first :: rest)) (hp : (first :: rest).Perm (List.range vs.length))
    (hn : 2 * vs.length + 2 ≤ NONE) :
    wrapAndTriangulate fuel b vs m = .panic ↔
      ∃ pre vid post s, rest = pre ++ vid :: post ∧ insertAll vs fuel pre ⟨initialTriangles first, 3, m⟩ = .ok s ∧
        OnBareEdge vs s vid := by
  have hb := IdCfg.big
  obtain ⟨h1, h2, h3, h4, h5⟩ := perm_parts hp
  have hinf : vs.length ≤ INF0 := by unfold INF0; unfold NONE at hn; omega
  rw [wrap_unfold hs]
  refine insertAll_panic_iff hinf fuel rest h4 (initial_sane h1) (by simp [initialTriangles]) ?_
  simp only [initialTriangles, List.length_cons, List.length_nil]
  unfold NONE at hn; omega

/-- **C47**, second part: if the run panics or does not terminate, or if the mesh it returns has inconsistent neighbors or a
triangle with a repeated vertex, then an earlier mesh of the same run has two triangles with the same three vertices. -/
theorem C47_root_cause (fuel b : Nat) (vs : List (Vtx F)) (m : Option (List Nat)) {first : Nat} {rest : List Nat}
    (hs : binSort b vs = .ok (first :: rest)) (hp : (first :: rest).Perm (List.range vs.length))
    (hn : 2 * vs.length + 2 ≤ NONE) (hfuel : 6 * vs.length + 10 ≤ fuel)
    (bad : wrapAndTriangulate fuel b vs m = .panic ∨ wrapAndTriangulate fuel b vs m = .diverge ∨
      ∃ s, wrapAndTriangulate fuel b vs m = .ok s ∧ ¬ (Spec.Adjacency s.ts ∧ Spec.Distinct3 s.ts ∧ ¬ Spec.Twice s.ts)) :
    ∃ us, Visited fuel b vs m us ∧ Spec.Twice us := by
  have hb := IdCfg.big
  obtain ⟨h1, h2, h3, h4, h5⟩ := perm_parts hp
  have hinf : vs.length ≤ INF0 := by unfold INF0; unfold NONE at hn; omega
  by_contra hno
  have := Comb.insertAll_total hn hfuel rest [first] _ (Comb.initial_linv h1 hinf m) h2 h3 h4
    (by simp only [List.length_cons, List.length_nil]; omega)
    (fun us hus hd => hno ⟨us, ⟨first, rest, hs, hus⟩, doubled_iff.1 hd⟩)
  rw [wrap_unfold hs] at bad
  rcases this with h | ⟨s, h, hI⟩
  · simp [h] at bad
  · rw [h] at bad
    rcases bad with bad | bad | ⟨s', bad, hbad⟩
    · simp at bad
    · simp at bad
    · simp only [Res.ok.injEq] at bad
      subst bad
      refine hbad ⟨comb_adjacency hI.valid, fun t ht => ?_, fun hd => ?_⟩
      · obtain ⟨i, hi⟩ := List.mem_iff_getElem?.1 ht
        exact (hI.valid.pos i t hi).ne
      · obtain ⟨i, j, t, u, a1, a2, a3, a4⟩ := doubled_iff.2 hd
        exact hI.valid.single i j t u a1 a2 a3 a4

end

section
variable {f : Fmt} [IdCfg] [Fl.Ok f]

theorem ieee_sort (bins : Nat → Nat) (vs : List (Vtx (Fl f))) (hv : ∀ v ∈ vs, v.x.IsValue ∧ v.y.IsValue)
    (h3 : 3 ≤ vs.length) (hb : 1 ≤ bins vs.length) (hc : bins vs.length ≤ Fl.usizeMax) (hn : 2 * vs.length + 2 ≤ NONE) :
    ∃ first rest, binSort (bins vs.length) (normalizeVerts vs) = .ok (first :: rest) ∧
      (first :: rest).Perm (List.range (normalizeVerts vs).length) := by
  obtain ⟨out, h1, h2⟩ := C43_binSort vs hv _ hb hc (by unfold NONE at hn; omega)
  have hlen : (normalizeVerts vs).length = vs.length := Rounded.normalizeVerts_length' vs
  have hl := h2.length_eq
  simp only [List.length_range] at hl
  cases out with
  | nil => simp at hl; omega
  | cons a l => exact ⟨a, l, h1, by rwa [hlen]⟩

theorem t2d_unfold {F : Type} [FloatOps F] {fuel : Nat} {bins : Nat → Nat} {vs : List (Vtx F)} (h3 : 3 ≤ vs.length) :
    triangulation2d fuel bins vs =
      (wrapAndTriangulate fuel (bins vs.length) (normalizeVerts vs) none >>= fun s => .ok (filterSeq s.ts)) := by
  unfold triangulation2d
  rw [if_neg (by omega)]

/-- **C47** for IEEE floats, infinities and NaN included: `triangulation_from_2d_vertices` panics if and only if a vertex is
placed on an edge without a triangle behind it and not merged. -/
theorem C47_ieee_panic_site (fuel : Nat) (bins : Nat → Nat) (vs : List (Vtx (Fl f)))
    (hv : ∀ v ∈ vs, v.x.IsValue ∧ v.y.IsValue) (h3 : 3 ≤ vs.length) (hb : 1 ≤ bins vs.length)
    (hc : bins vs.length ≤ Fl.usizeMax) (hn : 2 * vs.length + 2 ≤ NONE) :
    triangulation2d fuel bins vs = .panic ↔
      ∃ first pre vid post s, binSort (bins vs.length) (normalizeVerts vs) = .ok (first :: (pre ++ vid :: post)) ∧
        insertAll (normalizeVerts vs) fuel pre ⟨initialTriangles first, 3, none⟩ = .ok s ∧
        OnBareEdge (normalizeVerts vs) s vid := by
  obtain ⟨first, rest, hs, hp⟩ := ieee_sort bins vs hv h3 hb hc hn
  have hlen : (normalizeVerts vs).length = vs.length := Rounded.normalizeVerts_length' vs
  rw [t2d_unfold h3]
  have iff1 : (wrapAndTriangulate fuel (bins vs.length) (normalizeVerts vs) none >>= fun s => Res.ok (filterSeq s.ts)) = .panic ↔
      wrapAndTriangulate fuel (bins vs.length) (normalizeVerts vs) none = .panic := by
    cases wrapAndTriangulate fuel (bins vs.length) (normalizeVerts vs) none <;> simp
  rw [iff1, C47_panic_site fuel _ _ none hs hp (by rw [hlen]; exact hn), hs]
  constructor
  · rintro ⟨pre, vid, post, s, rfl, h⟩
    exact ⟨first, pre, vid, post, s, rfl, h⟩
  · rintro ⟨first', pre, vid, post, s, e, h⟩
    simp only [Res.ok.injEq, List.cons.injEq] at e
    obtain ⟨rfl, rfl⟩ := e
    exact ⟨pre, vid, post, s, rfl, h⟩

/-- **C47** for IEEE floats: a panic, a run that does not terminate or an output triangle with a repeated vertex is always
preceded by a mesh with two triangles on the same three vertices. -/
theorem C47_ieee_root_cause (fuel : Nat) (bins : Nat → Nat) (vs : List (Vtx (Fl f)))
    (hv : ∀ v ∈ vs, v.x.IsValue ∧ v.y.IsValue) (h3 : 3 ≤ vs.length) (hb : 1 ≤ bins vs.length)
    (hc : bins vs.length ≤ Fl.usizeMax) (hn : 2 * vs.length + 2 ≤ NONE) (hfuel : 6 * vs.length + 10 ≤ fuel)
    (bad : triangulation2d fuel bins vs = .panic ∨ triangulation2d fuel bins vs = .diverge ∨
      ∃ out a b c, triangulation2d fuel bins vs = .ok out ∧ (a, b, c) ∈ out ∧ ¬ (a ≠ b ∧ b ≠ c ∧ c ≠ a)) :
    ∃ us, Visited fuel (bins vs.length) (normalizeVerts vs) none us ∧ Spec.Twice us := by
  obtain ⟨first, rest, hs, hp⟩ := ieee_sort bins vs hv h3 hb hc hn
  have hlen : (normalizeVerts vs).length = vs.length := Rounded.normalizeVerts_length' vs
  refine C47_root_cause fuel _ _ none hs hp (by rw [hlen]; exact hn) (by rw [hlen]; exact hfuel) ?_
  rw [t2d_unfold h3] at bad
  cases hw : wrapAndTriangulate fuel (bins vs.length) (normalizeVerts vs) none with
  | panic => simp
  | diverge => simp
  | err e => rw [hw] at bad; simp at bad
  | ok s =>
    rw [hw] at bad
    rcases bad with bad | bad | ⟨out, a, b, c, bad, hm, hne⟩
    · simp at bad
    · simp at bad
    · simp only [Res.ok_bind, Res.ok.injEq] at bad
      subst bad
      refine .inr (.inr ⟨s, rfl, fun h => ?_⟩)
      obtain ⟨t, ht, _, e⟩ := mem_filterSeq hm
      simp only [Tri.verts, Prod.mk.injEq] at e
      obtain ⟨rfl, rfl, rfl⟩ := e
      exact hne (h.2.1 t ht)

end

/-! ## Checking a run -/

section
variable {F : Type} [FloatOps F] [IdCfg]

instance (t u : Tri) : Decidable (Comb.Same t u) :=
  decidable_of_iff ((t.hasVert u.v1 ∧ t.hasVert u.v2 ∧ t.hasVert u.v3) ∧ (u.hasVert t.v1 ∧ u.hasVert t.v2 ∧ u.hasVert t.v3)) (by
    constructor
    · rintro ⟨⟨a1, a2, a3⟩, b1, b2, b3⟩ v
      constructor
      · intro h; rw [hasVert_iff] at h; rcases h with rfl | rfl | rfl <;> assumption
      · intro h; rw [hasVert_iff] at h; rcases h with rfl | rfl | rfl <;> assumption
    · intro h
      refine ⟨⟨(h _).2 ?_, (h _).2 ?_, (h _).2 ?_⟩, (h _).1 ?_, (h _).1 ?_, (h _).1 ?_⟩ <;> simp [hasVert_iff])

/-- No two triangles with the same vertices. -/
def cleanMesh : List Tri → Bool
  | [] => true
  | t :: ts => ts.all (fun u => !decide (Comb.Same t u)) && cleanMesh ts

theorem cleanMesh_not {ts : List Tri} (h : cleanMesh ts = true) : ¬ Comb.Doubled ts := by
  induction ts with
  | nil => rintro ⟨i, j, t, u, h1, _⟩; simp at h1
  | cons a ts ih =>
    simp only [cleanMesh, Bool.and_eq_true, List.all_eq_true, Bool.not_eq_true', decide_eq_false_iff_not] at h
    rintro ⟨i, j, t, u, h1, h2, h3, h4⟩
    cases i with
    | zero =>
      cases j with
      | zero => exact h3 rfl
      | succ j =>
        simp only [List.getElem?_cons_zero, Option.some.injEq, List.getElem?_cons_succ] at h1 h2
        subst h1
        exact h.1 u (List.mem_of_getElem? h2) h4
    | succ i =>
      cases j with
      | zero =>
        simp only [List.getElem?_cons_zero, Option.some.injEq, List.getElem?_cons_succ] at h1 h2
        subst h2
        exact h.1 t (List.mem_of_getElem? h1) fun v => (h4 v).symm
      | succ j =>
        simp only [List.getElem?_cons_succ] at h1 h2
        exact ih h.2 ⟨i, j, t, u, h1, h2, by omega, h4⟩

/-- The restoration meets no mesh with a doubled triangle. -/
def cleanRestore (vs : List (Vtx F)) (p : Nat) : Nat → List Tri → List (Nat × Nat) → Bool
  | _, ts, [] => cleanMesh ts
  | 0, _, _ => false
  | n + 1, ts, (a, b) :: st => cleanMesh ts &&
      match checkAndSwap vs p ts a b st with
      | .ok (ts1, st1) => cleanRestore vs p n ts1 st1
      | _ => true

theorem cleanRestore_not {vs : List (Vtx F)} {p : Nat} {ts us : List Tri} {st : List (Nat × Nat)} (h : Comb.RVisits vs p ts st us) :
    ∀ n, cleanRestore vs p n ts st = true → ¬ Comb.Doubled us := by
  induction h with
  | here ts st =>
    intro n hc
    cases st with
    | nil => rw [cleanRestore] at hc; exact cleanMesh_not hc
    | cons e st =>
      cases n with
      | zero => simp [cleanRestore] at hc
      | succ n =>
        rw [cleanRestore, Bool.and_eq_true] at hc
        exact cleanMesh_not hc.1
  | step h hr ih =>
    intro n hc
    cases n with
    | zero => simp [cleanRestore] at hc
    | succ n =>
      rw [cleanRestore, Bool.and_eq_true, h] at hc
      exact ih n hc.2

/-- The insertion of `vid` meets no mesh with a doubled triangle. -/
def cleanInsert (vs : List (Vtx F)) (fuel : Nat) (s : DT) (vid : Nat) : Bool :=
  match vs[vid]? with
  | none => true
  | some p =>
    match findPlacement vs p s.tid s.ts with
    | .ok (.inside t) =>
      match split3 s.ts t vid with
      | .ok r => cleanRestore vs vid fuel r.1 r.2
      | _ => true
    | .ok (.onEdge t ei e) =>
      match split4 s.ts t ei e vid with
      | .ok r => cleanRestore vs vid fuel r.1 r.2
      | _ => true
    | _ => true

theorem cleanInsert_not {vs : List (Vtx F)} {fuel : Nat} {s : DT} {vid : Nat} (h : cleanInsert vs fuel s vid = true) :
    ∀ us, Comb.IVisits vs s vid us → ¬ Comb.Doubled us := by
  rintro us ⟨p, r, hp, hc | hc, hr⟩
  · obtain ⟨t, h1, h2⟩ := hc
    simp only [cleanInsert, hp, h1, h2] at h
    exact cleanRestore_not hr _ h
  · obtain ⟨t, ei, e, h1, _, h2⟩ := hc
    simp only [cleanInsert, hp, h1, h2] at h
    exact cleanRestore_not hr _ h

/-- The insertion of the vertices `l` meets no mesh with a doubled triangle. -/
def cleanAll (vs : List (Vtx F)) (fuel : Nat) : List Nat → DT → Bool
  | [], _ => true
  | v :: l, s => cleanInsert vs fuel s v &&
      match insertVertex vs fuel s v with
      | .ok s' => cleanAll vs fuel l s'
      | _ => true

theorem cleanAll_not {vs : List (Vtx F)} {fuel : Nat} {l : List Nat} {s : DT} (h : cleanAll vs fuel l s = true) :
    ∀ us, Comb.Visits vs fuel l s us → ¬ Comb.Doubled us := by
  induction l generalizing s with
  | nil => rintro us ⟨pre, vid, rest, s', e, _⟩; simp at e
  | cons v l ih =>
    rintro us ⟨pre, vid, rest, s', e, h1, h2⟩
    rw [cleanAll, Bool.and_eq_true] at h
    cases pre with
    | nil =>
      simp only [List.nil_append, List.cons.injEq] at e
      obtain ⟨rfl, rfl⟩ := e
      simp only [insertAll, Res.ok.injEq] at h1
      subst h1
      exact cleanInsert_not h.1 us h2
    | cons w pre =>
      simp only [List.cons_append, List.cons.injEq] at e
      obtain ⟨rfl, e⟩ := e
      simp only [insertAll, Res.bind_eq_ok] at h1
      obtain ⟨s1, hi, h1⟩ := h1
      rw [hi] at h
      exact ih h.2 us ⟨pre, vid, rest, s', e, h1, h2⟩

/-- The whole run meets no mesh with a doubled triangle. -/
def cleanRun (fuel b : Nat) (vs : List (Vtx F)) (m : Option (List Nat)) : Bool :=
  match binSort b vs with
  | .ok (first :: rest) => cleanAll vs fuel rest ⟨initialTriangles first, 3, m⟩
  | _ => true

theorem cleanRun_not {fuel b : Nat} {vs : List (Vtx F)} {m : Option (List Nat)} (h : cleanRun fuel b vs m = true) :
    ¬ ∃ us, Visited fuel b vs m us ∧ Spec.Twice us := by
  rintro ⟨us, ⟨first, rest, h1, h2⟩, h3⟩
  rw [cleanRun, h1] at h
  exact cleanAll_not h us h2 (doubled_iff.2 h3)

end

/-! ## C45 -/

section
open Plane
variable {K : Type} [Field K] [LinearOrder K] [IsStrictOrderedRing K] [ExactParams K] [IdCfg]

theorem clockwise_ne {A B C : Vtx K} (h : Clockwise A B C) : A ≠ B ∧ B ≠ C ∧ C ≠ A := by
  unfold Clockwise area2 at h
  refine ⟨?_, ?_, ?_⟩ <;> rintro rfl <;> ring_nf at h <;> exact lt_irrefl _ h

theorem ids_ne {vs : List (Vtx K)} {out : List Out} (h : ∀ a b c, (a, b, c) ∈ out →
    ∃ A B C, vs[a]? = some A ∧ vs[b]? = some B ∧ vs[c]? = some C ∧ Clockwise A B C) :
    ∀ a b c, (a, b, c) ∈ out → a ≠ b ∧ b ≠ c ∧ c ≠ a := by
  intro a b c hm
  obtain ⟨A, B, C, hA, hB, hC, hcw⟩ := h a b c hm
  obtain ⟨h1, h2, h3⟩ := clockwise_ne hcw
  refine ⟨?_, ?_, ?_⟩ <;> rintro rfl
  · rw [hA] at hB; exact h1 (Option.some.inj hB)
  · rw [hB] at hC; exact h2 (Option.some.inj hC)
  · rw [hC] at hA; exact h3 (Option.some.inj hA)

/-- **C45** in exact arithmetic with separated predicates. Missing: inputs on which rounding matters, where it is false
(`C45_distinct_refuted`). -/
theorem C45_distinct_partial (fuel : Nat) (bins : Nat → Nat) (vs : List (Vtx K)) (h : Good fuel bins vs) (es : List Edge)
    (out : List Out) (ho : triangulation2d fuel bins vs = .ok out ∨ constrained2d fuel bins vs es = .ok out) :
    ∀ a b c, (a, b, c) ∈ out → a ≠ b ∧ b ≠ c ∧ c ≠ a := by
  rcases ho with ho | ho
  · exact ids_ne (C03_clockwise fuel bins vs h out ho)
  · exact ids_ne (C30_output_clockwise fuel bins vs h es out ho)
end

/-- **C45** in correctly rounded arithmetic on robust inputs. -/
theorem C45_rounded_partial {F : Type} [FloatOps F] [Rounded F] [IdCfg] {fuel : Nat} {bins : Nat → Nat} {vs : List (Vtx F)}
    {V : List (Vtx ℚ)} {W : ℚ} (h : Rounded.RGoodC fuel bins vs V W) (es : List Edge) (out : List Out)
    (ho : triangulation2d fuel bins vs = .ok out ∨ constrained2d fuel bins vs es = .ok out) :
    ∀ a b c, (a, b, c) ∈ out → a ≠ b ∧ b ≠ c ∧ c ≠ a := by
  rcases ho with ho | ho
  · exact ids_ne (C03_rounded h.toRGood out ho)
  · exact ids_ne (C30_rounded_output h es out ho).1

/-- **C45** in any arithmetic, if no mesh of the run has a doubled triangle. -/
theorem C45_clean_partial {f : Fmt} [IdCfg] [Fl.Ok f] (fuel : Nat) (bins : Nat → Nat) (vs : List (Vtx (Fl f)))
    (hv : ∀ v ∈ vs, v.x.IsValue ∧ v.y.IsValue) (h3 : 3 ≤ vs.length) (hb : 1 ≤ bins vs.length)
    (hc : bins vs.length ≤ Fl.usizeMax) (hn : 2 * vs.length + 2 ≤ NONE) (hfuel : 6 * vs.length + 10 ≤ fuel)
    (hclean : ¬ ∃ us, Visited fuel (bins vs.length) (normalizeVerts vs) none us ∧ Spec.Twice us)
    (out : List Out) (ho : triangulation2d fuel bins vs = .ok out) :
    ∀ a b c, (a, b, c) ∈ out → a ≠ b ∧ b ≠ c ∧ c ≠ a := by
  intro a b c hm
  by_contra hne
  exact hclean (C47_ieee_root_cause fuel bins vs hv h3 hb hc hn hfuel (.inr (.inr ⟨out, a, b, c, ho, hm, hne⟩)))

/-! ## Examples -/

section PanicExamples
open Witness

theorem flPts_values {f : Fmt} [Fl.Ok f] (l : List (Int × Int)) :
    ∀ v ∈ l.map (fun p => (⟨.mk _ p.1, .mk _ p.2⟩ : Vtx (Fl f))), v.x.IsValue ∧ v.y.IsValue := by
  intro v hv
  simp only [List.mem_map] at hv
  obtain ⟨w, _, rfl⟩ := hv
  exact ⟨mk_isValue _, mk_isValue _⟩

theorem fpts_values (l : List (Int × Int)) : ∀ v ∈ fpts l, v.x.IsValue ∧ v.y.IsValue := flPts_values (f := binary64) l

local instance panicCfg : IdCfg := u32Cfg

/-- The run that panics (`C10_no_panic_refuted`) has a mesh with a doubled triangle. -/
example : ∃ us, Visited 300 (defaultBins 11) (normalizeVerts (fpts crashPts)) none us ∧ Spec.Twice us :=
  C47_ieee_root_cause 300 defaultBins (fpts crashPts) (fpts_values _) (by decide) (by decide) (by decide) (by decide) (by decide)
    (.inl (C10_no_panic_refuted.2.2 300 (by decide)))

/-- … and the vertex that causes the panic is placed on an edge without a triangle behind it. -/
example : ∃ first pre vid post s, binSort (defaultBins 11) (normalizeVerts (fpts crashPts)) = .ok (first :: (pre ++ vid :: post)) ∧
    insertAll (normalizeVerts (fpts crashPts)) 300 pre ⟨initialTriangles first, 3, none⟩ = .ok s ∧
    OnBareEdge (normalizeVerts (fpts crashPts)) s vid :=
  (C47_ieee_panic_site 300 defaultBins (fpts crashPts) (fpts_values _) (by decide) (by decide) (by decide) (by decide)).1
    (C10_no_panic_refuted.2.2 300 (by decide))

/-- Six points whose `f64` result has a triangle with a repeated vertex. -/
def repeatPts : List (Int × Int) := [(2,1000000000),(1,1000000001),(2,1),(1,1000000002),(0,0),(1000000000,1)]

/-- **C45** is false in `f64`. -/
theorem C45_distinct_refuted :
    repeatPts.Nodup ∧ (∀ v ∈ repeatPts, Fl.mk binary64 v.1 = .fin v.1 ∧ Fl.mk binary64 v.2 = .fin v.2) ∧
    ∀ fuel, 200 ≤ fuel → triangulation2d fuel defaultBins (fpts repeatPts) =
      .ok [(5, 4, 2), (0, 0, 5), (0, 1, 0), (0, 2, 4), (0, 5, 2), (0, 3, 5), (0, 4, 3)] :=
  ⟨by decide +kernel, by decide +kernel,
    fun _ hf => more_fuel (n := 200) (triangulation2d_fuel _ _) (by decide +kernel) (by simp) hf⟩

/-- The cause is a doubled triangle here as well. -/
example : ∃ us, Visited 200 (defaultBins 6) (normalizeVerts (fpts repeatPts)) none us ∧ Spec.Twice us :=
  C47_ieee_root_cause 200 defaultBins (fpts repeatPts) (fpts_values _) (by decide) (by decide) (by decide) (by decide) (by decide)
    (.inr (.inr ⟨_, 0, 0, 5, C45_distinct_refuted.2.2 200 (by decide), by decide, by decide⟩))

/-- No mesh of this run has a doubled triangle, so the theorem says the run is safe. -/
example : ¬ ∃ us, Visited 200 (defaultBins 7) (normalizeVerts (fpts [(0,0),(4,0),(4,4),(0,4),(2,2),(1,3),(7,2)])) none us ∧ Spec.Twice us :=
  cleanRun_not (by decide +kernel)

/-- NaN, infinities, the largest and the smallest number: the theorem applies. -/
example : triangulation2d 200 defaultBins wildSample = .panic ↔
    ∃ first pre vid post s, binSort (defaultBins 5) (normalizeVerts wildSample) = .ok (first :: (pre ++ vid :: post)) ∧
      insertAll (normalizeVerts wildSample) 200 pre ⟨initialTriangles first, 3, none⟩ = .ok s ∧
      OnBareEdge (normalizeVerts wildSample) s vid :=
  C47_ieee_panic_site 200 defaultBins wildSample wildSample_values (by decide) (by decide) (by decide) (by decide)

end PanicExamples

end CDT

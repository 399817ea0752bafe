import Verif.Proofs.PanicC
import Verif.Props.Panic
import Verif.Props.Flood
import Verif.Props.Refuted

/-!
# C65: where the constrained triangulation can panic

Nothing is assumed about the arithmetic: the predicates may answer anything.
-/

set_option linter.unusedSectionVars false
set_option linter.unusedVariables false

namespace CDT

section
variable {F : Type} [FloatOps F] [IdCfg]

theorem buildV2t_ids {n m : Nat} (hm : m ≤ NONE) (ts : List Tri) (hv : VertsIn (IdOk n) ts) : ∀ (i : Nat) (v2t : List Nat), i + ts.length ≤ m →
    v2t.length = n → (∀ k ∈ v2t, k < m) → ∃ v2t', buildV2t ts i v2t = .ok v2t' ∧ v2t'.length = n ∧ ∀ k ∈ v2t', k < m := by
  induction ts with
  | nil => intro i v2t _ h1 h2; exact ⟨v2t, rfl, h1, h2⟩
  | cons t ts ih =>
    intro i v2t hi h1 h2
    simp only [List.length_cons] at hi
    have hid : toId i = i := by unfold toId; exact Nat.mod_eq_of_lt (by unfold NONE at hm; omega)
    have step : ∀ (w : List Nat) (k : Fin 3), w.length = n → (∀ k ∈ w, k < m) →
        ∃ w', setV2t w (t.v k) i = .ok w' ∧ w'.length = n ∧ ∀ k ∈ w', k < m := by
      intro w k e1 e2
      have hne := setV2t_ne_panic (t := i) e1 (hv t (by simp) k)
      have : ∃ w', setV2t w (t.v k) i = .ok w' := by
        unfold setV2t setI at hne ⊢
        repeat' split
        all_goals simp_all
      obtain ⟨w', hw⟩ := this
      exact ⟨w', hw, (setV2t_length hw).trans e1, setV2t_lt hw (by omega) e2⟩
    obtain ⟨w1, s1, a1, b1⟩ := step v2t 0 h1 h2
    obtain ⟨w2, s2, a2, b2⟩ := step w1 1 a1 b1
    obtain ⟨w3, s3, a3, b3⟩ := step w2 2 a2 b2
    obtain ⟨w, hw, hw'⟩ := ih (fun t ht => hv t (by simp [ht])) (i + 1) w3 (by omega) a3 b3
    refine ⟨w, ?_, hw'⟩
    simp only [Tri.v_0, Tri.v_1, Tri.v_2] at s1 s2 s3
    simp only [buildV2t, hid, s1, s2, s3, Res.ok_bind, hw]

/-- The merge table names input vertices. -/
def TableOk (n : Nat) (m : Option (List Nat)) : Prop := ∃ l, m = some l ∧ l.length = n ∧ ∀ v ∈ l, v < n

theorem insertAll_sane {vs : List (Vtx F)} (hn : vs.length ≤ INF0) {fuel : Nat} {l : List Nat} (hlt : ∀ v ∈ l, v < vs.length) {s s' : DT}
    (h : Sane vs.length s.ts) (ht : s.tid < s.ts.length) (hl : s.ts.length + 2 * l.length ≤ IdCfg.maxId) (hm : TableOk vs.length s.merge)
    (hr : insertAll vs fuel l s = .ok s') :
    Sane vs.length s'.ts ∧ s'.ts.length ≤ s.ts.length + 2 * l.length ∧ TableOk vs.length s'.merge := by
  induction l generalizing s with
  | nil =>
    simp only [insertAll, Res.ok.injEq] at hr
    subst hr
    exact ⟨h, by simp, hm⟩
  | cons v l ih =>
    simp only [insertAll, Res.bind_eq_ok] at hr
    obtain ⟨s1, h1, hr⟩ := hr
    simp only [List.length_cons] at hl
    obtain ⟨a1, a2, a3⟩ := insertVertex_sane hn (hlt v (by simp)) h ht (by omega) h1
    have hm1 : TableOk vs.length s1.merge := by
      obtain ⟨p, pl, _, _, ⟨_, _, _, _, _, _, e⟩ | ⟨_, _, _, _, _, _, _, _, e, _⟩ | ⟨_, _, _, x, a, _, _, _, hx, _, rfl⟩⟩ := insertVertex_ok h1
      · rw [e]; exact hm
      · rw [e]; exact hm
      · obtain ⟨l, e, hl, hlt⟩ := hm
        have hx := lt_of_getElem? hx
        refine ⟨l.set v x, by rw [e]; rfl, by simpa using hl, ?_⟩
        intro i hi
        rcases List.mem_or_eq_of_mem_set hi with hi | rfl
        · exact hlt i hi
        · exact hx
    obtain ⟨b1, b2, b3⟩ := ih (fun w hw => hlt w (by simp [hw])) a1 a2 (by omega) hm1 hr
    exact ⟨b1, by simp only [List.length_cons]; omega, b3⟩

theorem wrap_sane {vs : List (Vtx F)} {fuel b first : Nat} {rest : List Nat} (hs : binSort b vs = .ok (first :: rest))
    (hp : (first :: rest).Perm (List.range vs.length)) (hn : 2 * vs.length + 2 ≤ NONE) {m : Option (List Nat)} (hm : TableOk vs.length m)
    {s : DT} (hr : wrapAndTriangulate fuel b vs m = .ok s) :
    Sane vs.length s.ts ∧ s.ts.length ≤ NONE ∧ TableOk vs.length s.merge := by
  have hb := IdCfg.big
  obtain ⟨h1, h2, h3, h4, h5⟩ := perm_parts hp
  have hinf : vs.length ≤ INF0 := by unfold INF0; unfold NONE at hn; omega
  rw [wrap_unfold hs] at hr
  have hlen : (initialTriangles first).length = 4 := rfl
  obtain ⟨a1, a2, a3⟩ := insertAll_sane hinf h4 (s := ⟨initialTriangles first, 3, m⟩) (initial_sane h1) (show 3 < 4 by omega)
    (by rw [hlen]; unfold NONE at hn; omega) hm hr
  refine ⟨a1, ?_, a3⟩
  simp only [hlen] at a2
  omega

/-- The table of the entry point. -/
def mergeTable (n : Nat) : List Nat := (List.range n).map toId

theorem mergeTable_ok {n : Nat} (hn : n ≤ NONE) : TableOk n (some (mergeTable n)) := by
  refine ⟨_, rfl, by simp [mergeTable], ?_⟩
  intro v hv
  simp only [mergeTable, List.mem_map, List.mem_range] at hv
  obtain ⟨k, hk, rfl⟩ := hv
  unfold toId
  unfold NONE at hn
  rw [Nat.mod_eq_of_lt (by omega)]
  exact hk

/-- The state in which the constraint `e` is applied: the vertices have been triangulated to `s`, and the constraints `pre`
have been applied, giving `s'`. -/
def ConstraintState (fuel b : Nat) (vs : List (Vtx F)) (pre : List Edge) (s : DT) (s' : AC) : Prop :=
  wrapAndTriangulate fuel b vs (some (mergeTable vs.length)) = .ok s ∧
    ∃ v2t, buildV2t s.ts 0 (List.replicate vs.length 0) = .ok v2t ∧ applyLoop vs fuel (s.merge.getD []) pre ⟨s.ts, v2t, []⟩ = .ok s'

/-- The constraint `e`, in the state `s`, makes `remove_crossed_edges` take an edge whose first triangle has an artificial vertex
opposite to it. -/
def ArtificialApex (vs : List (Vtx F)) (fuel : Nat) (merge : List Nat) (e : Edge) (s : AC) : Prop :=
  ∃ a b A B l k x, merge[e.src]? = some a ∧ merge[e.dst]? = some b ∧ a ≠ b ∧ (⟨a, b⟩ : Edge) ∉ s.S ∧ vs[a]? = some A ∧ vs[b]? = some B ∧
    registerEdges vs s.ts ⟨a, b⟩ (A, B) s.v2t = .ok l ∧ k < fuel ∧ RCSteps vs (A, B) k ⟨s.ts, s.v2t, l, [], 0⟩ x ∧ InfApex x

/-- **C65**: in every arithmetic, `constrained_triangulation_from_2d_vertices` panics exactly if the triangulation of the
vertices does (`C47_panic_site`), or if a constraint names a missing vertex, or if the search around the first vertex of a
constraint meets the border of the mesh in both directions, or if an edge to be removed has an artificial vertex on
the side of the first triangle recorded for it. -/
theorem C65_panic_site (fuel : Nat) (bins : Nat → Nat) (vs : List (Vtx F)) (es : List Edge) (h3 : 3 ≤ vs.length) {first : Nat} {rest : List Nat}
    (hs : binSort (bins vs.length) (normalizeVerts vs) = .ok (first :: rest)) (hp : (first :: rest).Perm (List.range vs.length))
    (hn : 2 * vs.length + 2 ≤ NONE) :
    constrained2d fuel bins vs es = .panic ↔
      (∃ pre vid post s, rest = pre ++ vid :: post ∧
        insertAll (normalizeVerts vs) fuel pre ⟨initialTriangles first, 3, some (mergeTable vs.length)⟩ = .ok s ∧
        OnBareEdge (normalizeVerts vs) s vid) ∨
      (∃ pre e post s s', es = pre ++ e :: post ∧ ConstraintState fuel (bins vs.length) (normalizeVerts vs) pre s s' ∧
        ConstraintPanic (normalizeVerts vs) fuel (s.merge.getD []) e s') := by
  have hb := IdCfg.big
  have hlen : (normalizeVerts vs).length = vs.length := normalizeVerts_length vs
  have hinf : (normalizeVerts vs).length ≤ INF0 := by rw [hlen]; unfold INF0; unfold NONE at hn; omega
  have hsite := C47_panic_site fuel (bins vs.length) (normalizeVerts vs) (some (mergeTable vs.length)) hs (by rw [hlen]; exact hp)
    (by rw [hlen]; exact hn)
  rw [← hsite]
  have e0 : constrained2d fuel bins vs es = (wrapAndTriangulate fuel (bins vs.length) (normalizeVerts vs) (some (mergeTable vs.length)) >>=
      fun s => applyConstraints (normalizeVerts vs) fuel s.ts es (s.merge.getD []) >>= fun r => cdtFilter fuel r.ts r.S) := by
    unfold constrained2d constrainedMesh
    rw [if_neg (by omega)]
    dsimp only
    rw [show (List.range vs.length).map toId = mergeTable vs.length from rfl]
    cases wrapAndTriangulate fuel (bins vs.length) (normalizeVerts vs) (some (mergeTable vs.length)) <;> rfl
  rw [e0]
  unfold ConstraintState
  rw [hlen]
  cases hw : wrapAndTriangulate fuel (bins vs.length) (normalizeVerts vs) (some (mergeTable vs.length)) with
  | panic => exact iff_of_true rfl (.inl rfl)
  | err e => exact iff_of_false (by simp) (by rintro (h | ⟨_, _, _, _, _, _, ⟨h, _⟩, _⟩) <;> simp at h)
  | diverge => exact iff_of_false (by simp) (by rintro (h | ⟨_, _, _, _, _, _, ⟨h, _⟩, _⟩) <;> simp at h)
  | ok s =>
    rw [Res.ok_bind]
    obtain ⟨hsane, hle, l, hl, hll, hlt⟩ := wrap_sane hs (by rw [hlen]; exact hp) (by rw [hlen]; exact hn)
      (by rw [hlen]; exact mergeTable_ok (by omega)) hw
    have hne : 0 < s.ts.length := List.length_pos_iff.2 hsane.ne
    obtain ⟨v2t, hv, hv1, hv2⟩ := buildV2t_ids hle s.ts hsane.vert 0 (List.replicate vs.length 0) (by omega) (by simp [hlen])
      (by intro k hk; simp only [List.mem_replicate] at hk; omega)
    have hids : IdsC (normalizeVerts vs).length s.ts v2t := ⟨hsane.vert, hsane.nbr, hv2, hv1, hle⟩
    have hm : s.merge.getD [] = l := by rw [hl]; rfl
    have hloop := applyLoop_panic_iff (vs := normalizeVerts vs) hinf fuel (merge := l) hlt es (s := ⟨s.ts, v2t, []⟩) hids
    have hR : (Res.ok s = Res.panic ∨ ∃ pre e post s_1 s', es = pre ++ e :: post ∧ (Res.ok s = Res.ok s_1 ∧
        ∃ v2t, buildV2t s_1.ts 0 (List.replicate vs.length 0) = .ok v2t ∧
          applyLoop (normalizeVerts vs) fuel (s_1.merge.getD []) pre ⟨s_1.ts, v2t, []⟩ = .ok s') ∧
        ConstraintPanic (normalizeVerts vs) fuel (s_1.merge.getD []) e s') ↔
        applyLoop (normalizeVerts vs) fuel l es ⟨s.ts, v2t, []⟩ = .panic := by
      rw [hloop]
      constructor
      · rintro (h | ⟨pre, e, post, s1, s', h1, ⟨h2, w, h4, h5⟩, h6⟩)
        · simp at h
        · simp only [Res.ok.injEq] at h2
          subst h2
          rw [hv] at h4
          simp only [Res.ok.injEq] at h4
          subst h4
          rw [hm] at h5 h6
          exact ⟨pre, e, post, s', h1, h5, h6⟩
      · rintro ⟨pre, e, post, s', h1, h5, h6⟩
        exact .inr ⟨pre, e, post, s, s', h1, ⟨rfl, v2t, hv, by rw [hm]; exact h5⟩, by rw [hm]; exact h6⟩
    rw [hR, hm]
    have ea : applyConstraints (normalizeVerts vs) fuel s.ts es l = applyLoop (normalizeVerts vs) fuel l es ⟨s.ts, v2t, []⟩ := by
      unfold applyConstraints
      rw [hlen, hv, Res.ok_bind]
    rw [ea]
    cases hx : applyLoop (normalizeVerts vs) fuel l es ⟨s.ts, v2t, []⟩ with
    | panic => exact iff_of_true rfl rfl
    | err e => exact iff_of_false (by simp) (by simp)
    | diverge => exact iff_of_false (by simp) (by simp)
    | ok r =>
      refine iff_of_false ?_ (by simp)
      rw [Res.ok_bind]
      have hid := applyLoop_ids hinf (s := ⟨s.ts, v2t, []⟩) hids hx
      intro hpan
      obtain ⟨out, ho⟩ := C25_filter_terminates (fuel + 3 * r.ts.length) r.ts r.S (fun t ht => by
        have := forall_fin3.1 (hid.nbr t ht)
        exact ⟨this.1.symm, this.2.1.symm, this.2.2.symm⟩) (by omega)
      have := more_fuel (n := fuel) (cdtFilter_fuel r.ts r.S) hpan (by simp) (show fuel ≤ fuel + 3 * r.ts.length by omega)
      rw [ho] at this
      simp at this

end

/-- **C65** for `f32`/`f64`, for all inputs without NaN and without infinite coordinates. -/
theorem C65_ieee {f : Fmt} [IdCfg] [Fl.Ok f] (fuel : Nat) (bins : Nat → Nat) (vs : List (Vtx (Fl f))) (es : List Edge)
    (hv : ∀ v ∈ vs, v.x.IsValue ∧ v.y.IsValue) (h3 : 3 ≤ vs.length) (hb : 1 ≤ bins vs.length) (hc : bins vs.length ≤ Fl.usizeMax)
    (hn : 2 * vs.length + 2 ≤ NONE) :
    constrained2d fuel bins vs es = .panic ↔
      (∃ first pre vid post s, binSort (bins vs.length) (normalizeVerts vs) = .ok (first :: (pre ++ vid :: post)) ∧
        insertAll (normalizeVerts vs) fuel pre ⟨initialTriangles first, 3, some (mergeTable vs.length)⟩ = .ok s ∧
        OnBareEdge (normalizeVerts vs) s vid) ∨
      (∃ pre e post s s', es = pre ++ e :: post ∧ ConstraintState fuel (bins vs.length) (normalizeVerts vs) pre s s' ∧
        ConstraintPanic (normalizeVerts vs) fuel (s.merge.getD []) e s') := by
  obtain ⟨first, rest, hs, hp⟩ := ieee_sort bins vs hv h3 hb hc hn
  rw [Rounded.normalizeVerts_length' vs] at hp
  rw [C65_panic_site fuel bins vs es h3 hs hp hn, hs]
  refine or_congr ⟨?_, ?_⟩ Iff.rfl
  · rintro ⟨pre, vid, post, s, rfl, h⟩
    exact ⟨first, pre, vid, post, s, rfl, h⟩
  · rintro ⟨first', pre, vid, post, s, e, h⟩
    simp only [Res.ok.injEq, List.cons.injEq] at e
    obtain ⟨rfl, rfl⟩ := e
    exact ⟨pre, vid, post, s, rfl, h⟩

section Exact
open Plane
variable {K : Type} [Field K] [LinearOrder K] [IsStrictOrderedRing K] [FloorRing K] [ExactParams K] [IdCfg]

/-- **C65** in exact arithmetic: if the constraints refer to vertices, an artificial vertex opposite to a crossed
edge is the only cause of a panic. -/
theorem C65_exact (fuel : Nat) (bins : Nat → Nat) (vs : List (Vtx K)) (h : Good fuel bins vs) (h3 : 3 ≤ vs.length) (es : List Edge)
    (hr : ∀ e ∈ es, e.src < vs.length ∧ e.dst < vs.length) :
    constrained2d fuel bins vs es = .panic ↔
      ∃ pre e post s s', es = pre ++ e :: post ∧ ConstraintState fuel (bins vs.length) (normalizeVerts vs) pre s s' ∧
        ArtificialApex (normalizeVerts vs) fuel (s.merge.getD []) e s' := by
  have hl : (normalizeVerts vs).length = vs.length := normalizeVerts_length vs
  have hni := h.ids_inf
  rcases h.run (mergeInit_range _ (by have := h.ids; omega)) with e | ⟨s0, done, ins, first, hs0, hI, hperm, hf, hfi, hst⟩
  · refine iff_of_false ?_ ?_
    · unfold constrained2d constrainedMesh
      rw [if_neg (by omega)]
      simp only [e]
      simp
    · rintro ⟨_, _, _, s, _, _, ⟨g, _⟩, _⟩
      rw [hl] at g
      unfold mergeTable at g
      rw [e] at g
      simp at g
  obtain ⟨order, hso, hpo⟩ : ∃ order, binSort (bins vs.length) (normalizeVerts vs) = .ok order ∧ order.Perm (List.range vs.length) := by
    have hmax : (normalizeVerts vs).length ≤ IdCfg.maxId + 1 := by rw [hl]; have := h.ids; unfold NONE at this; omega
    obtain ⟨o, ho1, ho2⟩ := C13_binSort_unit (bins vs.length) (normalizeVerts vs) h.bins hmax h.unit
    exact ⟨o, ho1, by rw [← hl]; exact ho2⟩
  cases order with
  | nil => have := hpo.length_eq; simp at this; omega
  | cons a rest =>
  rw [C65_panic_site fuel bins vs es h3 hso hpo h.ids]
  have hsite := C47_panic_site fuel (bins vs.length) (normalizeVerts vs) (some (mergeTable vs.length)) hso (by rw [hl]; exact hpo)
    (by rw [hl]; exact h.ids)
  rw [← hsite]
  unfold mergeTable
  rw [hs0]
  simp only [reduceCtorEq, false_or]
  refine exists_congr fun pre => exists_congr fun e => exists_congr fun post => exists_congr fun s => exists_congr fun s' => ?_
  refine and_congr_right fun hes => and_congr_right fun hst => ?_
  obtain ⟨g1, v2t, g2, g3⟩ := hst
  rw [hl] at g1 g2
  obtain ⟨w, hw, hA, hT, hmi, hml, hlen, hpos⟩ := h.start g1
  rw [hl, g2] at hw
  simp only [Res.ok.injEq] at hw
  subst hw
  have hA' := (applyLoop_inv h.unit hni (fun v x hx => (hmi v x hx).1) hA g3).1
  obtain ⟨r1, r2⟩ := hr e (by rw [hes]; simp)
  have hids : IdsC (normalizeVerts vs).length s'.ts s'.v2t := by
    obtain ⟨hsane, hle, -⟩ := wrap_sane hso (by rw [hl]; exact hpo) (by rw [hl]; exact h.ids)
      (by rw [hl]; exact mergeTable_ok (by have := h.ids; omega)) g1
    have hne : 0 < s.ts.length := List.length_pos_iff.2 hsane.ne
    obtain ⟨v2t', hv, hv1, hv2⟩ := buildV2t_ids hle s.ts hsane.vert 0 (List.replicate vs.length 0) (by omega) (by simp [hl])
      (by intro k hk; simp only [List.mem_replicate] at hk; omega)
    rw [g2] at hv
    simp only [Res.ok.injEq] at hv
    subst hv
    exact applyLoop_ids hni (s := ⟨s.ts, v2t, []⟩) ⟨hsane.vert, hsane.nbr, hv2, hv1, hle⟩ g3
  constructor
  · rintro (q | q | ⟨a, b, ha, hb, hab, hS, A, B, hA1, hB1, q | ⟨l, k, x, q1, q2, q3, q4⟩⟩)
    · omega
    · omega
    · exfalso
      have hocc : Occ s'.ts a := steps_occ hA'.steps (hmi _ _ ha).1
      have hp := (registerEdges_panic_iff (cv := (A, B)) hni hids (ce := ⟨a, b⟩) (lt_of_getElem? hA1)).2 q
      rcases registerEdges_total h.unit hni hA'.m (ce := ⟨a, b⟩) hA1 hB1 hocc with ⟨l, hl⟩ | ⟨⟨e, he⟩, -⟩
      · rw [hp] at hl; simp at hl
      · rw [hp] at he; simp at he
    · exact ⟨a, b, A, B, l, k, x, ha, hb, hab, hS, hA1, hB1, q1, q2, q3, q4⟩
  · rintro ⟨a, b, A, B, l, k, x, ha, hb, hab, hS, hA1, hB1, q1, q2, q3, q4⟩
    exact .inr (.inr ⟨a, b, ha, hb, hab, hS, A, B, hA1, hB1, .inr ⟨l, k, x, q1, q2, q3, q4⟩⟩)

end Exact

section
open Witness
local instance panicCCfg : IdCfg := u32Cfg

/-- The input of `C28_no_panic_refuted` panics for this reason, in exact arithmetic. -/
example : ∃ s s', ConstraintState 200 (defaultBins 5) (normalizeVerts (pts panicPts)) [] s s' ∧
    ArtificialApex (normalizeVerts (pts panicPts)) 200 (s.merge.getD []) ⟨2, 1⟩ s' := by
  obtain ⟨hG, -, -, h⟩ := C28_no_panic_refuted
  obtain ⟨pre, e, post, s, s', he, h1, h2⟩ := (C65_exact 200 defaultBins (pts panicPts) hG (by decide) [⟨2, 1⟩] (by decide)).1 (h 200 le_rfl).1
  rcases pre with _ | ⟨p, pre⟩
  · simp only [List.nil_append, List.cons.injEq] at he
    obtain ⟨rfl, rfl⟩ := he
    exact ⟨s, s', h1, h2⟩
  · simp at he

/-- In `f64` the same input panics because of the constraint. -/
example : ∃ s s', ConstraintState 200 (defaultBins 5) (normalizeVerts (fpts panicPts)) [] s s' ∧
    ConstraintPanic (normalizeVerts (fpts panicPts)) 200 (s.merge.getD []) ⟨2, 1⟩ s' := by
  obtain ⟨-, -, -, h⟩ := C28_no_panic_refuted
  rcases (C65_ieee 200 defaultBins (fpts panicPts) [⟨2, 1⟩] (fpts_values _) (by decide) (by decide) (by decide) (by decide)).1
    (h 200 le_rfl).2 with ⟨first, pre, vid, post, s, h1, h2, h3⟩ | ⟨pre, e, post, s, s', he, h1, h2⟩
  · exfalso
    have hw : wrapAndTriangulate 200 (defaultBins 5) (normalizeVerts (fpts panicPts)) (some (mergeTable 5)) = .panic :=
      (C47_panic_site 200 (defaultBins 5) (normalizeVerts (fpts panicPts)) (some (mergeTable 5)) h1
        (binSort_perm (by decide) h1) (by decide)).2 ⟨pre, vid, post, s, rfl, h2, h3⟩
    exact absurd hw (by decide +kernel)
  · rcases pre with _ | ⟨p, pre⟩
    · simp only [List.nil_append, List.cons.injEq] at he
      obtain ⟨rfl, rfl⟩ := he
      exact ⟨s, s', h1, h2⟩
    · simp at he

/-- A constraint that names a missing vertex. -/
example : constrained2d 200 defaultBins (fpts panicPts) [⟨0, 1⟩, ⟨7, 1⟩] = .panic := by decide +kernel

end
end CDT

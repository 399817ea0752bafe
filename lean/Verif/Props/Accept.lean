import Verif.Geo.CdtAccept
import Verif.Props.Constrained

/-! # C27, C28, C29: termination, absence of panics and acceptance of constraints -/

set_option linter.unusedSectionVars false
set_option linter.unusedSimpArgs false
set_option linter.unusedVariables false

namespace CDT
open Plane

variable {K : Type} [Field K] [LinearOrder K] [IsStrictOrderedRing K] [ExactParams K] [IdCfg]

theorem insertAll_merge {vs : List (Vtx K)} {fuel : Nat} {l : List Nat} {s s' : DT}
    (h : insertAll vs fuel l s = .ok s') : s'.merge.isSome = s.merge.isSome := by
  induction l generalizing s with
  | nil => simp [insertAll] at h; subst h; rfl
  | cons v l ih =>
    simp only [insertAll, Res.bind_eq_ok] at h
    obtain ⟨s1, h1, h⟩ := h
    rw [ih h]
    obtain ⟨_, _, _, _, ⟨_, _, _, _, _, _, e⟩ | ⟨_, _, _, _, _, _, _, _, e, _⟩ | ⟨_, _, _, _, _, _, _, _, _, _, rfl⟩⟩ := insertVertex_ok h1
    · rw [e]
    · rw [e]
    · simp [setMerge]

/-- The fuel that always suffices. -/
def fuelFor (n : Nat) : Nat := (2 * n + 2) + (2 * n + 2) * (2 * n + 2)

/-- The start of the constraint phase. -/
theorem Good.start {fuel : Nat} {bins : Nat → Nat} {vs : List (Vtx K)} (h : Good fuel bins vs) {s : DT}
    (hs : wrapAndTriangulate fuel (bins vs.length) (normalizeVerts vs) (some ((List.range vs.length).map toId)) = .ok s) :
    ∃ v2t, buildV2t s.ts 0 (List.replicate (normalizeVerts vs).length 0) = .ok v2t ∧
      AInv (normalizeVerts vs) s.ts ⟨s.ts, v2t, []⟩ ∧ Tiled (normalizeVerts vs) s.ts ∧
      MergeIn (normalizeVerts vs) s.ts (s.merge.getD []) ∧ (s.merge.getD []).length = vs.length ∧
      s.ts.length ≤ 2 * vs.length + 2 ∧
      ∀ (v a : Nat), (s.merge.getD [])[v]? = some a → vs[a]? = vs[v]? := by
  have hl : (normalizeVerts vs).length = vs.length := by rw [normalizeVerts_eq]; simp
  have hni := h.ids_inf
  rcases h.run (mergeInit_range _ (by have := h.ids; omega)) with e | ⟨s', done, ins, first, e, hI, hperm, hf, -, hst⟩
  · rw [hs] at e; simp at e
  rw [hs] at e; simp at e; subst e
  have hf' : first < (normalizeVerts vs).length := by rw [hl]; exact hf
  have hT := tiled_steps hst (initial_valid hf' hni) (tiled_initial hf' hni)
  obtain ⟨v2t, h3, h5⟩ := buildV2t_ok hni hI.valid.len hI.ok
  obtain ⟨m, hm⟩ : ∃ m, s.merge = some m := by
    obtain ⟨_, _, _, h1⟩ := wrapAndTriangulate_ok hs
    have := insertAll_merge h1
    simpa [Option.isSome_iff_exists] using this
  have hml : m.length = vs.length := by rw [← hl]; exact (hI.kept m hm).1
  have hpos : ∀ (v a : Nat), m[v]? = some a → vs[a]? = vs[v]? := by
    intro v a hva
    have hv : v < vs.length := by rw [← hml]; exact lt_of_getElem? hva
    rcases C08_merged_or_inserted_partial fuel bins vs h _ (.inr rfl) s hs v hv with ⟨_, g⟩ | ⟨_, z, _, _, gz, _, g⟩
    · have := g m hm
      rw [hva] at this; simp at this; rw [this]
    · have := g m hm
      rw [hva] at this; simp at this; rw [this]; exact gz
  refine ⟨v2t, h3, ⟨⟨hI.valid, hI.ok, h5⟩, .refl, fun t ht k => ?_⟩, hT, ?_, by simp [hm, hml], ?_, by simpa [hm] using hpos⟩
  · obtain ⟨i, hi⟩ := List.mem_iff_getElem?.1 ht
    exact ⟨i, t, hi, by rw [hasVert_iff]; fin_cases k <;> simp [Tri.v]⟩
  · intro v x hx
    simp only [hm, Option.getD_some] at hx
    refine ⟨hI.mergeOcc (by rw [hl]; exact hperm) hm v x hx, ?_⟩
    have hv : v < vs.length := by rw [← hml]; exact lt_of_getElem? hx
    have := hpos v x hx
    rw [List.getElem?_eq_getElem hv] at this
    rw [hl]; exact lt_of_getElem? this
  · have := hI.len
    rw [hperm.length_eq] at this
    simpa using this

theorem Good.cmesh_eq {fuel : Nat} {bins : Nat → Nat} {vs : List (Vtx K)} {s : DT} {v2t : List Nat}
    (hs : wrapAndTriangulate fuel (bins vs.length) (normalizeVerts vs) (some ((List.range vs.length).map toId)) = .ok s)
    (hv : buildV2t s.ts 0 (List.replicate (normalizeVerts vs).length 0) = .ok v2t) (es : List Edge) :
    constrainedMesh fuel bins vs es = applyLoop (normalizeVerts vs) fuel (s.merge.getD []) es ⟨s.ts, v2t, []⟩ := by
  unfold constrainedMesh applyConstraints
  simp only [hs, hv, Res.ok_bind]

theorem fuel_le {a n fuel : Nat} (h : a ≤ 2 * n + 2) (hf : fuelFor n ≤ fuel) : a + a * a ≤ fuel :=
  le_trans (Nat.add_le_add h (Nat.mul_le_mul h h)) hf

theorem Good.filter {fuel : Nat} {bins : Nat → Nat} {vs : List (Vtx K)} (h : Good fuel bins vs) (hf : fuelFor vs.length ≤ fuel)
    {es : List Edge} {r : AC} (hr : constrainedMesh fuel bins vs es = .ok r) : ∃ out, cdtFilter fuel r.ts r.S = .ok out := by
  obtain ⟨hv, -, -⟩ := h.cmesh_inv hr
  obtain ⟨s, hs, -⟩ := constrainedMesh_ok hr
  obtain ⟨v2t, hb, hA, -, -, -, hlen, -⟩ := h.start hs
  rw [Good.cmesh_eq hs hb] at hr
  have hl : r.ts.length = s.ts.length :=
    (applyLoop_in (Q := fun _ => True) hr (fun _ _ _ => trivial)).2.1
  refine C25_filter_terminates fuel r.ts r.S ?_ ?_
  · intro t ht
    obtain ⟨i, hi⟩ := List.mem_iff_getElem?.1 ht
    have key : ∀ k, t.n k = NONE ∨ t.n k < r.ts.length := by
      intro k
      by_cases hN : t.n k = NONE
      · exact .inl hN
      · obtain ⟨T', hT', -⟩ := hv.ent_pos ⟨t, hi, has_k t k⟩ hN
        exact .inr (lt_of_getElem? hT')
    exact ⟨key 0, key 1, key 2⟩
  · unfold fuelFor at hf
    nlinarith

/-! ## C27 -/

/-- **C27** for exact arithmetic: with fuel quadratic in the number of vertices the run never runs out of fuel,
whatever the constraints are (crossing, through vertices, out of range). Missing: rounding of f64. -/
theorem C27_terminates_partial (fuel : Nat) (bins : Nat → Nat) (vs : List (Vtx K)) (h : Good fuel bins vs)
    (hf : fuelFor vs.length ≤ fuel) (es : List Edge) : constrained2d fuel bins vs es ≠ .diverge := by
  unfold constrained2d
  split
  · simp
  cases hr : constrainedMesh fuel bins vs es with
  | ok r =>
    obtain ⟨out, ho⟩ := h.filter hf hr
    rw [Res.ok_bind, ho]; simp
  | err e => simp
  | panic => simp
  | diverge =>
    exfalso
    rcases h.run (mergeInit_range _ (by have := h.ids; omega)) with e | ⟨s, _, _, _, hs, -⟩
    · unfold constrainedMesh at hr
      simp only [e] at hr
      exact absurd hr (by simp)
    obtain ⟨v2t, hb, hA, hT, hmi, hml, hlen, hpos⟩ := h.start hs
    rw [Good.cmesh_eq hs hb] at hr
    exact applyLoop_no_diverge h.unit h.ids_inf hA.m.valid hmi hA (fuel_le hlen hf) hr

/-! ## C28 -/

/-- No constraint properly crosses an edge of the mesh that ends in an artificial vertex. -/
def Spec.BoundedOnly (vs : List (Vtx K)) (ts : List Tri) (es : List Edge) : Prop :=
  ∀ e ∈ es, ∀ x y, Spec.MeshEdge ts x y → INF0 ≤ x ∨ INF0 ≤ y → ¬ FarCross vs e.src e.dst x y

theorem hp_congr {vs : List (Vtx K)} {a b : Nat} (hn : vs.length ≤ INF0) (ha : a < vs.length) (h : vs[a]? = vs[b]?) :
    hp vs a = hp vs b := by
  obtain ⟨A, gA, -⟩ := getI_lt ha
  have gB := h.symm.trans gA
  rw [hp_fin (by omega) gA, hp_fin (by have := lt_of_getElem? gB; omega) gB]

theorem getN_congr {vs : List (Vtx K)} {a b : Nat} (h : vs[a]? = vs[b]?) : (normalizeVerts vs)[a]? = (normalizeVerts vs)[b]? := by
  rw [normalizeVerts_eq, List.getElem?_map, List.getElem?_map, h]

/-- No panic, with the condition on unbounded edges in homogeneous coordinates. -/
theorem Good.no_panic {fuel : Nat} {bins : Nat → Nat} {vs : List (Vtx K)} (h : Good fuel bins vs)
    (hf : fuelFor vs.length ≤ fuel) {es : List Edge} (hr : ∀ e ∈ es, e.src < vs.length ∧ e.dst < vs.length)
    (hb : ∀ s, wrapAndTriangulate fuel (bins vs.length) (normalizeVerts vs) (some ((List.range vs.length).map toId)) = .ok s →
      VertsIn (VOk vs.length) s.ts → ∀ e ∈ es, ∀ x y, HasEdge s.ts x y → INF0 ≤ x ∨ INF0 ≤ y →
      ¬ HP.Cross (hp (normalizeVerts vs) e.src) (hp (normalizeVerts vs) e.dst) (hp (normalizeVerts vs) x) (hp (normalizeVerts vs) y)) :
    constrained2d fuel bins vs es ≠ .panic := by
  have hl : (normalizeVerts vs).length = vs.length := by rw [normalizeVerts_eq]; simp
  unfold constrained2d
  split
  · simp
  cases hm : constrainedMesh fuel bins vs es with
  | ok r =>
    obtain ⟨out, ho⟩ := h.filter hf hm
    rw [Res.ok_bind, ho]; simp
  | err e => simp
  | diverge => simp
  | panic =>
    exfalso
    rcases h.run (mergeInit_range _ (by have := h.ids; omega)) with e | ⟨s, _, _, _, hs, -⟩
    · unfold constrainedMesh at hm
      simp only [e] at hm
      exact absurd hm (by simp)
    obtain ⟨v2t, hv, hA, hT, hmi, hml, hlen, hpos⟩ := h.start hs
    rw [Good.cmesh_eq hs hv] at hm
    refine applyLoop_no_panic (U := HasEdge s.ts) h.unit h.ids_inf hA.m.valid hmi hA (fuel_le hlen hf)
      (fun i x y j hE _ => ⟨i, j, hE⟩) (by rw [hml]; exact hr) ?_ hm
    intro e he a b ha hb' x y hxy hinf hc
    have ea := hp_congr h.ids_inf (hmi _ _ ha).2 (getN_congr (hpos _ _ ha))
    have eb := hp_congr h.ids_inf (hmi _ _ hb').2 (getN_congr (hpos _ _ hb'))
    rw [ea, eb] at hc
    exact hb s hs (by rw [← hl]; exact hA.m.ok) e he x y hxy (by omega) hc

/-- **C28** for exact arithmetic: if the constraints refer to vertices and none of them properly crosses an
unbounded edge of the unconstrained mesh, the constrained run does not panic. Missing: rounding of f64, and the
condition on unbounded edges, without which the claim is false (`C28_no_panic_refuted`). -/
theorem C28_no_panic_partial (fuel : Nat) (bins : Nat → Nat) (vs : List (Vtx K)) (h : Good fuel bins vs)
    (hf : fuelFor vs.length ≤ fuel) (es : List Edge) (hr : ∀ e ∈ es, e.src < vs.length ∧ e.dst < vs.length)
    (hb : ∀ s, wrapAndTriangulate fuel (bins vs.length) (normalizeVerts vs) (some ((List.range vs.length).map toId)) = .ok s →
      Spec.BoundedOnly (normalizeVerts vs) s.ts es) :
    constrained2d fuel bins vs es ≠ .panic :=
  h.no_panic hf hr fun s hs _ e he x y hxy hinf hc => hb s hs e he x y (meshEdge_iff.2 hxy) hinf (farCross_of hc)

/-! ## C29 -/

theorem btw_inside {A B W : Vtx K} (h : Btw (HP.ofVtx A) (HP.ofVtx B) (HP.ofVtx W)) : InsideSegment A B W := by
  obtain ⟨s, t, hs, ht, hx, hy, hw⟩ := h
  simp only [HP.ofVtx] at hx hy hw
  refine ⟨t, ht, by linarith, ?_, ?_⟩
  · have : s = 1 - t := by linarith
    rw [hx, this]; ring
  · have : s = 1 - t := by linarith
    rw [hy, this]; ring

theorem inside_normalized {vs : List (Vtx K)} (hs : 0 < scaleFactor vs) {A B W : Vtx K}
    (h : InsideSegment (⟨(A.x - (bbox vs).1) / scaleFactor vs, (A.y - (bbox vs).2.1) / scaleFactor vs⟩ : Vtx K)
      ⟨(B.x - (bbox vs).1) / scaleFactor vs, (B.y - (bbox vs).2.1) / scaleFactor vs⟩
      ⟨(W.x - (bbox vs).1) / scaleFactor vs, (W.y - (bbox vs).2.1) / scaleFactor vs⟩) : InsideSegment A B W := by
  obtain ⟨t, h0, h1, hx, hy⟩ := h
  have hne := hs.ne'
  refine ⟨t, h0, h1, ?_, ?_⟩
  · simp only at hx; field_simp at hx; linarith
  · simp only at hy; field_simp at hy; linarith

/-- Every constraint joins two vertices at different positions, and no vertex lies strictly between them. -/
def Spec.ClearOfVertices (vs : List (Vtx K)) (es : List Edge) : Prop :=
  ∀ e ∈ es, ∃ A B : Vtx K, vs[e.src]? = some A ∧ vs[e.dst]? = some B ∧ A ≠ B ∧ ∀ W ∈ vs, ¬ InsideSegment A B W

/-- No two constraints properly cross. -/
def Spec.NonCrossing (vs : List (Vtx K)) (es : List Edge) : Prop :=
  ∀ e ∈ es, ∀ e' ∈ es, ∀ A B C D, vs[e.src]? = some A → vs[e.dst]? = some B → vs[e'.src]? = some C → vs[e'.dst]? = some D →
    ¬ Plane.Cross A B C D

/-- **C29**, no errors: if the unconstrained phase succeeds and the constraints do not pass through vertices,
the constrained run returns no error. -/
theorem C29_no_error_partial (fuel : Nat) (bins : Nat → Nat) (vs : List (Vtx K)) (h : Good fuel bins vs)
    (hf : fuelFor vs.length ≤ fuel) (es : List Edge) (hc : Spec.ClearOfVertices vs es) (s : DT)
    (hs : wrapAndTriangulate fuel (bins vs.length) (normalizeVerts vs) (some ((List.range vs.length).map toId)) = .ok s)
    (er : Err) : constrainedMesh fuel bins vs es ≠ .err er ∧ constrained2d fuel bins vs es ≠ .err er := by
  have hl : (normalizeVerts vs).length = vs.length := by rw [normalizeVerts_eq]; simp
  have h1 : ∀ er, constrainedMesh fuel bins vs es ≠ .err er := by
    intro er
    obtain ⟨v2t, hv, hA, hT, hmi, hml, hlen, hpos⟩ := h.start hs
    rw [Good.cmesh_eq hs hv]
    refine applyLoop_no_err h.unit h.ids_inf hA.m.valid hmi hA (fuel_le hlen hf) hT ?_ er
    intro e he a b ha hb hab
    obtain ⟨A, B, gA, gB, hAB, hW⟩ := hc e he
    have ga := (hpos _ _ ha).trans gA
    have gb := (hpos _ _ hb).trans gB
    have la := (hmi _ _ ha).2
    have lb := (hmi _ _ hb).2
    have hni := h.ids_inf
    have na : (normalizeVerts vs)[a]? = some ⟨(A.x - (bbox vs).1) / scaleFactor vs, (A.y - (bbox vs).2.1) / scaleFactor vs⟩ := by rw [normalizeVerts_eq, List.getElem?_map, ga]; rfl
    have nb : (normalizeVerts vs)[b]? = some ⟨(B.x - (bbox vs).1) / scaleFactor vs, (B.y - (bbox vs).2.1) / scaleFactor vs⟩ := by rw [normalizeVerts_eq, List.getElem?_map, gb]; rfl
    refine ⟨?_, ?_⟩
    · intro w hw hbt
      obtain ⟨i, t, ht, hwt⟩ := hw
      have hwv : VOk (normalizeVerts vs).length w := by
        have := hA.m.ok.get ht
        rw [hasVert_iff] at hwt
        rcases hwt with rfl | rfl | rfl
        · exact this 0
        · exact this 1
        · exact this 2
      have wa := hp_w_fin (normalizeVerts vs) (by omega : a < INF0)
      have wb := hp_w_fin (normalizeVerts vs) (by omega : b < INF0)
      rcases hwv with hwv | hwv
      · obtain ⟨W, gW, -⟩ := getI_lt hwv
        obtain ⟨W', gW', rfl⟩ := normalizeVerts_get gW
        rw [hp_fin (by omega) na, hp_fin (by omega) nb, hp_fin (by omega) gW] at hbt
        exact hW W' (List.mem_of_getElem? gW') (inside_normalized h.scale (btw_inside hbt))
      · have w0 := hp_w_inf (normalizeVerts vs) (not_lt.2 hwv.1)
        obtain ⟨s, t, h1, h2, -, -, h3⟩ := hbt
        rw [w0, wa, wb] at h3
        linarith
    · rw [na, nb]
      intro heq
      apply hAB
      have hne := h.scale.ne'
      simp only [Option.some.injEq, Vtx.mk.injEq] at heq
      obtain ⟨hx, hy⟩ := heq
      rw [div_left_inj' hne] at hx hy
      cases A; cases B; simp_all
  refine ⟨h1 er, ?_⟩
  unfold constrained2d
  split
  · simp
  cases hm : constrainedMesh fuel bins vs es with
  | ok r =>
    obtain ⟨out, ho⟩ := h.filter hf hm
    rw [Res.ok_bind, ho]; simp
  | err e => exact absurd hm (h1 e)
  | panic => simp
  | diverge => simp

/-- **C29**, the edges: in the mesh of every successful run each constraint that no constraint properly crosses is
an edge (between vertices at the ends of the constraint). -/
theorem C29_edges_partial (fuel : Nat) (bins : Nat → Nat) (vs : List (Vtx K)) (h : Good fuel bins vs)
    (hf : fuelFor vs.length ≤ fuel) (es : List Edge) (r : AC) (hr : constrainedMesh fuel bins vs es = .ok r)
    (e : Edge) (he : e ∈ es) (A B : Vtx K) (hA : vs[e.src]? = some A) (hB : vs[e.dst]? = some B) (hAB : A ≠ B)
    (hc : ∀ e' ∈ es, ∀ C D, vs[e'.src]? = some C → vs[e'.dst]? = some D → ¬ Plane.Cross C D A B) :
    ∃ a b : Nat, vs[a]? = some A ∧ vs[b]? = some B ∧ Spec.MeshEdge r.ts a b ∧ Spec.MeshEdge r.ts b a := by
  have hl : (normalizeVerts vs).length = vs.length := by rw [normalizeVerts_eq]; simp
  have hni := h.ids_inf
  obtain ⟨s, hs, -⟩ := constrainedMesh_ok hr
  obtain ⟨v2t, hv, hI, hT, hmi, hml, hlen, hpos⟩ := h.start hs
  obtain ⟨hvalid, -, -⟩ := h.cmesh_inv hr
  rw [Good.cmesh_eq hs hv] at hr
  have la : e.src < (s.merge.getD []).length := by rw [hml]; exact lt_of_getElem? hA
  have lb : e.dst < (s.merge.getD []).length := by rw [hml]; exact lt_of_getElem? hB
  obtain ⟨a, ha, -⟩ := getI_lt la
  obtain ⟨b, hb, -⟩ := getI_lt lb
  have ga := (hpos _ _ ha).trans hA
  have gb := (hpos _ _ hb).trans hB
  have hab : a ≠ b := by
    rintro rfl
    rw [ga] at gb; simp at gb; exact hAB gb
  have la' := (hmi _ _ ha).2
  have key : HasEdge r.ts a b := by
    refine applyLoop_edges h.unit hni hI.m.valid hmi hI (fuel_le hlen hf) hr hab (by omega) ?_ (by simp)
      (.inr ⟨e, he, ha, hb⟩)
    intro e' he' a' b' ha' hb' hx
    have ga' := hpos _ _ ha'
    have gb' := hpos _ _ hb'
    have l1 : e'.src < vs.length := by rw [← hml]; exact lt_of_getElem? ha'
    have l2 : e'.dst < vs.length := by rw [← hml]; exact lt_of_getElem? hb'
    obtain ⟨C, gC, -⟩ := getI_lt l1
    obtain ⟨D, gD, -⟩ := getI_lt l2
    exact hc e' he' C D gC gD (cross_normalized h.scale hni (ga'.trans gC) (gb'.trans gD) ga gb hx)
  exact ⟨a, b, ga, gb, meshEdge_iff.2 key, meshEdge_iff.2 (HasEdge.symm hvalid (.inl (by omega)) key)⟩

/-- Acceptance of constraints when the run does not panic. -/
theorem Good.accepted {fuel : Nat} {bins : Nat → Nat} {vs : List (Vtx K)} (h : Good fuel bins vs)
    (hf : fuelFor vs.length ≤ fuel) {es : List Edge} (hc : Spec.ClearOfVertices vs es) (hx : Spec.NonCrossing vs es) {s : DT}
    (hs : wrapAndTriangulate fuel (bins vs.length) (normalizeVerts vs) (some ((List.range vs.length).map toId)) = .ok s)
    (p : constrained2d fuel bins vs es ≠ .panic) :
    (∃ out, constrained2d fuel bins vs es = .ok out) ∧
    (3 ≤ vs.length → ∃ r, constrainedMesh fuel bins vs es = .ok r ∧ ∀ e ∈ es, ∀ A B, vs[e.src]? = some A → vs[e.dst]? = some B →
      ∃ a b : Nat, vs[a]? = some A ∧ vs[b]? = some B ∧ Spec.MeshEdge r.ts a b ∧ Spec.MeshEdge r.ts b a) := by
  have hok : ∃ out, constrained2d fuel bins vs es = .ok out := by
    have d := C27_terminates_partial fuel bins vs h hf es
    have er := fun er => (C29_no_error_partial fuel bins vs h hf es hc s hs er).2
    cases ho : constrained2d fuel bins vs es with
    | ok out => exact ⟨out, rfl⟩
    | err e => exact absurd ho (er e)
    | panic => exact absurd ho p
    | diverge => exact absurd ho d
  refine ⟨hok, fun h3 => ?_⟩
  obtain ⟨out, ho⟩ := hok
  unfold constrained2d at ho
  rw [if_neg (by omega), Res.bind_eq_ok] at ho
  obtain ⟨r, hm, -⟩ := ho
  refine ⟨r, hm, fun e he A B gA gB => ?_⟩
  obtain ⟨A', B', gA', gB', hne, -⟩ := hc e he
  rw [gA] at gA'; rw [gB] at gB'; simp at gA' gB'; subst gA'; subst gB'
  exact C29_edges_partial fuel bins vs h hf es r hm e he A B gA gB hne fun e' he' C D gC gD => hx e' he' e he C D A B gC gD gA gB

/-- Constraints clear of vertices refer to vertices. -/
theorem Spec.ClearOfVertices.inRange {vs : List (Vtx K)} {es : List Edge} (hc : Spec.ClearOfVertices vs es) :
    ∀ e ∈ es, e.src < vs.length ∧ e.dst < vs.length := by
  intro e he
  obtain ⟨A, B, gA, gB, -⟩ := hc e he
  exact ⟨lt_of_getElem? gA, lt_of_getElem? gB⟩

/-- **C29** for exact arithmetic: constraints that do not pass through vertices, do not cross each other and do not
cross an unbounded edge of the unconstrained mesh are accepted and are edges of the final mesh. Missing: rounding of
f64, and the condition on unbounded edges, without which the claim is false (`C29_accepted_refuted`). -/
theorem C29_accepted_partial (fuel : Nat) (bins : Nat → Nat) (vs : List (Vtx K)) (h : Good fuel bins vs)
    (hf : fuelFor vs.length ≤ fuel) (es : List Edge) (hc : Spec.ClearOfVertices vs es) (hx : Spec.NonCrossing vs es) (s : DT)
    (hs : wrapAndTriangulate fuel (bins vs.length) (normalizeVerts vs) (some ((List.range vs.length).map toId)) = .ok s)
    (hb : Spec.BoundedOnly (normalizeVerts vs) s.ts es) :
    (∃ out, constrained2d fuel bins vs es = .ok out) ∧
    (3 ≤ vs.length → ∃ r, constrainedMesh fuel bins vs es = .ok r ∧ ∀ e ∈ es, ∀ A B, vs[e.src]? = some A → vs[e.dst]? = some B →
      ∃ a b : Nat, vs[a]? = some A ∧ vs[b]? = some B ∧ Spec.MeshEdge r.ts a b ∧ Spec.MeshEdge r.ts b a) :=
  h.accepted hf hc hx hs (C28_no_panic_partial fuel bins vs h hf es hc.inRange fun s' hs' => by
    rw [hs] at hs'; simp at hs'; subst hs'; exact hb)

/-! ## Checks of the hypotheses on concrete inputs -/

theorem inside_signs {A B W : Vtx K} (h : InsideSegment A B W) (hAB : A ≠ B) :
    area2 A B W = 0 ∧ (W.x - A.x) * (W.x - B.x) + (W.y - A.y) * (W.y - B.y) < 0 := by
  obtain ⟨t, h0, h1, hx, hy⟩ := h
  have e1 : W.x - A.x = t * (B.x - A.x) := by rw [hx]; ring
  have e2 : W.y - A.y = t * (B.y - A.y) := by rw [hy]; ring
  have e3 : W.x - B.x = (t - 1) * (B.x - A.x) := by rw [hx]; ring
  have e4 : W.y - B.y = (t - 1) * (B.y - A.y) := by rw [hy]; ring
  refine ⟨by unfold area2; rw [e1, e2]; ring, ?_⟩
  rw [e1, e2, e3, e4]
  have hp : 0 < (B.x - A.x) ^ 2 + (B.y - A.y) ^ 2 := by
    by_contra hc
    have q1 := sq_nonneg (B.x - A.x)
    have q2 := sq_nonneg (B.y - A.y)
    have z1 : (B.x - A.x) ^ 2 = 0 := by linarith
    have z2 : (B.y - A.y) ^ 2 = 0 := by linarith
    have z1 := pow_eq_zero_iff (two_ne_zero) |>.1 z1
    have z2 := pow_eq_zero_iff (two_ne_zero) |>.1 z2
    apply hAB
    cases A; cases B; simp only [Vtx.mk.injEq] at *; constructor <;> linarith
  have : t * (B.x - A.x) * ((t - 1) * (B.x - A.x)) + t * (B.y - A.y) * ((t - 1) * (B.y - A.y)) =
      - (t * (1 - t) * ((B.x - A.x) ^ 2 + (B.y - A.y) ^ 2)) := by ring
  rw [this]
  have : 0 < t * (1 - t) * ((B.x - A.x) ^ 2 + (B.y - A.y) ^ 2) := mul_pos (mul_pos h0 (by linarith)) hp
  linarith

/-- Test of `Spec.ClearOfVertices`. -/
def clearCheck (vs : List (Vtx K)) (es : List Edge) : Bool := es.all fun e =>
  match vs[e.src]?, vs[e.dst]? with
  | some A, some B => decide (A ≠ B) && vs.all fun W =>
    decide (¬ (area2 A B W = 0 ∧ (W.x - A.x) * (W.x - B.x) + (W.y - A.y) * (W.y - B.y) < 0))
  | _, _ => false

theorem clear_of_check {vs : List (Vtx K)} {es : List Edge} (h : clearCheck vs es = true) : Spec.ClearOfVertices vs es := by
  intro e he
  have := List.all_eq_true.1 h e he
  cases gA : vs[e.src]? with
  | none => simp [gA] at this
  | some A =>
    cases gB : vs[e.dst]? with
    | none => simp [gA, gB] at this
    | some B =>
      simp only [gA, gB, Bool.and_eq_true, decide_eq_true_eq, List.all_eq_true] at this
      exact ⟨A, B, rfl, rfl, this.1, fun W hW hin => this.2 W hW (inside_signs hin this.1)⟩

/-- Test of `Spec.NonCrossing`. -/
def crossCheck (vs : List (Vtx K)) (es : List Edge) : Bool := es.all fun e => es.all fun e' =>
  match vs[e.src]?, vs[e.dst]?, vs[e'.src]?, vs[e'.dst]? with
  | some A, some B, some C, some D =>
    decide (¬ (area2 A B C * area2 A B D < 0 ∧ area2 C D A * area2 C D B < 0))
  | _, _, _, _ => false

theorem nonCrossing_of_check {vs : List (Vtx K)} {es : List Edge} (h : crossCheck vs es = true) : Spec.NonCrossing vs es := by
  intro e he e' he' A B C D gA gB gC gD hx
  have := List.all_eq_true.1 (List.all_eq_true.1 h e he) e' he'
  simp only [gA, gB, gC, gD, decide_eq_true_eq] at this
  exact this hx

theorem far_sign {vs : List (Vtx K)} {a b x : Nat} (h : HP.o (hp vs a) (hp vs b) (hp vs x) ≠ 0) :
    ∃ R, ∀ r, R ≤ r → (0 < HP.o (hp vs a) (hp vs b) (hp vs x) ∧ area2 (farPos vs r a) (farPos vs r b) (farPos vs r x) < 0) ∨
      (HP.o (hp vs a) (hp vs b) (hp vs x) < 0 ∧ 0 < area2 (farPos vs r a) (farPos vs r b) (farPos vs r x)) := by
  rcases lt_or_gt_of_ne h with h | h
  · obtain ⟨R, hR⟩ := farClockwise_of (vs := vs) (a := b) (b := a) (c := x) (by rw [HP.o_swap]; linarith)
    refine ⟨R, fun r hr => .inr ⟨h, ?_⟩⟩
    have := hR r hr
    unfold Clockwise at this
    rw [area2_swap] at this
    linarith
  · obtain ⟨R, hR⟩ := farClockwise_of h
    exact ⟨R, fun r hr => .inl ⟨h, hR r hr⟩⟩

theorem not_farCross {vs : List (Vtx K)} {a b x y : Nat}
    (h : 0 < HP.o (hp vs a) (hp vs b) (hp vs x) * HP.o (hp vs a) (hp vs b) (hp vs y) ∨
      0 < HP.o (hp vs x) (hp vs y) (hp vs a) * HP.o (hp vs x) (hp vs y) (hp vs b) ∨ x = a ∨ x = b ∨ y = a ∨ y = b) :
    ¬ FarCross vs a b x y := by
  have key : ∀ a b x y, 0 < HP.o (hp vs a) (hp vs b) (hp vs x) * HP.o (hp vs a) (hp vs b) (hp vs y) →
      ∃ R, ∀ r, R ≤ r → 0 < area2 (farPos vs r a) (farPos vs r b) (farPos vs r x) * area2 (farPos vs r a) (farPos vs r b) (farPos vs r y) := by
    intro a b x y h
    obtain ⟨R1, h1⟩ := far_sign (left_ne_zero_of_mul h.ne')
    obtain ⟨R2, h2⟩ := far_sign (right_ne_zero_of_mul h.ne')
    refine ⟨max R1 R2, fun r hr => ?_⟩
    rcases h1 r (le_trans (le_max_left _ _) hr) with ⟨o1, a1⟩ | ⟨o1, a1⟩ <;>
      rcases h2 r (le_trans (le_max_right _ _) hr) with ⟨o2, a2⟩ | ⟨o2, a2⟩
    · exact mul_pos_of_neg_of_neg a1 a2
    · exact absurd h (not_lt.2 (mul_neg_of_pos_of_neg o1 o2).le)
    · exact absurd h (not_lt.2 (mul_neg_of_neg_of_pos o1 o2).le)
    · exact mul_pos a1 a2
  rintro ⟨R, hR⟩
  rcases h with h | h | rfl | rfl | rfl | rfl
  · obtain ⟨R1, h1⟩ := key _ _ _ _ h
    exact absurd (hR _ (le_max_left R R1)).1 (not_lt.2 (h1 _ (le_max_right _ _)).le)
  · obtain ⟨R1, h1⟩ := key _ _ _ _ h
    exact absurd (hR _ (le_max_left R R1)).2 (not_lt.2 (h1 _ (le_max_right _ _)).le)
  all_goals
    have := (hR R le_rfl).1
    simp [area2] at this

/-- Test of `Spec.BoundedOnly`. -/
def boundedCheck (vs : List (Vtx K)) (ts : List Tri) (es : List Edge) : Bool := es.all fun e => ts.all fun t =>
  (Spec.edges t).all fun x => decide (x.1 < INF0 ∧ x.2.1 < INF0 ∨
    0 < HP.o (hp vs e.src) (hp vs e.dst) (hp vs x.1) * HP.o (hp vs e.src) (hp vs e.dst) (hp vs x.2.1) ∨
    0 < HP.o (hp vs x.1) (hp vs x.2.1) (hp vs e.src) * HP.o (hp vs x.1) (hp vs x.2.1) (hp vs e.dst) ∨
    x.1 = e.src ∨ x.1 = e.dst ∨ x.2.1 = e.src ∨ x.2.1 = e.dst)

theorem bounded_of_check {vs : List (Vtx K)} {ts : List Tri} {es : List Edge} (h : boundedCheck vs ts es = true) :
    Spec.BoundedOnly vs ts es := by
  rintro e he x y ⟨t, ht, j, hj⟩ hinf
  have := List.all_eq_true.1 (List.all_eq_true.1 (List.all_eq_true.1 h e he) t ht) _ hj
  simp only [decide_eq_true_eq] at this
  rcases this with h | h
  · omega
  · exact not_farCross h

theorem Good.mono {fuel fuel' : Nat} {bins : Nat → Nat} {vs : List (Vtx K)} (h : Good fuel bins vs) (hf : fuel ≤ fuel') :
    Good fuel' bins vs := ⟨h.range, h.distinct, h.bins, h.ids, h.sep, le_trans h.fuel hf⟩

end CDT

namespace CDT
local instance : IdCfg := u32Cfg

/-- The sample with the constraints from 3 to 7 (which crosses an edge of the mesh) and from 1 to 5
meets all hypotheses of `C29_accepted_partial`. -/
example : Good 342 Witness.defaultBins samplePts ∧ fuelFor samplePts.length ≤ 342 ∧
    Spec.ClearOfVertices samplePts [⟨3, 7⟩, ⟨1, 5⟩] ∧ Spec.NonCrossing samplePts [⟨3, 7⟩, ⟨1, 5⟩] ∧
    ∃ s, wrapAndTriangulate 342 (Witness.defaultBins samplePts.length) (normalizeVerts samplePts)
      (some ((List.range samplePts.length).map toId)) = .ok s ∧
      Spec.BoundedOnly (normalizeVerts samplePts) s.ts [⟨3, 7⟩, ⟨1, 5⟩] := by
  refine ⟨sample_good.mono (by decide), by decide +kernel, clear_of_check (by decide +kernel),
    nonCrossing_of_check (by decide +kernel), ?_⟩
  have key : (do
      let s ← wrapAndTriangulate 342 (Witness.defaultBins samplePts.length) (normalizeVerts samplePts)
        (some ((List.range samplePts.length).map toId))
      Res.ok (boundedCheck (normalizeVerts samplePts) s.ts [⟨3, 7⟩, ⟨1, 5⟩])) = .ok true := by decide +kernel
  rw [Res.bind_eq_ok] at key
  obtain ⟨s, hs, h⟩ := key
  exact ⟨s, hs, bounded_of_check (by simpa using h)⟩

end CDT

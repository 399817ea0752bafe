import Verif.Props.Tiling

/-!
# C06, C07: what remains true

The full claims (the result is Delaunay and covers the convex hull) are false for the code, see `Props/Refuted.lean`.
-/

set_option linter.unusedSectionVars false
set_option linter.unusedSimpArgs false
set_option linter.unusedVariables false

namespace CDT
open Plane

variable {K : Type} [Field K] [LinearOrder K] [IsStrictOrderedRing K] [ExactParams K] [IdCfg]

theorem insertAll_append {F : Type} [FloatOps F] (vs : List (Vtx F)) (fuel : Nat) (l l' : List Nat) (s : DT) :
    insertAll vs fuel (l ++ l') s = (insertAll vs fuel l s >>= fun s' => insertAll vs fuel l' s') := by
  induction l generalizing s with
  | nil => rfl
  | cons v l ih =>
    simp only [List.cons_append, insertAll]
    cases insertVertex vs fuel s v <;> simp [ih]

/-- The in-circle relation of two triangles on opposite sides of an edge is symmetric. -/
theorem inCircle_symm {a b c p : Vtx K} (h1 : Clockwise b a c) (h2 : Clockwise p a b) :
    InCircle a b c p ↔ InCircle p a b c := by
  have k1 : 0 < area2 a b c := by unfold Clockwise area2 at *; linarith
  have k2 : 0 < area2 b a p := by unfold Clockwise area2 at *; linarith
  have e : InCircle p a b c ↔ InCircle b a p c := by
    constructor
    · rintro ⟨m, ⟨h1, h2⟩, h3⟩; exact ⟨m, ⟨by rw [← h1, h2], h2.symm⟩, by rw [← h2]; exact h3⟩
    · rintro ⟨m, ⟨h1, h2⟩, h3⟩; exact ⟨m, ⟨by rw [← h1, h2], h2.symm⟩, by rw [← h2]; exact h3⟩
  rw [e, ← crS_inCircle k1, ← crS_inCircle k2]
  have : crS a b c p = crS b a p c := by unfold crS; ring
  rw [this]

/-- **C06**, what is guaranteed: after every insertion of a vertex `v`, for each triangle `v a b` of the mesh and the triangle
`b a c` behind its edge `a b`, all vertices being real, the vertex `c` is not strictly inside the circumcircle of `v a b`. -/
theorem C06_delaunay_partial (fuel : Nat) (bins : Nat → Nat) (vs : List (Vtx K)) (h : Good fuel bins vs)
    (first : Nat) (rest : List Nat) (hb : binSort (bins vs.length) (normalizeVerts vs) = .ok (first :: rest))
    (k v : Nat) (hk : rest[k]? = some v) (s : DT)
    (hs : insertAll (normalizeVerts vs) fuel (rest.take (k + 1)) ⟨initialTriangles first, 3, none⟩ = .ok s) :
    ∀ (i j : Nat) (t u : Tri) (a b c : Nat), s.ts[i]? = some t → s.ts[j]? = some u →
      (v, a) ∈ (Spec.edges t).map (fun e => (e.1, e.2.1)) → (a, b, j) ∈ Spec.edges t →
      (b, a, i) ∈ Spec.edges u → (a, c) ∈ (Spec.edges u).map (fun e => (e.1, e.2.1)) →
      ∀ V A B C, vs[v]? = some V → vs[a]? = some A → vs[b]? = some B → vs[c]? = some C → ¬ InCircle V A B C := by
  intro i j t u a b c ht hu m1 m2 m3 m4 V A B C gV gA gB gC hcirc
  have hni := h.ids_inf
  have hl : (normalizeVerts vs).length = vs.length := by rw [normalizeVerts_eq]; simp
  rw [hl] at hni
  have e1 : rest.take (k + 1) = rest.take k ++ [v] := by rw [List.take_succ, hk]; rfl
  have hs' := hs
  rw [e1, insertAll_append, Res.bind_eq_ok] at hs'
  obtain ⟨s0, h0, h1⟩ := hs'
  simp only [insertAll] at h1
  rw [Res.bind_eq_ok] at h1
  obtain ⟨s1, h1, h2⟩ := h1
  simp at h2; subst h2
  have hset := (C35_settled_partial fuel bins vs h first rest hb k v hk s0 s1 h0 h1 i j t u a b c ht hu m1 m2 m3 m4).2
  have lt : ∀ {x : Nat} {X : Vtx K}, vs[x]? = some X → x < INF0 := fun hx => by have := lt_of_getElem? hx; omega
  refine hset (lt gA) (lt gB) (lt gC) A B C V gA gB gC gV ?_
  obtain ⟨-, hcw, -⟩ := C33_adjacency_partial fuel bins vs h first rest hb (k + 1) s1 hs
  -- orientation of the two triangles in input coordinates
  have cw : ∀ {x y z : Nat} {X Y Z : Vtx K}, vs[x]? = some X → vs[y]? = some Y → vs[z]? = some Z →
      FarClockwise (normalizeVerts vs) x y z → Clockwise X Y Z := by
    intro x y z X Y Z gX gY gZ ⟨R, hR⟩
    have := hR R le_rfl
    have gN : ∀ {x : Nat} {X : Vtx K}, vs[x]? = some X → farPos (normalizeVerts vs) R x =
        ⟨(X.x - (bbox vs).1) / scaleFactor vs, (X.y - (bbox vs).2.1) / scaleFactor vs⟩ := by
      intro x X hx
      unfold farPos
      rw [if_pos (lt hx), normalizeVerts_eq, List.getElem?_map, hx]; rfl
    rw [gN gX, gN gY, gN gZ] at this
    unfold Clockwise at this ⊢
    have hs0 := h.scale
    rw [area2_normalized _ _ _ _ _ _ hs0.ne'] at this
    have hs2 : 0 < scaleFactor vs ^ 2 := by positivity
    by_contra hc
    have := div_nonneg (not_lt.1 hc) hs2.le
    linarith
  have rot : ∀ {x y z : Nat}, FarClockwise (normalizeVerts vs) x y z → FarClockwise (normalizeVerts vs) y z x := by
    rintro x y z ⟨R, hR⟩
    refine ⟨R, fun r hr => ?_⟩
    have := hR r hr
    unfold Clockwise area2 at *
    linarith
  have ne : ∀ {x y : Nat}, FarClockwise (normalizeVerts vs) x x y → False := by
    rintro x y ⟨R, hR⟩
    have := hR R le_rfl
    unfold Clockwise area2 at this
    linarith
  have ct := hcw t (List.mem_of_getElem? ht)
  have cu := hcw u (List.mem_of_getElem? hu)
  have ct' : FarClockwise (normalizeVerts vs) v a b := by
    simp only [Spec.edges, List.map_cons, List.map_nil, List.mem_cons, Prod.mk.injEq, List.not_mem_nil, or_false] at m1 m2
    rcases m1 with ⟨rfl, rfl⟩ | ⟨rfl, rfl⟩ | ⟨rfl, rfl⟩ <;> rcases m2 with ⟨e, rfl, -⟩ | ⟨e, rfl, -⟩ | ⟨e, rfl, -⟩ <;>
      first
      | exact ct
      | exact rot ct
      | exact rot (rot ct)
      | (rw [e] at ct; exact (ne ct).elim)
      | (rw [e] at ct; exact (ne (rot ct)).elim)
      | (rw [e] at ct; exact (ne (rot (rot ct))).elim)
  have cu' : FarClockwise (normalizeVerts vs) b a c := by
    simp only [Spec.edges, List.map_cons, List.map_nil, List.mem_cons, Prod.mk.injEq, List.not_mem_nil, or_false] at m3 m4
    rcases m3 with ⟨rfl, rfl, -⟩ | ⟨rfl, rfl, -⟩ | ⟨rfl, rfl, -⟩ <;> rcases m4 with ⟨e, rfl⟩ | ⟨e, rfl⟩ | ⟨e, rfl⟩ <;>
      first
      | exact cu
      | exact rot cu
      | exact rot (rot cu)
      | (rw [e] at cu; exact (ne cu).elim)
      | (rw [e] at cu; exact (ne (rot cu)).elim)
      | (rw [e] at cu; exact (ne (rot (rot cu))).elim)
  exact (inCircle_symm (cw gB gA gC cu') (cw gV gA gB ct')).2 hcirc

/-- `q` is strictly inside the `i`-th triangle of a list of triangles over real vertices. -/
def Spec.CoveredBy (vs : List (Vtx K)) (out : List Out) (q : Vtx K) (i : Nat) : Prop :=
  ∃ a b c A B C, out[i]? = some (a, b, c) ∧ vs[a]? = some A ∧ vs[b]? = some B ∧ vs[c]? = some C ∧ InTriangle A B C q

/-- **C07**, what is guaranteed: a point in general position is strictly inside exactly one output triangle, or it is in
one of the unbounded triangles that are dropped and in no output triangle (in normalized coordinates). -/
theorem C07_cover_partial (fuel : Nat) (bins : Nat → Nat) (vs : List (Vtx K)) (h : Good fuel bins vs) (s : DT)
    (hs : wrapAndTriangulate fuel (bins vs.length) (normalizeVerts vs) none = .ok s)
    (q : Vtx K) (hq : Generic (normalizeVerts vs) (List.range vs.length) q) :
    (∃! i : Nat, Spec.CoveredBy (normalizeVerts vs) (filterSeq s.ts) q i) ∨
    (¬ ∃ i : Nat, Spec.CoveredBy (normalizeVerts vs) (filterSeq s.ts) q i) ∧
      ∃ t ∈ s.ts, (INF0 ≤ t.v1 ∨ INF0 ≤ t.v2 ∨ INF0 ≤ t.v3) ∧ FarInTriangle (normalizeVerts vs) t.v1 t.v2 t.v3 q := by
  have hs0 := hs
  have hni := h.ids_inf
  have hl : (normalizeVerts vs).length = vs.length := by rw [normalizeVerts_eq]; simp
  have key : ∃! i : Nat, ∃ t : Tri, s.ts[i]? = some t ∧ FarInTriangle (normalizeVerts vs) t.v1 t.v2 t.v3 q := by
    have hB := IdCfg.big
    obtain ⟨order, hb, hperm⟩ := C13_binSort_unit (bins vs.length) (normalizeVerts vs) h.bins
      (by rw [hl]; have := h.ids; unfold NONE at this; omega) (by
        obtain ⟨a, ha, b, hb, hab⟩ := h.distinct
        exact normalized_unit h.range ha hb hab)
    unfold wrapAndTriangulate at hs
    rw [hb] at hs
    simp only [Res.ok_bind] at hs
    cases order with
    | nil => simp at hs
    | cons first rest =>
      simp only at hs
      rw [lastId_ok (by simp [initialTriangles]) (by simp [initialTriangles]; unfold NONE; omega)] at hs
      simp only [Res.ok_bind] at hs
      have hs : insertAll (normalizeVerts vs) fuel (rest.take rest.length) ⟨initialTriangles first, 3, none⟩ = .ok s := by
        rw [List.take_length]; exact hs
      refine C34_tiling_partial fuel bins vs h first rest hb rest.length s hs q ?_
      rw [List.take_length]
      have hm : ∀ a ∈ first :: rest, a ∈ List.range vs.length := fun a ha => by rw [← hl]; exact hperm.subset ha
      exact ⟨fun a ha => hq.1 a (hm a ha), fun a ha b hb => hq.2 a (hm a ha) b (hm b hb)⟩
  have fp : ∀ {x : Nat} {X : Vtx K} (r : K), (normalizeVerts vs)[x]? = some X → farPos (normalizeVerts vs) r x = X := by
    intro x X r hx
    unfold farPos
    rw [if_pos (by have := lt_of_getElem? hx; omega), hx]; rfl
  have toFar : ∀ {a b c : Nat} {A B C : Vtx K}, (normalizeVerts vs)[a]? = some A → (normalizeVerts vs)[b]? = some B →
      (normalizeVerts vs)[c]? = some C → InTriangle A B C q → FarInTriangle (normalizeVerts vs) a b c q := by
    intro a b c A B C gA gB gC hI
    exact ⟨0, fun r _ => by rw [fp r gA, fp r gB, fp r gC]; exact hI⟩
  -- a covering output triangle comes from a mesh triangle
  have uniq : ∀ i j, Spec.CoveredBy (normalizeVerts vs) (filterSeq s.ts) q i → Spec.CoveredBy (normalizeVerts vs) (filterSeq s.ts) q j → i = j := by
    rintro i j ⟨a, b, c, A, B, C, g1, g2, g3, g4, g5⟩ ⟨a', b', c', A', B', C', g1', g2', g3', g4', g5'⟩
    by_contra hne
    refine filterSeq_pairs (ts := s.ts) (R := fun x y => ¬ (FarInTriangle (normalizeVerts vs) x.1 x.2.1 x.2.2 q ∧
      FarInTriangle (normalizeVerts vs) y.1 y.2.1 y.2.2 q)) (fun x y hxy hc => hxy hc.symm) ?_ i j _ _ g1 g1' hne
      ⟨toFar g2 g3 g4 g5, toFar g2' g3' g4' g5'⟩
    intro i j t u ht hu hij _ _ hc
    exact hij (key.unique ⟨t, ht, hc.1⟩ ⟨u, hu, hc.2⟩)
  obtain ⟨i, ⟨t, ht, hin⟩, hun⟩ := key
  by_cases hfin : t.v1 < INF0 ∧ t.v2 < INF0 ∧ t.v3 < INF0
  · left
    have hmem : (t.v1, t.v2, t.v3) ∈ filterSeq s.ts := by
      rw [filterSeq_eq_map, List.mem_map]
      refine ⟨t, List.mem_filter.2 ⟨List.mem_of_getElem? ht, ?_⟩, rfl⟩
      simp only [Tri.isFinite, Bool.and_eq_true, isFin_iff]
      exact ⟨⟨hfin.1, hfin.2.1⟩, hfin.2.2⟩
    obtain ⟨j, hj⟩ := List.mem_iff_getElem?.1 hmem
    have hlt : ∀ x, x = t.v1 ∨ x = t.v2 ∨ x = t.v3 → x < (normalizeVerts vs).length := by
      intro x hx
      rcases h.run (mergeInit_none _) with h1 | ⟨s', done, ins, first, h1, hI, -⟩
      · rw [hs0] at h1; simp at h1
      · rw [hs0] at h1; simp at h1; subst h1
        have hok := hI.ok.get ht
        rw [forall_fin3] at hok
        have hinf : INF0 ≤ INF3 := by unfold INF0 INF3; have := IdCfg.big; omega
        unfold VOk at hok
        simp only [Tri.v_0, Tri.v_1, Tri.v_2] at hok
        rcases hx with rfl | rfl | rfl <;> omega
    obtain ⟨A, gA, _⟩ := getI_lt (hlt t.v1 (.inl rfl))
    obtain ⟨B, gB, _⟩ := getI_lt (hlt t.v2 (.inr (.inl rfl)))
    obtain ⟨C, gC, _⟩ := getI_lt (hlt t.v3 (.inr (.inr rfl)))
    obtain ⟨R, hR⟩ := hin
    have := hR R le_rfl
    rw [fp R gA, fp R gB, fp R gC] at this
    exact ⟨j, ⟨_, _, _, A, B, C, hj, gA, gB, gC, this⟩, fun i hi => uniq _ _ hi ⟨_, _, _, A, B, C, hj, gA, gB, gC, this⟩⟩
  · right
    refine ⟨?_, t, List.mem_of_getElem? ht, by omega, hin⟩
    rintro ⟨j, a, b, c, A, B, C, g1, g2, g3, g4, g5⟩
    obtain ⟨u, hu, hf, e⟩ := mem_filterSeq (List.mem_of_getElem? g1)
    simp only [Tri.verts, Prod.mk.injEq] at e
    obtain ⟨rfl, rfl, rfl⟩ := e
    obtain ⟨j', hj'⟩ := List.mem_iff_getElem?.1 hu
    have := hun j' ⟨u, hj', toFar g2 g3 g4 g5⟩
    subst this
    rw [ht] at hj'
    obtain rfl := Option.some.inj hj'
    simp only [Tri.isFinite, Bool.and_eq_true, isFin_iff] at hf
    exact hfin ⟨hf.1.1, hf.1.2, hf.2⟩

end CDT

namespace CDT
local instance weakCfg : IdCfg := u32Cfg

/-- The sample meets the hypotheses; `(1/7, 3/11)` is in general position and inside one output triangle. -/
example : Good 100 Witness.defaultBins samplePts ∧
    (∃ s, wrapAndTriangulate 100 (Witness.defaultBins samplePts.length) (normalizeVerts samplePts) none = .ok s) ∧
    (∀ A ∈ normalizeVerts samplePts, (1/7 : ℚ) ≠ A.x ∧ (3/11 : ℚ) ≠ A.y) ∧
    (∀ A ∈ normalizeVerts samplePts, ∀ B ∈ normalizeVerts samplePts, A ≠ B → Plane.area2 A B ⟨1/7, 3/11⟩ ≠ 0) := by
  refine ⟨sample_good, ?_, by decide +kernel, by unfold Plane.area2; decide +kernel⟩
  have : (match wrapAndTriangulate 100 (Witness.defaultBins samplePts.length) (normalizeVerts samplePts) none with
    | .ok _ => true | _ => false) = true := by decide +kernel
  revert this
  cases wrapAndTriangulate 100 (Witness.defaultBins samplePts.length) (normalizeVerts samplePts) none <;> simp

end CDT

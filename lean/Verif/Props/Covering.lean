import Verif.Props.Hull
import Verif.Props.Visible
import Verif.Props.Polygon

/-! # C73: constraints in a triangulation that covers the convex hull are accepted -/

set_option linter.unusedSectionVars false
set_option linter.unusedSimpArgs false
set_option linter.unusedVariables false

namespace CDT
open Plane

section Main
variable {K : Type} [Field K] [LinearOrder K] [IsStrictOrderedRing K] [ExactParams K] [IdCfg]

/-- The triangles cover the points strictly inside the lines `H`; there are such points, and no vertex is outside. So the
region is the interior of the convex hull of the vertices. -/
structure Spec.CoversHull (H : List (Vtx K × Vtx K)) (vs : List (Vtx K)) (out : List Out) : Prop where
  closed : ∀ p ∈ vs, ∀ e ∈ H, area2 e.1 e.2 p ≤ 0
  some : ∃ q, Spec.Within H q
  cover : Spec.CoversWithin H vs out

/-- No segment between points of the closed region properly crosses an unbounded edge of a mesh whose bounded triangles cover the
region. -/
theorem reg_no_cross {vs : List (Vtx K)} {ts : List Tri} (hv : Valid (hp vs) ts) {E : List (HP K × HP K)} {P0 : HP K} (h0 : Reg E P0)
    (hinn : ∀ P, Reg E P → Inner vs ts P) {a b x y z : Nat} (wa : (hp vs a).w = 1) (wb : (hp vs b).w = 1) (wx : (hp vs x).w = 1)
    (hA : ∀ l ∈ E, 0 ≤ HP.o l.1 l.2 (hp vs a)) (hB : ∀ l ∈ E, 0 ≤ HP.o l.1 l.2 (hp vs b)) (hX : ∀ l ∈ E, 0 ≤ HP.o l.1 l.2 (hp vs x))
    (hy : ¬ y < INF0) (hT : TriIn ts y z x ∨ TriIn ts y x z) (hc : HP.Cross (hp vs a) (hp vs b) (hp vs x) (hp vs y)) : False := by
  have w0 := hp_w_inf vs hy
  obtain ⟨s, r, hs, r0, r1, e1, e2⟩ := cross_point wa wb wx w0 hc
  have hc1 := hc.1
  generalize hY : hp vs y = Y at *
  generalize hXX : hp vs x = X at *
  generalize hAA : hp vs a = A at *
  generalize hBB : hp vs b = B at *
  have hne : HP.o A B X ≠ 0 := by rintro e; rw [e] at hc1; simp at hc1
  set M : HP K := ⟨(X.x + (X.x + s * Y.x)) / 2, (X.y + (X.y + s * Y.y)) / 2, 1⟩ with hM
  have hreg : Reg E M := by
    refine ⟨rfl, fun l hl => ?_⟩
    have hm : HP.o l.1 l.2 M = (HP.o l.1 l.2 X + ((1 - r) * HP.o l.1 l.2 A + r * HP.o l.1 l.2 B)) / 2 := by
      simp only [hM, HP.o, e1, e2, wa, wb, wx]; ring
    have p1 := hX l hl
    have p2 := mul_nonneg (by linarith : 0 ≤ 1 - r) (hA l hl)
    have p3 := mul_nonneg r0.le (hB l hl)
    rcases lt_or_eq_of_le (by rw [hm]; linarith : 0 ≤ HP.o l.1 l.2 M) with h | h
    · exact h
    -- all three would be on the line
    exfalso
    rw [hm] at h
    have q1 : HP.o l.1 l.2 X = 0 := by linarith
    have q2 : HP.o l.1 l.2 A = 0 := (mul_eq_zero.1 (by linarith : (1 - r) * HP.o l.1 l.2 A = 0)).resolve_left (by linarith)
    have q3 : HP.o l.1 l.2 B = 0 := (mul_eq_zero.1 (by linarith : r * HP.o l.1 l.2 B = 0)).resolve_left r0.ne'
    have e : HP.o A B X * HP.o l.1 l.2 P0 = HP.o B X P0 * HP.o l.1 l.2 A + HP.o X A P0 * HP.o l.1 l.2 B + HP.o A B P0 * HP.o l.1 l.2 X := by
      simp only [HP.o]; ring
    rw [q1, q2, q3] at e
    simp only [mul_zero, add_zero] at e
    rcases mul_eq_zero.1 e with h | h
    · exact hne h
    · exact (h0.2 l hl).ne' h
  have inn := hinn M hreg
  have k1 : HP.o Y X M = 0 := by simp only [hM, HP.o, wx, w0]; ring
  have k2 : ∀ Z, HP.o Y Z M = HP.o Y Z X := by intro Z; simp only [hM, HP.o, wx, w0]; ring
  have k3 : ∀ Z, HP.o Z X M = s / 2 * HP.o Y Z X := by intro Z; simp only [hM, HP.o, wx, w0]; ring
  have hs2 : 0 < s / 2 := by linarith
  rcases hT with hT | hT
  · have pos := hT.pos hv
    have far := inn.far _ _ _ hT hy
    rw [hY, hXX] at pos far
    rw [k2, k3, HP.o_swap Y X M, k1] at far
    have := mul_pos hs2 pos
    rcases far with h | h | h <;> linarith
  · have pos := hT.pos hv
    have far := inn.far _ _ _ hT hy
    rw [hY, hXX] at pos far
    rw [k1, HP.o_swap (hp vs z) X M, k3, HP.o_swap Y (hp vs z) M, k2] at far
    rw [HP.o_swap'] at pos
    have := mul_pos hs2 pos
    rcases far with h | h | h <;> linarith

/-- The unconstrained phase of a run whose result covers the convex hull. -/
theorem Good.covering {fuel : Nat} {bins : Nat → Nat} {vs : List (Vtx K)} (h : Good fuel bins vs) {H : List (Vtx K × Vtx K)}
    {out0 : List Out} (ho0 : triangulation2d fuel bins vs = .ok out0) (hC : Spec.CoversHull H vs out0) :
    3 ≤ vs.length ∧ ∃ s done ins,
      wrapAndTriangulate fuel (bins vs.length) (normalizeVerts vs) (some ((List.range vs.length).map toId)) = .ok s ∧
      DInv (normalizeVerts vs) done ins s ∧
      (∀ a b c q, TriIn s.ts b a c → a < INF0 → b < INF0 → ¬ c < INF0 → Occ s.ts q → q < INF0 →
        0 ≤ HP.o (hp (normalizeVerts vs) a) (hp (normalizeVerts vs) b) (hp (normalizeVerts vs) q)) ∧
      ∀ a b x y : Nat, a < vs.length → b < vs.length → HasEdge s.ts x y → INF0 ≤ x ∨ INF0 ≤ y →
        ¬ HP.Cross (hp (normalizeVerts vs) a) (hp (normalizeVerts vs) b) (hp (normalizeVerts vs) x) (hp (normalizeVerts vs) y) := by
  have hl : (normalizeVerts vs).length = vs.length := by rw [normalizeVerts_eq]; simp
  have hs := h.scale
  have hni := h.ids_inf
  obtain ⟨q0, hq0⟩ := hC.some
  have h3 : 3 ≤ vs.length := by
    by_contra hlt
    unfold triangulation2d at ho0
    rw [if_pos (by omega)] at ho0
    simp only [Res.ok.injEq] at ho0
    subst ho0
    obtain ⟨o, ho, -⟩ := hC.cover q0 hq0
    simp at ho
  refine ⟨h3, ?_⟩
  unfold triangulation2d at ho0
  rw [if_neg (by omega)] at ho0
  simp only [Res.bind_eq_ok, Res.ok.injEq] at ho0
  obtain ⟨s', hs', rfl⟩ := ho0
  obtain ⟨s, hss, ets, -⟩ := erase_ok (m' := some ((List.range vs.length).map toId)) hs'
  rw [← ets] at hC
  rcases h.run (mergeInit_range _ (by have := h.ids; omega)) with e | ⟨s1, done, ins, first, e, hI, hperm, hf, -, hst⟩
  · rw [hss] at e; simp at e
  rw [hss] at e; simp at e; subst e
  have hf' : first < (normalizeVerts vs).length := by rw [hl]; exact hf
  have hT := tiled_steps hst (initial_valid hf' hni) (tiled_initial hf' hni)
  have closed : ∀ q, q < vs.length → ∀ l ∈ normLines vs H, 0 ≤ HP.o l.1 l.2 (hp (normalizeVerts vs) q) := by
    intro q hq l hl'
    obtain ⟨X, gX, -⟩ := getI_lt hq
    unfold normLines at hl'
    rw [List.mem_map] at hl'
    obtain ⟨e, he, rfl⟩ := hl'
    rw [hp_norm_eq hni gX]
    exact (o_toNorm_nonneg hs).2 (hC.closed X (List.mem_of_getElem? gX) e he)
  have occ : ∀ q, Occ s.ts q → q < INF0 → q < vs.length := by
    intro q hq hqi
    obtain ⟨i, T, hTi, hTq⟩ := hq
    have hm := hI.ok.get hTi
    rw [hasVert_iff] at hTq
    rw [← hl]
    rcases hTq with e | e | e
    · exact (e ▸ hm 0 : VOk _ q).fin hqi
    · exact (e ▸ hm 1 : VOk _ q).fin hqi
    · exact (e ▸ hm 2 : VOk _ q).fin hqi
  have hmesh : CoverMesh (normalizeVerts vs) s.ts (normLines vs H) := by
    refine ⟨hI.valid, hT, hI.ok, hni, ?_, fun q hq hqi => closed q (occ q hq hqi)⟩
    intro P hPR
    obtain ⟨q, rfl, hq⟩ := reg_exists hs hPR
    obtain ⟨o, ho, A, B, C, gA, gB, gC, c1, c2, c3⟩ := hC.cover q hq
    obtain ⟨T, hTm, hTf, rfl⟩ := mem_filterSeq ho
    obtain ⟨k, hk⟩ := List.mem_iff_getElem?.1 hTm
    simp only [Tri.isFinite, Bool.and_eq_true, isFin_iff] at hTf
    refine ⟨k, T, hk, hTf.1.1, hTf.1.2, hTf.2, ?_⟩
    simp only [Tri.verts] at gA gB gC
    rw [hp_norm_eq hni gA, hp_norm_eq hni gB, hp_norm_eq hni gC]
    exact ⟨(o_toNorm_nonneg hs).2 c1, (o_toNorm_nonneg hs).2 c2, (o_toNorm_nonneg hs).2 c3⟩
  have hR0 : Reg (normLines vs H) (HP.ofVtx (toNorm vs q0)) := (reg_norm hs).2 hq0
  refine ⟨s, done, ins, hss, hI, fun a b c q hTr ha hb hc hq hqi => hmesh.side hR0 hTr ha hb hc hq hqi, ?_⟩
  intro a b x y ha hb hxy hinf hc
  have wa := hp_w_fin (normalizeVerts vs) (show a < INF0 by omega)
  have wb := hp_w_fin (normalizeVerts vs) (show b < INF0 by omega)
  obtain ⟨i, j, T, hTi, hk⟩ := hxy
  obtain ⟨k, ex, ey, -⟩ := hk.k
  have hTT : TriIn s.ts x y (T.v (k + 2)) := by
    have := triIn_get hTi
    rw [← ex, ← ey]
    fin_cases k
    · exact this
    · exact this.next
    · exact this.next.next
  have inn := fun P (hP : Reg (normLines vs H) P) => hmesh.inner hP
  by_cases hx : x < INF0
  · have hy : ¬ y < INF0 := by omega
    exact reg_no_cross hI.valid hR0 inn wa wb (hp_w_fin _ hx) (closed a ha) (closed b hb) (closed x (occ x hTT.occ hx)) hy (.inl hTT.next) hc
  · by_cases hy : y < INF0
    · exact reg_no_cross hI.valid hR0 inn wa wb (hp_w_fin _ hy) (closed a ha) (closed b hb) (closed y (occ y hTT.next.occ hy)) hx (.inr hTT) hc.flip
    · have w0 := hp_w_inf (normalizeVerts vs) hx
      have w1 := hp_w_inf (normalizeVerts vs) hy
      have := hc.2
      simp only [HP.o, w0, w1, wa, wb] at this
      nlinarith [mul_self_nonneg ((hp (normalizeVerts vs) x).x * (hp (normalizeVerts vs) y).y - (hp (normalizeVerts vs) x).y * (hp (normalizeVerts vs) y).x)]

/-- **C73**. If the unconstrained result covers the convex hull of the vertices, then constraints that do not cross and do not
pass through vertices are accepted: the run succeeds and every constraint is an edge of the mesh. Any bins, any order. -/
theorem C73_covering (fuel : Nat) (bins : Nat → Nat) (vs : List (Vtx K)) (h : Good fuel bins vs) (hfuel : fuelFor vs.length ≤ fuel)
    (H : List (Vtx K × Vtx K)) (out0 : List Out) (h0 : triangulation2d fuel bins vs = .ok out0) (hC : Spec.CoversHull H vs out0)
    (es : List Edge) (hc : Spec.ClearOfVertices vs es) (hx : Spec.NonCrossing vs es) :
    (∃ out, constrained2d fuel bins vs es = .ok out) ∧
    ∃ r, constrainedMesh fuel bins vs es = .ok r ∧ ∀ e ∈ es, ∀ A B, vs[e.src]? = some A → vs[e.dst]? = some B →
      ∃ a b : Nat, vs[a]? = some A ∧ vs[b]? = some B ∧ Spec.MeshEdge r.ts a b ∧ Spec.MeshEdge r.ts b a := by
  obtain ⟨h3, s, done, ins, hs, hI, -, hfar⟩ := h.covering h0 hC
  obtain ⟨ho, hm⟩ := h.accepted hfuel hc hx hs (h.no_panic hfuel hc.inRange fun s' hs' _ e he x y hxy hinf => by
    rw [hs] at hs'; simp at hs'; subst hs'
    exact hfar _ _ x y (hc.inRange e he).1 (hc.inRange e he).2 hxy hinf)
  exact ⟨ho, hm h3⟩

/-- **C73**, the region: with closed borders the triangles of the result cover exactly the points enclosed by the constraints. -/
theorem C73_polygon (fuel : Nat) (bins : Nat → Nat) (vs : List (Vtx K)) (h : Good fuel bins vs) (hfuel : fuelFor vs.length ≤ fuel)
    (H : List (Vtx K × Vtx K)) (out0 : List Out) (h0 : triangulation2d fuel bins vs = .ok out0) (hC : Spec.CoversHull H vs out0)
    (es : List Edge) (hc : Spec.ClearOfVertices vs es) (hx : Spec.NonCrossing vs es) (hb : Spec.Border vs es) :
    ∃ out, constrained2d fuel bins vs es = .ok out ∧ ∀ q, OffEdges (Spec.segments vs es) q →
      ((∃ t ∈ out, ∃ A B C, vs[t.1]? = some A ∧ vs[t.2.1]? = some B ∧ vs[t.2.2]? = some C ∧ InClosedTriangle A B C q) ↔
        winding (Spec.segments vs es) q = 1) := by
  obtain ⟨⟨out, ho⟩, -⟩ := C73_covering fuel bins vs h hfuel H out0 h0 hC es hc hx
  exact ⟨out, ho, fun q hq => C57_polygon fuel bins vs h hfuel es hx hb out ho q hq⟩

/-- **C73**, constraints that cross at most one edge each: if the unconstrained result is moreover Delaunay, the constrained
result is constrained Delaunay. -/
theorem C73_single (fuel : Nat) (bins : Nat → Nat) (vs : List (Vtx K)) (h : Good fuel bins vs) (hfuel : fuelFor vs.length ≤ fuel)
    (H : List (Vtx K × Vtx K)) (out0 : List Out) (h0 : triangulation2d fuel bins vs = .ok out0) (hC : Spec.CoversHull H vs out0)
    (hD : Spec.Delaunay vs out0) (es : List Edge) (hc : Spec.ClearOfVertices vs es) (hx : Spec.NonCrossing vs es)
    (hone : Spec.SingleCross vs es out0) :
    ∃ out, constrained2d fuel bins vs es = .ok out ∧ Spec.LocallyDelaunay vs es out ∧ Spec.ConstrainedDelaunay vs es out := by
  obtain ⟨⟨out, ho⟩, -⟩ := C73_covering fuel bins vs h hfuel H out0 h0 hC es hc hx
  obtain ⟨h3, s, done, ins, hs, hI, hE, hfar⟩ := h.covering h0 hC
  have hl := h.single_local hfuel h3 hx ho h0 hD hone hs hI hE hfar
  exact ⟨out, ho, hl, C68_global fuel bins vs h es out ho hl⟩

/-- **C73** with **C72**: points inside the hull of a correct frame, one bin. -/
theorem C73_hull (fuel : Nat) (bins : Nat → Nat) (pts fr : List (Vtx K)) (H : List (Vtx K × Vtx K)) (h : Good fuel bins (pts ++ fr))
    (hfuel : fuelFor (pts ++ fr).length ≤ fuel)
    (h1 : bins (pts ++ fr).length = 1) (h1' : bins fr.length = 1) (hF : Spec.Frame fuel bins fr H) (hne : ∃ q, Spec.Within H q)
    (hP : ∀ p ∈ pts, Spec.Within H p) (es : List Edge) (hc : Spec.ClearOfVertices (pts ++ fr) es) (hx : Spec.NonCrossing (pts ++ fr) es) :
    (∃ out, constrained2d fuel bins (pts ++ fr) es = .ok out) ∧
    ∃ r, constrainedMesh fuel bins (pts ++ fr) es = .ok r ∧ ∀ e ∈ es, ∀ A B, (pts ++ fr)[e.src]? = some A → (pts ++ fr)[e.dst]? = some B →
      ∃ a b : Nat, (pts ++ fr)[a]? = some A ∧ (pts ++ fr)[b]? = some B ∧ Spec.MeshEdge r.ts a b ∧ Spec.MeshEdge r.ts b a := by
  obtain ⟨out0, h0, -, hcov⟩ := C72_hull fuel bins pts fr H h h1 h1' hF hP
  refine C73_covering fuel bins _ h hfuel H out0 h0 ⟨?_, hne, hcov⟩ es hc hx
  intro p hp e he
  rw [List.mem_append] at hp
  rcases hp with hp | hp
  · exact (hP p hp e he).le
  · exact hF.closed p hp e he

/-! ## Rounded arithmetic -/

/-- **C73** in rounded arithmetic (`f32`, `f64`) on robust inputs and on grids; `V` are the exact positions. -/
theorem C73_covering_rounded {F : Type} [FloatOps F] [Rounded F] (fuel : Nat) (bins : Nat → Nat) (vs : List (Vtx F))
    (V : List (Vtx ℚ)) (W : ℚ) (h : Rounded.RGoodC fuel bins vs V W) (H : List (Vtx ℚ × Vtx ℚ)) (out0 : List Out)
    (h0 : triangulation2d fuel bins vs = .ok out0) (hC : Spec.CoversHull H V out0)
    (es : List Edge) (hc : Spec.ClearOfVertices V es) (hx : Spec.NonCrossing V es) :
    (∃ out, constrained2d fuel bins vs es = .ok out) ∧
    ∃ r, constrainedMesh fuel bins vs es = .ok r ∧ ∀ e ∈ es, ∀ A B, V[e.src]? = some A → V[e.dst]? = some B →
      ∃ a b : Nat, V[a]? = some A ∧ V[b]? = some B ∧ Spec.MeshEdge r.ts a b ∧ Spec.MeshEdge r.ts b a := by
  let P := Rounded.params F (bins vs.length) W (Rounded.scaleVal vs)
  rw [h.toRGood.run] at h0
  rw [h.run, h.mesh]
  exact C73_covering fuel bins V h.good (by rw [h.len]; exact h.fuelC) H out0 h0 hC es hc hx

/-- **C73**, the region, in rounded arithmetic. -/
theorem C73_polygon_rounded {F : Type} [FloatOps F] [Rounded F] (fuel : Nat) (bins : Nat → Nat) (vs : List (Vtx F))
    (V : List (Vtx ℚ)) (W : ℚ) (h : Rounded.RGoodC fuel bins vs V W) (H : List (Vtx ℚ × Vtx ℚ)) (out0 : List Out)
    (h0 : triangulation2d fuel bins vs = .ok out0) (hC : Spec.CoversHull H V out0)
    (es : List Edge) (hc : Spec.ClearOfVertices V es) (hx : Spec.NonCrossing V es) (hb : Spec.Border V es) :
    ∃ out, constrained2d fuel bins vs es = .ok out ∧ ∀ q, OffEdges (Spec.segments V es) q →
      ((∃ t ∈ out, ∃ A B C, V[t.1]? = some A ∧ V[t.2.1]? = some B ∧ V[t.2.2]? = some C ∧ InClosedTriangle A B C q) ↔
        winding (Spec.segments V es) q = 1) := by
  obtain ⟨⟨out, ho⟩, -⟩ := C73_covering_rounded fuel bins vs V W h H out0 h0 hC es hc hx
  exact ⟨out, ho, fun q hq => C57_rounded fuel bins vs V W h es hx hb out ho q hq⟩

/-- **C73**, constraints that cross at most one edge each, in rounded arithmetic. -/
theorem C73_single_rounded {F : Type} [FloatOps F] [Rounded F] (fuel : Nat) (bins : Nat → Nat) (vs : List (Vtx F))
    (V : List (Vtx ℚ)) (W : ℚ) (h : Rounded.RGoodC fuel bins vs V W) (H : List (Vtx ℚ × Vtx ℚ)) (out0 : List Out)
    (h0 : triangulation2d fuel bins vs = .ok out0) (hC : Spec.CoversHull H V out0) (hD : Spec.Delaunay V out0)
    (es : List Edge) (hc : Spec.ClearOfVertices V es) (hx : Spec.NonCrossing V es) (hone : Spec.SingleCross V es out0) :
    ∃ out, constrained2d fuel bins vs es = .ok out ∧ Spec.LocallyDelaunay V es out ∧ Spec.ConstrainedDelaunay V es out := by
  let P := Rounded.params F (bins vs.length) W (Rounded.scaleVal vs)
  rw [h.toRGood.run] at h0
  rw [h.run]
  exact C73_single fuel bins V h.good (by rw [h.len]; exact h.fuelC) H out0 h0 hC hD es hc hx hone

end Main

section Example
open Rounded
local instance coverCfg : IdCfg := u32Cfg

theorem hull_goodC : RGoodC (F := F64) 500 (fun _ => 1) (flPts binary64 hullGrid) (intPts hullGrid) (2 ^ 4) where
  toRGood := hull_good
  ray := by unfold Plane.ClearRays Plane.area2 Plane.axes; decide +kernel
  fuelC := by decide

/-- Constraints between the points in the triangle and its corners, one of them given by a repeated point. -/
def hullEdges : List Edge := [⟨4, 1⟩, ⟨2, 6⟩, ⟨3, 5⟩]

/-- The hypotheses of `C73_covering_rounded` hold for points in a triangle, by C72; the conclusion for this input. -/
example : ∃ out, constrained2d (F := F64) 500 (fun _ => 1) (flPts binary64 hullGrid) hullEdges = .ok out := by
  have hin : ∀ p ∈ intPts [(3,2),(5,3),(3,2),(4,4)], InTriangle (⟨0, 0⟩ : Vtx ℚ) ⟨3, 9⟩ ⟨16, 1⟩ p := by
    intro p hp
    simp only [intPts, List.map_cons, List.map_nil, List.mem_cons, List.not_mem_nil, or_false] at hp
    rcases hp with rfl | rfl | rfl | rfl <;> norm_num [InTriangle, Clockwise, area2]
  obtain ⟨out0, h0, -, hcov⟩ := (C72_triangle_rounded (.inl rfl) 500 (fun _ => 1) (flPts binary64 hullGrid) (intPts [(3,2),(5,3),(3,2),(4,4)])
    ⟨0, 0⟩ ⟨16, 1⟩ ⟨3, 9⟩ _ hull_good rfl rfl (by norm_num [Spec.Between])).2 (by norm_num [Clockwise, area2]) hin
  refine (C73_covering_rounded 500 (fun _ => 1) _ (intPts hullGrid) _ hull_goodC _ out0 h0 ⟨?_, ⟨⟨3, 2⟩, ?_⟩, hcov⟩ hullEdges
    (clear_of_check (by decide +kernel)) (nonCrossing_of_check (by decide +kernel))).1
  · intro p hp e he
    simp only [hullGrid, intPts, List.map_cons, List.map_nil, List.mem_cons, List.not_mem_nil, or_false] at hp
    simp only [triSides, List.mem_cons, List.not_mem_nil, or_false] at he
    rcases hp with rfl | rfl | rfl | rfl | rfl | rfl | rfl <;> rcases he with rfl | rfl | rfl <;> norm_num [area2]
  · exact within_sides.2 (hin _ (by simp [intPts]))

end Example

end CDT

import Verif.Props.Delaunay
import Verif.Props.RoundedC

/-! # C56: constraints between framed points are always accepted -/

set_option linter.unusedSectionVars false
set_option linter.unusedSimpArgs false
set_option linter.unusedVariables false

namespace CDT
open Plane

variable {K : Type} [Field K] [LinearOrder K] [IsStrictOrderedRing K] [ExactParams K] [IdCfg]

/-- A point of a far edge in a rectangle of inner points, seen from the finite end of the edge. -/
theorem cross_point {A B x y : HP K} (ha : A.w = 1) (hb : B.w = 1) (hx : x.w = 1) (hy : y.w = 0) (h : HP.Cross A B x y) :
    ∃ s r : K, 0 < s ∧ 0 < r ∧ r < 1 ∧ x.x + s * y.x = A.x + r * (B.x - A.x) ∧ x.y + s * y.y = A.y + r * (B.y - A.y) := by
  obtain ⟨h1, h2⟩ := h
  have ny : HP.o A B y ≠ 0 := by rintro e; rw [e] at h1; simp at h1
  have nb : HP.o x y B - HP.o x y A ≠ 0 := by
    intro e
    have : HP.o x y B = HP.o x y A := by linarith
    rw [this] at h2
    nlinarith [mul_self_nonneg (HP.o x y A)]
  have e : HP.o x y A - HP.o x y B = HP.o A B y := by simp only [HP.o, ha, hb, hx, hy]; ring
  refine ⟨-HP.o A B x / HP.o A B y, HP.o x y A / HP.o A B y, ?_, ?_, ?_, ?_, ?_⟩
  · rcases lt_or_gt_of_ne ny with h | h
    · exact div_pos_of_neg_of_neg (by nlinarith) h
    · exact div_pos (by nlinarith) h
  · rcases lt_or_gt_of_ne ny with h | h
    · exact div_pos_of_neg_of_neg (by nlinarith) h
    · exact div_pos (by nlinarith) h
  · rcases lt_or_gt_of_ne ny with h | h
    · rw [div_lt_one_of_neg h]; nlinarith
    · rw [div_lt_one h]; nlinarith
  · field_simp
    simp only [HP.o, ha, hb, hx, hy]; ring
  · field_simp
    simp only [HP.o, ha, hb, hx, hy]; ring

/-- No segment in the rectangle properly crosses an unbounded edge of a mesh whose bounded triangles cover it. -/
theorem inner_no_cross {vs : List (Vtx K)} {ts : List Tri} (hv : Valid (hp vs) ts) {x0 y0 w t : K}
    (hinn : ∀ P : Vtx K, x0 < P.x → P.x < x0 + w → y0 < P.y → P.y < y0 + t → Inner vs ts (HP.ofVtx P))
    {A B X : Vtx K} {a b x y z : Nat} (ga : hp vs a = HP.ofVtx A) (gb : hp vs b = HP.ofVtx B) (gx : hp vs x = HP.ofVtx X)
    (hA : x0 ≤ A.x ∧ A.x ≤ x0 + w ∧ y0 ≤ A.y ∧ A.y ≤ y0 + t) (hB : x0 ≤ B.x ∧ B.x ≤ x0 + w ∧ y0 ≤ B.y ∧ B.y ≤ y0 + t)
    (hX : x0 ≤ X.x ∧ X.x ≤ x0 + w ∧ y0 ≤ X.y ∧ X.y ≤ y0 + t) (hy : ¬ y < INF0)
    (hT : TriIn ts y z x ∨ TriIn ts y x z) (hc : HP.Cross (hp vs a) (hp vs b) (hp vs x) (hp vs y)) : False := by
  have w0 := hp_w_inf vs hy
  have wz : 0 ≤ (hp vs z).w := by
    by_cases hz : z < INF0
    · rw [hp_w_fin vs hz]; exact zero_le_one
    · rw [hp_w_inf vs hz]
  obtain ⟨s, r, hs, r0, r1, e1, e2⟩ := cross_point (by rw [ga]; rfl) (by rw [gb]; rfl) (by rw [gx]; rfl) w0 hc
  have hc1 := hc.1
  rw [ga, gb, gx] at hc1 e1 e2
  simp only [HP.ofVtx] at e1 e2
  generalize hY : hp vs y = Y at *
  -- the crossing point, not on a common side with `X`
  have hne : HP.o (HP.ofVtx A) (HP.ofVtx B) (HP.ofVtx X) ≠ 0 := by rintro e; rw [e] at hc1; simp at hc1
  have r1' : 0 < 1 - r := by linarith
  have lo : ∀ {p q c m : K}, c ≤ p → c ≤ q → m = p + r * (q - p) → c ≤ m ∧ (m = c → p = c ∧ q = c) := by
    intro p q c m hp hq hm
    have e : m - c = (1 - r) * (p - c) + r * (q - c) := by rw [hm]; ring
    have h1 := mul_nonneg r1'.le (sub_nonneg.2 hp)
    have h2 := mul_nonneg r0.le (sub_nonneg.2 hq)
    refine ⟨by linarith, fun h => ⟨?_, ?_⟩⟩
    · have : (1 - r) * (p - c) = 0 := by linarith
      rcases mul_eq_zero.1 this with h | h <;> linarith
    · have : r * (q - c) = 0 := by linarith
      rcases mul_eq_zero.1 this with h | h <;> linarith
  have hi : ∀ {p q c m : K}, p ≤ c → q ≤ c → m = p + r * (q - p) → m ≤ c ∧ (m = c → p = c ∧ q = c) := by
    intro p q c m hp hq hm
    have := lo (p := -p) (q := -q) (c := -c) (m := -m) (by linarith) (by linarith) (by rw [hm]; ring)
    refine ⟨by linarith [this.1], fun h => ?_⟩
    have := this.2 (by rw [h])
    constructor <;> linarith [this.1, this.2]
  obtain ⟨l1, m1⟩ := lo hA.1 hB.1 e1
  obtain ⟨l2, m2⟩ := hi hA.2.1 hB.2.1 e1
  obtain ⟨l3, m3⟩ := lo hA.2.2.1 hB.2.2.1 e2
  obtain ⟨l4, m4⟩ := hi hA.2.2.2 hB.2.2.2 e2
  have hcol : ∀ c : K, ¬ (A.x = c ∧ B.x = c ∧ X.x = c) ∧ ¬ (A.y = c ∧ B.y = c ∧ X.y = c) := by
    refine fun c => ⟨fun ⟨h1, h2, h3⟩ => hne ?_, fun ⟨h1, h2, h3⟩ => hne ?_⟩ <;>
      simp only [HP.o, HP.ofVtx, h1, h2, h3] <;> ring
  have strict : ∀ {p m c : K}, c ≤ p → c ≤ m → ¬ (p = c ∧ m = c) → c < (p + m) / 2 := by
    intro p m c h1 h2 h3
    rcases lt_or_eq_of_le h1 with h | h
    · linarith
    · rcases lt_or_eq_of_le h2 with h' | h'
      · linarith
      · exact absurd ⟨h.symm, h'.symm⟩ h3
  have strict' : ∀ {p m c : K}, p ≤ c → m ≤ c → ¬ (p = c ∧ m = c) → (p + m) / 2 < c := by
    intro p m c h1 h2 h3
    have := strict (p := -p) (m := -m) (c := -c) (by linarith) (by linarith) (by rintro ⟨a, b⟩; exact h3 ⟨by linarith, by linarith⟩)
    linarith
  have inn := hinn ⟨(X.x + (X.x + s * Y.x)) / 2, (X.y + (X.y + s * Y.y)) / 2⟩
    (strict hX.1 l1 fun ⟨h, h'⟩ => (hcol _).1 ⟨(m1 h').1, (m1 h').2, h⟩)
    (strict' hX.2.1 l2 fun ⟨h, h'⟩ => (hcol _).1 ⟨(m2 h').1, (m2 h').2, h⟩)
    (strict hX.2.2.1 l3 fun ⟨h, h'⟩ => (hcol _).2 ⟨(m3 h').1, (m3 h').2, h⟩)
    (strict' hX.2.2.2 l4 fun ⟨h, h'⟩ => (hcol _).2 ⟨(m4 h').1, (m4 h').2, h⟩)
  -- the point is on the edge, so in the closed unbounded triangle
  set M : HP K := HP.ofVtx ⟨(X.x + (X.x + s * Y.x)) / 2, (X.y + (X.y + s * Y.y)) / 2⟩ with hM
  have k1 : HP.o Y (HP.ofVtx X) M = 0 := by simp only [hM, HP.o, HP.ofVtx, w0]; ring
  have k2 : ∀ Z, HP.o Y Z M = HP.o Y Z (HP.ofVtx X) := by intro Z; simp only [hM, HP.o, HP.ofVtx, w0]; ring
  have k3 : ∀ Z, HP.o Z (HP.ofVtx X) M = s / 2 * HP.o Y Z (HP.ofVtx X) := by intro Z; simp only [hM, HP.o, HP.ofVtx, w0]; ring
  have hs2 : 0 < s / 2 := by linarith
  rcases hT with hT | hT
  · have pos := hT.pos hv
    have far := inn.far _ _ _ hT hy
    rw [hY, gx] at pos far
    rw [k2, k3, HP.o_swap Y (HP.ofVtx X) M, k1] at far
    have := mul_pos hs2 pos
    rcases far with h | h | h <;> linarith
  · have pos := hT.pos hv
    have far := inn.far _ _ _ hT hy
    rw [hY, gx] at pos far
    rw [k1, HP.o_swap (hp vs z) (HP.ofVtx X) M, k3, HP.o_swap Y (hp vs z) M, k2] at far
    rw [HP.o_swap'] at pos
    have := mul_pos hs2 pos
    rcases far with h | h | h <;> linarith

/-- The unconstrained phase of a framed run, and the unbounded edges of its mesh. -/
theorem Good.framed_far {fuel : Nat} {bins : Nat → Nat} {vs : List (Vtx K)} (hcfg : RealCfg) (h : Good fuel bins vs) (h1 : bins vs.length = 1)
    {x0 x1 y0 y1 : K} (hf : Spec.Framed vs x0 x1 y0 y1) {m : Option (List Nat)} (hm : MergeInit vs.length m) :
    ∃ s, wrapAndTriangulate fuel (bins vs.length) (normalizeVerts vs) m = .ok s ∧
      Emp (normalizeVerts vs) s.ts ∧ (∃ done ins, DInv (normalizeVerts vs) done ins s ∧ done.Perm (List.range vs.length)) ∧
      ∀ a b x y : Nat, a < vs.length → b < vs.length → HasEdge s.ts x y → INF0 ≤ x ∨ INF0 ≤ y →
        ¬ HP.Cross (hp (normalizeVerts vs) a) (hp (normalizeVerts vs) b) (hp (normalizeVerts vs) x) (hp (normalizeVerts vs) y) := by
  have hl : (normalizeVerts vs).length = vs.length := by rw [normalizeVerts_eq]; simp
  have hs := h.scale
  obtain ⟨f0, f1, f2, f3, rest, hb, hF, hA, hin⟩ := h.frame_order h1 hf
  obtain ⟨n, l, hn, hperm, hv⟩ := h.frame_corners hf
  have hw : 0 < (x1 - x0) / scaleFactor vs := div_pos (by linarith [hf.1]) hs
  have ht : 0 < (y1 - y0) / scaleFactor vs := div_pos (by linarith [hf.2.1]) hs
  have hids := h.ids
  have hnn : (normalizeVerts vs).length ≤ IdCfg.maxId + 1 := by rw [hl]; unfold NONE at hids; omega
  have hni := h.ids_inf
  have e := hb
  rw [h1] at e
  have e := binSort_one hnn e
  have hrev : (List.range (n + 4)).reverse = (n + 3) :: (n + 2) :: (n + 1) :: n :: (List.range n).reverse := by
    simp [List.range_succ]
  rw [hl, ← hn, hrev] at e
  simp only [List.cons.injEq] at e
  obtain ⟨rfl, rfl, rfl, rfl, rfl⟩ := e
  have hW := h.sep.wide hw ht fun i j => by
    obtain ⟨q, -, g⟩ := hA i j
    exact List.mem_of_getElem? g
  obtain ⟨s0, hs0⟩ := corners_ok hcfg hW hperm (by rw [hn, ← hl]; exact hni) hv (fuel := fuel)
    (by have := h.fuel; omega) m
  obtain ⟨s, hs'⟩ := h.framed_ok hb hw ht hF hA hin hm hs0
  obtain ⟨hE, hT, hinn, done, ins, hI, hperm'⟩ := h.framed hb hw ht hF hA hin hm hs'
  refine ⟨s, hs', hE, ⟨done, ins, hI, hperm'⟩, ?_⟩
  -- all vertices are in the closed rectangle
  have box : ∀ a : Nat, a < vs.length → ∃ A : Vtx K, hp (normalizeVerts vs) a = HP.ofVtx A ∧
      (x0 - (bbox vs).1) / scaleFactor vs ≤ A.x ∧ A.x ≤ (x0 - (bbox vs).1) / scaleFactor vs + (x1 - x0) / scaleFactor vs ∧
      (y0 - (bbox vs).2.1) / scaleFactor vs ≤ A.y ∧ A.y ≤ (y0 - (bbox vs).2.1) / scaleFactor vs + (y1 - y0) / scaleFactor vs := by
    intro a ha
    obtain ⟨P, gP, -⟩ := getI_lt ha
    refine ⟨toNorm vs P, hp_norm_eq hni gP, ?_⟩
    have hb : x0 ≤ P.x ∧ P.x ≤ x1 ∧ y0 ≤ P.y ∧ P.y ≤ y1 := by
      obtain ⟨hx, hy, pts, corners, e, hp, hin⟩ := hf
      have := List.mem_of_getElem? gP
      rw [e, List.mem_append] at this
      rcases this with h | h
      · obtain ⟨h1, h2, h3, h4⟩ := hin _ h
        exact ⟨h1.le, h2.le, h3.le, h4.le⟩
      · have := hp.subset h
        simp only [List.mem_cons, List.not_mem_nil, or_false] at this
        rcases this with rfl | rfl | rfl | rfl <;> simp [hx.le, hy.le]
    simp only [toNorm]
    rw [← add_div, ← add_div]
    exact ⟨div_le_div_of_nonneg_right (by linarith [hb.1]) hs.le, div_le_div_of_nonneg_right (by linarith [hb.2.1]) hs.le,
      div_le_div_of_nonneg_right (by linarith [hb.2.2.1]) hs.le, div_le_div_of_nonneg_right (by linarith [hb.2.2.2]) hs.le⟩
  intro a b x y ha hb' hxy hinf hc
  obtain ⟨A, gA, bA⟩ := box a ha
  obtain ⟨B, gB, bB⟩ := box b hb'
  obtain ⟨i, j, T, hTi, hk⟩ := hxy
  obtain ⟨k, ex, ey, -⟩ := hk.k
  have hTT : TriIn s.ts x y (T.v (k + 2)) := by
    have := triIn_get hTi
    rw [← ex, ← ey]
    fin_cases k
    · exact this
    · exact this.next
    · exact this.next.next
  have hokx : VOk (normalizeVerts vs).length x := ex ▸ hI.ok.get hTi k
  have hoky : VOk (normalizeVerts vs).length y := ey ▸ hI.ok.get hTi (k + 1)
  by_cases hx : x < INF0
  · have hy : ¬ y < INF0 := by omega
    have hx' : x < vs.length := by rw [← hl]; exact hokx.resolve_right (by omega)
    obtain ⟨X, gX, bX⟩ := box x hx'
    exact inner_no_cross hI.valid hinn gA gB gX bA bB bX hy (.inl hTT.next) hc
  · by_cases hy : y < INF0
    · have hy' : y < vs.length := by rw [← hl]; exact hoky.resolve_right (by omega)
      obtain ⟨Y, gY, bY⟩ := box y hy'
      exact inner_no_cross hI.valid hinn gA gB gY bA bB bY hx (.inr hTT) hc.flip
    · have w0 := hp_w_inf (normalizeVerts vs) hx
      have w1 := hp_w_inf (normalizeVerts vs) hy
      have := hc.2
      rw [gA, gB] at this
      simp only [HP.o, HP.ofVtx, w0, w1] at this
      nlinarith [mul_self_nonneg ((hp (normalizeVerts vs) x).x * (hp (normalizeVerts vs) y).y - (hp (normalizeVerts vs) x).y * (hp (normalizeVerts vs) y).x)]

/-- **C56**. Points strictly inside an axis-parallel rectangle followed by its corners, one bin, constraints between any of
these points that do not cross and do not pass through points: the run succeeds and every constraint is an edge of the mesh. -/
theorem C56_framed (hcfg : RealCfg) (fuel : Nat) (bins : Nat → Nat) (vs : List (Vtx K)) (h : Good fuel bins vs)
    (hfuel : fuelFor vs.length ≤ fuel) (h1 : bins vs.length = 1) (x0 x1 y0 y1 : K) (hf : Spec.Framed vs x0 x1 y0 y1)
    (es : List Edge) (hc : Spec.ClearOfVertices vs es) (hx : Spec.NonCrossing vs es) :
    (∃ out, constrained2d fuel bins vs es = .ok out) ∧
    ∃ r, constrainedMesh fuel bins vs es = .ok r ∧ ∀ e ∈ es, ∀ A B, vs[e.src]? = some A → vs[e.dst]? = some B →
      ∃ a b : Nat, vs[a]? = some A ∧ vs[b]? = some B ∧ Spec.MeshEdge r.ts a b ∧ Spec.MeshEdge r.ts b a := by
  obtain ⟨s, hs, -, -, hfar⟩ := h.framed_far hcfg h1 hf (mergeInit_range _ (by have := h.ids; omega))
  have h3 : 3 ≤ vs.length := by
    obtain ⟨-, -, pts, corners, e, hp, -⟩ := hf
    rw [e, List.length_append, hp.length_eq]; simp
  obtain ⟨ho, hm⟩ := h.accepted hfuel hc hx hs (h.no_panic hfuel hc.inRange fun s' hs' _ e he x y hxy hinf => by
    rw [hs] at hs'; simp at hs'; subst hs'
    exact hfar _ _ x y (hc.inRange e he).1 (hc.inRange e he).2 hxy hinf)
  exact ⟨ho, hm h3⟩

/-- **C56** in rounded arithmetic (`f32`, `f64`) on robust inputs and on grids. -/
theorem C56_framed_rounded {F : Type} [FloatOps F] [Rounded F] (hcfg : RealCfg) (fuel : Nat) (bins : Nat → Nat) (vs : List (Vtx F))
    (V : List (Vtx ℚ)) (W : ℚ) (h : Rounded.RGoodC fuel bins vs V W) (h1 : bins vs.length = 1) (x0 x1 y0 y1 : ℚ)
    (hf : Spec.Framed V x0 x1 y0 y1) (es : List Edge) (hc : Spec.ClearOfVertices V es) (hx : Spec.NonCrossing V es) :
    (∃ out, constrained2d fuel bins vs es = .ok out) ∧
    ∃ r, constrainedMesh fuel bins vs es = .ok r ∧ ∀ e ∈ es, ∀ A B, V[e.src]? = some A → V[e.dst]? = some B →
      ∃ a b : Nat, V[a]? = some A ∧ V[b]? = some B ∧ Spec.MeshEdge r.ts a b ∧ Spec.MeshEdge r.ts b a := by
  let P := Rounded.params F (bins vs.length) W (Rounded.scaleVal vs)
  rw [h.run, h.mesh]
  exact C56_framed hcfg fuel bins V h.good (by rw [h.len]; exact h.fuelC) (by rw [h.len]; exact h1) x0 x1 y0 y1 hf es hc hx

end CDT

namespace CDT
section Example
open Rounded
local instance framedCCfg : IdCfg := u32Cfg

/-- Constraints of the sample: across the frame, between inner points and along a side of the frame. -/
def frameEdges : List Edge := [⟨6, 3⟩, ⟨0, 1⟩, ⟨2, 5⟩, ⟨5, 8⟩]

/-- The hypotheses of `C56_framed` hold. -/
example : RealCfg ∧ Good 462 (fun _ => 1) framePts ∧ fuelFor framePts.length ≤ 462 ∧ Spec.Framed framePts 0 9 0 7 ∧
    Spec.ClearOfVertices framePts frameEdges ∧ Spec.NonCrossing framePts frameEdges :=
  ⟨.inl rfl, { frame_good with fuel := by decide }, by decide, frame_framed, clear_of_check (by decide +kernel),
    nonCrossing_of_check (by decide +kernel)⟩

/-- The hypotheses of `C56_framed_rounded` hold in `f64`. -/
example : RGoodC (F := F64) 462 (fun _ => 1) (flPts binary64 frameGrid) (intPts frameGrid) (2 ^ 4) ∧
    Spec.Framed (intPts frameGrid) 0 16 0 7 ∧ Spec.ClearOfVertices (intPts frameGrid) frameEdges ∧
    Spec.NonCrossing (intPts frameGrid) frameEdges :=
  ⟨{ toRGood := C44_grid frameGrid 4 (by decide) (by decide) (by decide) ⟨by norm_num, by decide +kernel, by decide +kernel⟩
        (by decide +kernel) (by decide +kernel) (by decide +kernel) (by decide)
     ray := by unfold Plane.ClearRays Plane.area2 Plane.axes; decide +kernel
     fuelC := by decide },
    ⟨by norm_num, by norm_num, intPts [(3,2),(5,2),(3,4),(5,4),(3,2)], intPts [(16,7),(0,0),(0,7),(16,0)], rfl,
      by decide +kernel, by decide +kernel⟩, clear_of_check (by decide +kernel), nonCrossing_of_check (by decide +kernel)⟩

end Example

end CDT

namespace CDT
section Refuted
open Rounded Plane
local instance binsCfg : IdCfg := u32Cfg

/-- Six points inside a square and its corners. -/
def binsGrid : List (Int × Int) := [(10,12),(11,7),(6,2),(5,10),(12,12),(12,2),(0,0),(0,16),(16,0),(16,16)]

/-- One bin is needed in **C53**: with the two bins per side that the default density gives for ten points, in `f64` without any
rounding error, the result for framed points is no Delaunay triangulation. -/
theorem C53_default_bins_refuted : RGood (F := F64) 506 Witness.defaultBins (flPts binary64 binsGrid) (intPts binsGrid) (2 ^ 4) ∧
    Spec.Framed (intPts binsGrid) 0 16 0 16 ∧ Witness.defaultBins 10 = 2 ∧
    ∃ out, triangulation2d 506 Witness.defaultBins (flPts binary64 binsGrid) = .ok out ∧ ¬ Spec.Delaunay (intPts binsGrid) out := by
  refine ⟨C44_grid binsGrid 4 (by decide) (by decide) (by decide) ⟨by norm_num, by decide +kernel, by decide +kernel⟩
      (by decide +kernel) (by decide +kernel) (by decide +kernel) (by decide),
    ⟨by norm_num, by norm_num, intPts [(10,12),(11,7),(6,2),(5,10),(12,12),(12,2)], intPts [(0,0),(0,16),(16,0),(16,16)], rfl,
      by decide +kernel, by decide +kernel⟩, by decide +kernel,
    [(5,8,2),(3,1,2),(7,9,0),(8,6,2),(9,8,5),(3,6,7),(1,5,2),(9,5,1),(4,9,1),(0,9,4),(3,2,6),(0,4,1),(3,0,1),(3,7,0)], by decide +kernel, ?_⟩
  intro h
  obtain ⟨A, B, C, gA, gB, gC, -, hn⟩ := h (9,8,5) (by decide)
  have eA : (intPts binsGrid)[9]? = some ⟨16, 16⟩ := by decide +kernel
  have eB : (intPts binsGrid)[8]? = some ⟨16, 0⟩ := by decide +kernel
  have eC : (intPts binsGrid)[5]? = some ⟨12, 2⟩ := by decide +kernel
  rw [eA] at gA; rw [eB] at gB; rw [eC] at gC
  cases gA; cases gB; cases gC
  exact hn ⟨12, 12⟩ (by decide +kernel) ⟨⟨35/2, 8⟩, by unfold Circumcenter dist2; norm_num, by unfold dist2; norm_num⟩

end Refuted
end CDT

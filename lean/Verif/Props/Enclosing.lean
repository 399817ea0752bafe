import Verif.Props.MinAngle

/-! # C96: no triangulation has smaller enclosing circles than a Delaunay result -/

set_option linter.unusedSectionVars false

namespace CDT
open Plane

section Main

section Plain
variable {K : Type} [Field K] [LinearOrder K] [IsStrictOrderedRing K]

/-- Every triangle is in a circle whose radius has the square `r`. -/
def Spec.FitsCircles (vs : List (Vtx K)) (r : K) (out : List (Nat × Nat × Nat)) : Prop :=
  ∀ t ∈ out, ∀ A B C, vs[t.1]? = some A → vs[t.2.1]? = some B → vs[t.2.2]? = some C →
    ∃ m, dist2 m A ≤ r ∧ dist2 m B ≤ r ∧ dist2 m C ≤ r

/-- Triangles between the vertices, clockwise. -/
def Spec.CornersIn (vs : List (Vtx K)) (out : List (Nat × Nat × Nat)) : Prop :=
  ∀ t ∈ out, ∃ A B C, vs[t.1]? = some A ∧ vs[t.2.1]? = some B ∧ vs[t.2.2]? = some C ∧ Clockwise A B C

/-- If the triangles of any covering of the convex hull fit in circles of a size, those of the result do. -/
def Spec.SmallestCircles (vs : List (Vtx K)) (out : List (Nat × Nat × Nat)) : Prop :=
  ∀ out' : List (Nat × Nat × Nat), Spec.CornersIn vs out' → Spec.CoversConvex vs out' → ∀ r, Spec.FitsCircles vs r out' →
    Spec.FitsCircles vs r out

theorem mean_of_closed {A B C x : Vtx K} (hc : Clockwise A B C) (hin : InClosedTriangle A B C x) :
    Spec.MeanOf [(area2 B C x / area2 A B C, A), (area2 C A x / area2 A B C, B), (area2 A B x / area2 A B C, C)] x := by
  obtain ⟨c1, c2, c3⟩ := hin
  have hcw : area2 A B C < 0 := hc
  have s : area2 A B C = area2 B C x + area2 C A x + area2 A B x := by unfold area2; ring
  have ne0 : area2 A B C ≠ 0 := hcw.ne
  refine ⟨?_, ?_, ?_, ?_⟩
  · simp only [List.mem_cons, List.not_mem_nil, or_false, forall_eq_or_imp, forall_eq]
    exact ⟨div_nonneg_of_nonpos c2 hcw.le, div_nonneg_of_nonpos c3 hcw.le, div_nonneg_of_nonpos c1 hcw.le⟩
  · simp only [List.map_cons, List.map_nil, List.sum_cons, List.sum_nil, add_zero]
    rw [← add_div, ← add_div, ← add_assoc, ← s, div_self ne0]
  · simp only [List.map_cons, List.map_nil, List.sum_cons, List.sum_nil, add_zero]
    field_simp
    unfold area2; ring
  · simp only [List.map_cons, List.map_nil, List.sum_cons, List.sum_nil, add_zero]
    field_simp
    unfold area2; ring

theorem circum_area {A B C O : Vtx K} (o1 : dist2 O A = dist2 O B) (o2 : dist2 O A = dist2 O C) :
    2 * (area2 A B C * area2 B C O) = dist2 B C * ((B.x - A.x) * (C.x - A.x) + (B.y - A.y) * (C.y - A.y)) := by
  unfold dist2 area2 at *
  linear_combination (-((C.x - B.x) * (C.x - A.x) + (C.y - B.y) * (C.y - A.y))) * o1 + ((C.x - B.x) * (B.x - A.x) + (C.y - B.y) * (B.y - A.y)) * o2

/-- The square of the radius of the smallest enclosing circle is a mean squared distance from its center to the corners. -/
theorem smallest_circle {A B C : Vtx K} (hc : Clockwise A B C) : ∃ (a b c : K) (x : Vtx K), Spec.MeanOf [(a, A), (b, B), (c, C)] x ∧
    InClosedTriangle A B C x ∧ dist2 x A ≤ Spec.spread [(a, A), (b, B), (c, C)] x ∧ dist2 x B ≤ Spec.spread [(a, A), (b, B), (c, C)] x ∧
    dist2 x C ≤ Spec.spread [(a, A), (b, B), (c, C)] x := by
  have hcw : area2 A B C < 0 := hc
  by_cases hC : (A.x - C.x) * (B.x - C.x) + (A.y - C.y) * (B.y - C.y) ≤ 0
  · refine ⟨1 / 2, 1 / 2, 0, ⟨(A.x + B.x) / 2, (A.y + B.y) / 2⟩, ?_, ?_, ?_⟩
    · refine ⟨by norm_num, by norm_num, ?_, ?_⟩ <;> simp <;> ring
    · refine ⟨?_, ?_, ?_⟩
      · apply le_of_eq; unfold area2; ring
      · have : area2 B C ⟨(A.x + B.x) / 2, (A.y + B.y) / 2⟩ = area2 A B C / 2 := by unfold area2; ring
        rw [this]; linarith
      · have : area2 C A ⟨(A.x + B.x) / 2, (A.y + B.y) / 2⟩ = area2 A B C / 2 := by unfold area2; ring
        rw [this]; linarith
    · simp only [Spec.spread, List.map_cons, List.map_nil, List.sum_cons, List.sum_nil, dist2]
      refine ⟨?_, ?_, ?_⟩ <;> nlinarith
  by_cases hA : (B.x - A.x) * (C.x - A.x) + (B.y - A.y) * (C.y - A.y) ≤ 0
  · refine ⟨0, 1 / 2, 1 / 2, ⟨(B.x + C.x) / 2, (B.y + C.y) / 2⟩, ?_, ?_, ?_⟩
    · refine ⟨by norm_num, by norm_num, ?_, ?_⟩ <;> simp <;> ring
    · refine ⟨?_, ?_, ?_⟩
      · have : area2 A B ⟨(B.x + C.x) / 2, (B.y + C.y) / 2⟩ = area2 A B C / 2 := by unfold area2; ring
        rw [this]; linarith
      · apply le_of_eq; unfold area2; ring
      · have : area2 C A ⟨(B.x + C.x) / 2, (B.y + C.y) / 2⟩ = area2 A B C / 2 := by unfold area2; ring
        rw [this]; linarith
    · simp only [Spec.spread, List.map_cons, List.map_nil, List.sum_cons, List.sum_nil, dist2]
      refine ⟨?_, ?_, ?_⟩ <;> nlinarith
  by_cases hB : (A.x - B.x) * (C.x - B.x) + (A.y - B.y) * (C.y - B.y) ≤ 0
  · refine ⟨1 / 2, 0, 1 / 2, ⟨(A.x + C.x) / 2, (A.y + C.y) / 2⟩, ?_, ?_, ?_⟩
    · refine ⟨by norm_num, by norm_num, ?_, ?_⟩ <;> simp <;> ring
    · refine ⟨?_, ?_, ?_⟩
      · have : area2 A B ⟨(A.x + C.x) / 2, (A.y + C.y) / 2⟩ = area2 A B C / 2 := by unfold area2; ring
        rw [this]; linarith
      · have : area2 B C ⟨(A.x + C.x) / 2, (A.y + C.y) / 2⟩ = area2 A B C / 2 := by unfold area2; ring
        rw [this]; linarith
      · apply le_of_eq; unfold area2; ring
    · simp only [Spec.spread, List.map_cons, List.map_nil, List.sum_cons, List.sum_nil, dist2]
      refine ⟨?_, ?_, ?_⟩ <;> nlinarith
  -- an acute triangle contains the center of its circumcircle
  push Not at hA hB hC
  obtain ⟨O, o1, o2⟩ := exists_circumcenter A B C hcw.ne
  have d0 : ∀ P R : Vtx K, 0 ≤ dist2 P R := fun P R => by unfold dist2; positivity
  have kA := circum_area o1 o2
  have kB : 2 * (area2 A B C * area2 C A O) = dist2 C A * ((A.x - B.x) * (C.x - B.x) + (A.y - B.y) * (C.y - B.y)) := by
    have := circum_area (A := B) (B := C) (C := A) (O := O) (by rw [← o1, o2]) o1.symm
    rw [area2_cyc A B C] at this
    linear_combination this
  have kC : 2 * (area2 A B C * area2 A B O) = dist2 A B * ((A.x - C.x) * (B.x - C.x) + (A.y - C.y) * (B.y - C.y)) := by
    have := circum_area (A := C) (B := A) (C := B) (O := O) o2.symm (by rw [← o1, o2])
    rw [area2_cyc B C A, area2_cyc A B C] at this
    linear_combination this
  have sgn : ∀ u v w : K, 2 * (area2 A B C * u) = v * w → 0 ≤ v → 0 < w → u ≤ 0 := by
    intro u v w h hv hw
    by_contra hn
    push Not at hn
    nlinarith [mul_nonneg hv hw.le, mul_neg_of_neg_of_pos hcw hn]
  have hin : InClosedTriangle A B C O := ⟨sgn _ _ _ kC (d0 _ _) hC, sgn _ _ _ kA (d0 _ _) hA, sgn _ _ _ kB (d0 _ _) hB⟩
  have hm := mean_of_closed hc hin
  refine ⟨_, _, _, O, hm, hin, ?_⟩
  have h1 := hm.2.1
  have e : Spec.spread [(area2 B C O / area2 A B C, A), (area2 C A O / area2 A B C, B), (area2 A B O / area2 A B C, C)] O = dist2 O A := by
    simp only [Spec.spread, List.map_cons, List.map_nil, List.sum_cons, List.sum_nil, add_zero] at h1 ⊢
    rw [← o1, ← o2]
    linear_combination dist2 O A * h1
  rw [e]
  exact ⟨le_rfl, o1.ge, o2.ge⟩

theorem spread_le {l : List (K × Vtx K)} {x : Vtx K} (h : Spec.MeanOf l x) {O : Vtx K} {r : K} (hr : ∀ p ∈ l, dist2 O p.2 ≤ r) :
    Spec.spread l O ≤ r := by
  have key : ∀ m : List (K × Vtx K), (∀ p ∈ m, 0 ≤ p.1) → (∀ p ∈ m, dist2 O p.2 ≤ r) → Spec.spread m O ≤ (m.map (·.1)).sum * r := by
    intro m
    induction m with
    | nil => intro _ _; simp [Spec.spread]
    | cons p m ih =>
      intro h1 h2
      have := ih (fun q hq => h1 q (by simp [hq])) fun q hq => h2 q (by simp [hq])
      have := mul_le_mul_of_nonneg_left (h2 p (by simp)) (h1 p (by simp))
      simp only [Spec.spread, List.map_cons, List.sum_cons] at *
      linarith
  have := key l h.1 hr
  rwa [h.2.1, one_mul] at this

/-- Points of triangles between the vertices are in the convex hull. -/
theorem closed_in_hull {vs : List (Vtx K)} {A B C q : Vtx K} (hc : Clockwise A B C) (mA : A ∈ vs) (mB : B ∈ vs) (mC : C ∈ vs)
    (hq : InClosedTriangle A B C q) : Spec.InHull vs q := by
  intro X Y hall
  have := hall A mA; have := hall B mB; have := hall C mC
  have al : area2 A B C * area2 X Y q = area2 B C q * area2 X Y A + area2 C A q * area2 X Y B + area2 A B q * area2 X Y C := by
    unfold area2; ring
  obtain ⟨q1, q2, q3⟩ := hq
  have hcn : area2 A B C < 0 := hc
  by_contra hn
  push Not at hn
  nlinarith [mul_nonneg_of_nonpos_of_nonpos q2 ‹area2 X Y A ≤ 0›]

theorem circles_of_best {vs : List (Vtx K)} {out : List Out} (hcw : Spec.CornersIn vs out) (hb : Spec.BestInterpolation vs out) :
    Spec.SmallestCircles vs out := by
  intro out' hr hcov r hfit t ht A B C gA gB gC
  obtain ⟨A', B', C', gA', gB', gC', hc⟩ := hcw t ht
  rw [gA] at gA'; rw [gB] at gB'; rw [gC] at gC'; cases gA'; cases gB'; cases gC'
  obtain ⟨a, b, c, x, hm, hin, h1, h2, h3⟩ := smallest_circle hc
  obtain ⟨t', ht', X, Y, Z, gX, gY, gZ, hin'⟩ :=
    hcov x (closed_in_hull hc (List.mem_of_getElem? gA) (List.mem_of_getElem? gB) (List.mem_of_getElem? gC) hin)
  obtain ⟨X', Y', Z', gX', gY', gZ', hc'⟩ := hr t' ht'
  rw [gX] at gX'; rw [gY] at gY'; rw [gZ] at gZ'; cases gX'; cases gY'; cases gZ'
  obtain ⟨m, m1, m2, m3⟩ := hfit t' ht' X Y Z gX gY gZ
  have hm' := mean_of_closed hc' hin'
  have hbest := hb t ht A B C gA gB gC a b c x hm _ (by
    simp only [List.mem_cons, List.not_mem_nil, or_false, forall_eq_or_imp, forall_eq]
    exact ⟨List.mem_of_getElem? gX, List.mem_of_getElem? gY, List.mem_of_getElem? gZ⟩) hm'
  have hs := spread_mean hm' m
  have hle := spread_le hm' (O := m) (r := r) (by
    simp only [List.mem_cons, List.not_mem_nil, or_false, forall_eq_or_imp, forall_eq]
    exact ⟨m1, m2, m3⟩)
  have d0 : 0 ≤ dist2 m x := by unfold dist2; positivity
  exact ⟨x, by linarith, by linarith, by linarith⟩

/-- The same for the triangulations of the region of the result that respect the constraints. -/
def Spec.SmallestCirclesC (vs : List (Vtx K)) (es : List Edge) (out : List (Nat × Nat × Nat)) : Prop :=
  ∀ out' : List (Nat × Nat × Nat), Spec.CornersIn vs out' → Spec.OpenFree vs es out' →
    (∀ q, Spec.Covered vs out' q ↔ Spec.Covered vs out q) → ∀ r, Spec.FitsCircles vs r out' → Spec.FitsCircles vs r out

theorem circles_of_constrained {vs : List (Vtx K)} {es : List Edge} {out : List Out} (hcw : Spec.CornersIn vs out)
    (hd : Spec.ConstrainedDelaunay vs es out) : Spec.SmallestCirclesC vs es out := by
  intro out' hr hfree hcov r hfit t ht A B C gA gB gC
  obtain ⟨A', B', C', gA', gB', gC', hc⟩ := hcw t ht
  rw [gA] at gA'; rw [gB] at gB'; rw [gC] at gC'; cases gA'; cases gB'; cases gC'
  obtain ⟨a, b, c, x, hm, hin, h1, h2, h3⟩ := smallest_circle hc
  -- a point inside close to `x`
  set g : Vtx K := ⟨(A.x + B.x + C.x) / 3, (A.y + B.y + C.y) / 3⟩ with hg
  obtain ⟨e, e0, e1, he⟩ := exists_near vs x g
  have hcn : area2 A B C < 0 := hc
  have gin : ∀ X Y : Vtx K, area2 X Y g = area2 A B C / 3 → area2 X Y x ≤ 0 → area2 X Y (along x g e) < 0 := by
    intro X Y hg hx
    rw [area2_along, hg]
    nlinarith
  have hxe : InTriangle A B C (along x g e) := ⟨gin _ _ (by simp only [hg]; unfold area2; ring) hin.1,
    gin _ _ (by simp only [hg]; unfold area2; ring) hin.2.1, gin _ _ (by simp only [hg]; unfold area2; ring) hin.2.2⟩
  obtain ⟨t', ht', X, Y, Z, gX, gY, gZ, hcl⟩ := (hcov _).2 ⟨t, ht, A, B, C, gA, gB, gC, hxe.1.le, hxe.2.1.le, hxe.2.2.le⟩
  obtain ⟨X', Y', Z', gX', gY', gZ', hc'⟩ := hr t' ht'
  rw [gX] at gX'; rw [gY] at gY'; rw [gZ] at gZ'; cases gX'; cases gY'; cases gZ'
  have mX := List.mem_of_getElem? gX
  have mY := List.mem_of_getElem? gY
  have mZ := List.mem_of_getElem? gZ
  have hin' : InClosedTriangle X Y Z x := ⟨he X mX Y mY hcl.1, he Y mY Z mZ hcl.2.1, he Z mZ X mX hcl.2.2⟩
  -- the corners of the other triangle can be seen from a point inside of both
  obtain ⟨q, q1, q2⟩ := common_point hc' hxe hcl
  obtain ⟨v1, v2, v3⟩ := corners_visible (vs := vs) (vs' := vs) (es := es) (es' := es) (out := out) (out' := out') (fun _ => Iff.rfl)
    (fun _ h => h) (fun q _ h => (hcov q).1 h) hfree ht' gX gY gZ hc' q2
  obtain ⟨O, hO⟩ := exists_circumcenter A B C hcn.ne
  have far : ∀ P ∈ vs, Spec.Visible vs es out q P → dist2 O A ≤ dist2 O P := fun P hP hv =>
    not_lt.1 fun hl => hd t ht A B C gA gB gC q q1 P hP hv ⟨O, hO, hl⟩
  have hm' := mean_of_closed hc' hin'
  have hge := spread_ge hm' (O := O) (r := dist2 O A) (by
    simp only [List.mem_cons, List.not_mem_nil, or_false, forall_eq_or_imp, forall_eq]
    exact ⟨far X mX v1, far Y mY v2, far Z mZ v3⟩)
  have heq : Spec.spread [(a, A), (b, B), (c, C)] O = dist2 O A := by
    have h1 := hm.2.1
    obtain ⟨e1, e2⟩ := hO
    simp only [Spec.spread, List.map_cons, List.map_nil, List.sum_cons, List.sum_nil, add_zero] at h1 ⊢
    rw [← e1, ← e2]
    linear_combination dist2 O A * h1
  have k1 := spread_mean hm O
  have k2 := spread_mean hm' O
  obtain ⟨m, m1, m2, m3⟩ := hfit t' ht' X Y Z gX gY gZ
  have hs := spread_mean hm' m
  have hle := spread_le hm' (O := m) (r := r) (by
    simp only [List.mem_cons, List.not_mem_nil, or_false, forall_eq_or_imp, forall_eq]
    exact ⟨m1, m2, m3⟩)
  have d0 : 0 ≤ dist2 m x := by unfold dist2; positivity
  exact ⟨x, by linarith, by linarith, by linarith⟩

theorem cornersIn_of_delaunay {vs : List (Vtx K)} {out : List Out} (hd : Spec.Delaunay vs out) : Spec.CornersIn vs out := by
  intro t ht
  obtain ⟨A, B, C, gA, gB, gC, hc, -⟩ := hd t ht
  exact ⟨A, B, C, gA, gB, gC, hc⟩

theorem circles_of_delaunay {vs : List (Vtx K)} {out : List Out} (hd : Spec.Delaunay vs out) : Spec.SmallestCircles vs out :=
  circles_of_best (cornersIn_of_delaunay hd) (best_of_delaunay hd)

end Plain

variable {K : Type} [Field K] [LinearOrder K] [IsStrictOrderedRing K] [ExactParams K] [IdCfg]

/-- **C96** (exact arithmetic). Results that pass the test of C74: if the triangles of any covering of the convex hull by triangles between
the vertices fit in circles of a size, then those of the result do. -/
theorem C96_circles (fuel : Nat) (bins : Nat → Nat) (vs : List (Vtx K)) (h : Good fuel bins vs) (out : List Out)
    (ho : triangulation2d fuel bins vs = .ok out) (hne : out ≠ []) (hs : Spec.HullSides vs out) (hl : Spec.LocallyDelaunay vs [] out) :
    Spec.SmallestCircles vs out :=
  circles_of_delaunay ((C74_certificate fuel bins vs h out ho hne).1 ⟨hs, hl⟩).2

/-- **C96** for framed points and one bin: no condition on the result. -/
theorem C96_framed (hcfg : RealCfg) (fuel : Nat) (bins : Nat → Nat) (vs : List (Vtx K)) (h : Good fuel bins vs) (h1 : bins vs.length = 1)
    (x0 x1 y0 y1 : K) (hf : Spec.Framed vs x0 x1 y0 y1) : ∃ out, triangulation2d fuel bins vs = .ok out ∧ Spec.SmallestCircles vs out := by
  obtain ⟨out, ho, hd, -⟩ := C53_framed hcfg fuel bins vs h h1 x0 x1 y0 y1 hf
  exact ⟨out, ho, circles_of_delaunay hd⟩

/-- **C96** with constraints: locally Delaunay results. -/
theorem C96_constrained (fuel : Nat) (bins : Nat → Nat) (vs : List (Vtx K)) (h : Good fuel bins vs) (es : List Edge) (out : List Out)
    (ho : constrained2d fuel bins vs es = .ok out) (hl : Spec.LocallyDelaunay vs es out) : Spec.SmallestCirclesC vs es out :=
  circles_of_constrained (fun t ht => C30_output_clockwise fuel bins vs h es out ho _ _ _ (show (t.1, t.2.1, t.2.2) ∈ out from ht))
    (C68_global fuel bins vs h es out ho hl)

/-- **C96** for framed points, one bin, and constraints that cross at most one edge each: no condition on the result. -/
theorem C96_single (hcfg : RealCfg) (fuel : Nat) (bins : Nat → Nat) (vs : List (Vtx K)) (h : Good fuel bins vs)
    (hfuel : fuelFor vs.length ≤ fuel) (h1 : bins vs.length = 1) (x0 x1 y0 y1 : K) (hf : Spec.Framed vs x0 x1 y0 y1)
    (es : List Edge) (hc : Spec.ClearOfVertices vs es) (hx : Spec.NonCrossing vs es)
    (out0 : List Out) (h0 : triangulation2d fuel bins vs = .ok out0) (hone : Spec.SingleCross vs es out0) :
    ∃ out, constrained2d fuel bins vs es = .ok out ∧ Spec.SmallestCirclesC vs es out := by
  obtain ⟨out, ho, hl⟩ := C59_single_partial hcfg fuel bins vs h hfuel h1 x0 x1 y0 y1 hf es hc hx out0 h0 hone
  exact ⟨out, ho, C96_constrained fuel bins vs h es out ho hl⟩

/-- **C96** in rounded arithmetic (`f32`, `f64`) on robust inputs and on grids; `V` are the exact positions. -/
theorem C96_circles_rounded {F : Type} [FloatOps F] [Rounded F] (fuel : Nat) (bins : Nat → Nat) (vs : List (Vtx F))
    (V : List (Vtx ℚ)) (W : ℚ) (h : Rounded.RGood fuel bins vs V W) (out : List Out)
    (ho : triangulation2d fuel bins vs = .ok out) (hne : out ≠ []) (hs : Spec.HullSides V out) (hl : Spec.LocallyDelaunay V [] out) :
    Spec.SmallestCircles V out :=
  circles_of_delaunay ((C74_certificate_rounded fuel bins vs V W h out ho hne).1 ⟨hs, hl⟩).2

theorem C96_constrained_rounded {F : Type} [FloatOps F] [Rounded F] (fuel : Nat) (bins : Nat → Nat) (vs : List (Vtx F)) (V : List (Vtx ℚ))
    (W : ℚ) (h : Rounded.RGoodC fuel bins vs V W) (es : List Edge) (out : List Out) (ho : constrained2d fuel bins vs es = .ok out)
    (hl : Spec.LocallyDelaunay V es out) : Spec.SmallestCirclesC V es out := by
  let P' := Rounded.params F (bins vs.length) W (Rounded.scaleVal vs)
  rw [h.run] at ho
  exact C96_constrained fuel bins V h.good es out ho hl

end Main

section Example
open Rounded
local instance enclosingCfg : IdCfg := u32Cfg

/-- The run of `Props/MinAngle` against the other triangulation of the four vertices. -/
example (r : ℚ) (h : Spec.FitsCircles (intPts kiteGrid) r [(0, 2, 1), (0, 3, 2)]) :
    Spec.FitsCircles (intPts kiteGrid) r [(1, 3, 2), (0, 3, 1)] :=
  C96_circles_rounded 506 _ _ _ _ kite_good _ kite_run (by decide) (hullSides_of_check (by decide +kernel)) (local_of_check (by decide +kernel))
    _ (fun t ht => by obtain ⟨A, B, C, gA, gB, gC, hc, -⟩ := kite_rival.1 t ht; exact ⟨A, B, C, gA, gB, gC, hc⟩) kite_rival.2 r h

/-- The constrained run of `Props/Visible` against its own triangles in reverse order. -/
example (r : ℚ) (h : Spec.FitsCircles (intPts localGrid) r localOut.reverse) : Spec.FitsCircles (intPts localGrid) r localOut := by
  obtain ⟨hr, hx⟩ := C95_self_rounded 506 (fun _ => 1) _ _ _ local_good localEdges (nonCrossing_of_check (by decide +kernel)) (by decide +kernel)
    localOut local_visible.1
  exact C96_constrained_rounded 506 (fun _ => 1) _ _ _ local_good localEdges localOut local_visible.1 local_angles_local _
    (fun t ht => by obtain ⟨A, B, C, gA, gB, gC, hc, -⟩ := hr t (List.mem_reverse.1 ht); exact ⟨A, B, C, gA, gB, gC, hc⟩)
    (fun t ht => hx t (List.mem_reverse.1 ht)) (fun q => by unfold Spec.Covered; simp only [List.mem_reverse]) r h

end Example
end CDT

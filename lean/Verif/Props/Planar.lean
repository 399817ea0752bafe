import Verif.Props.Local
import Verif.Model.Constrained

/-! # C16: planar 3d input -/

set_option linter.unusedSectionVars false
set_option linter.unusedSimpArgs false
set_option linter.unusedVariables false

namespace CDT
open Plane

/-! ## Specification -/

namespace Spec

/-- Scalar product in space. -/
def dot3 {K : Type} [CommRing K] (a b : Vtx3 K) : K := a.x * b.x + a.y * b.y + a.z * b.z

/-- Squared distance in space. -/
def dist3 {K : Type} [CommRing K] (a b : Vtx3 K) : K := (a.x - b.x) ^ 2 + (a.y - b.y) ^ 2 + (a.z - b.z) ^ 2

/-- Determinant of `B - A`, `C - A` and `n`: twice the signed area of the triangle as seen from the tip of the unit normal `n`. -/
def area3 {K : Type} [CommRing K] (n A B C : Vtx3 K) : K :=
  (B.x - A.x) * ((C.y - A.y) * n.z - (C.z - A.z) * n.y) - (B.y - A.y) * ((C.x - A.x) * n.z - (C.z - A.z) * n.x) +
    (B.z - A.z) * ((C.x - A.x) * n.y - (C.y - A.y) * n.x)

/-- The vertices lie in a plane of unit normal `n`. -/
def Coplanar {K : Type} [CommRing K] (n : Vtx3 K) (vs : List (Vtx3 K)) : Prop := dot3 n n = 1 ∧ ∀ v ∈ vs, ∀ w ∈ vs, dot3 n v = dot3 n w

end Spec

/-- Coordinates in an orthonormal frame preserve squared lengths. -/
theorem frame_norm (w b n : Vtx3 ℝ) (hb : Spec.dot3 b b = 1) (hn : Spec.dot3 n n = 1) (hbn : Spec.dot3 b n = 0) (hw : Spec.dot3 w n = 0) :
    (Spec.dot3 w b) ^ 2 + (w.x * (n.y * b.z - n.z * b.y) + w.y * (n.z * b.x - n.x * b.z) + w.z * (n.x * b.y - n.y * b.x)) ^ 2 =
      Spec.dot3 w w := by
  have gram : (w.x * (n.y * b.z - n.z * b.y) + w.y * (n.z * b.x - n.x * b.z) + w.z * (n.x * b.y - n.y * b.x)) ^ 2 =
      Spec.dot3 w w * (Spec.dot3 n n * Spec.dot3 b b - Spec.dot3 b n ^ 2) - Spec.dot3 w n * (Spec.dot3 w n * Spec.dot3 b b -
        Spec.dot3 w b * Spec.dot3 b n) + Spec.dot3 w b * (Spec.dot3 w n * Spec.dot3 b n - Spec.dot3 w b * Spec.dot3 n n) := by
    unfold Spec.dot3; ring
  rw [gram, hb, hn, hbn, hw]; ring

/-- Coordinates in a direct orthonormal frame preserve signed areas. -/
theorem frame_area (u v b n : Vtx3 ℝ) (hb : Spec.dot3 b b = 1) (hbn : Spec.dot3 b n = 0) :
    Spec.dot3 u b * (v.x * (n.y * b.z - n.z * b.y) + v.y * (n.z * b.x - n.x * b.z) + v.z * (n.x * b.y - n.y * b.x)) -
      (u.x * (n.y * b.z - n.z * b.y) + u.y * (n.z * b.x - n.x * b.z) + u.z * (n.x * b.y - n.y * b.x)) * Spec.dot3 v b =
    u.x * (v.y * n.z - v.z * n.y) - u.y * (v.x * n.z - v.z * n.x) + u.z * (v.x * n.y - v.y * n.x) := by
  have e : Spec.dot3 u b * (v.x * (n.y * b.z - n.z * b.y) + v.y * (n.z * b.x - n.x * b.z) + v.z * (n.x * b.y - n.y * b.x)) -
      (u.x * (n.y * b.z - n.z * b.y) + u.y * (n.z * b.x - n.x * b.z) + u.z * (n.x * b.y - n.y * b.x)) * Spec.dot3 v b =
    (u.x * (v.y * n.z - v.z * n.y) - u.y * (v.x * n.z - v.z * n.x) + u.z * (v.x * n.y - v.y * n.x)) * Spec.dot3 b b -
    (u.x * (v.y * b.z - v.z * b.y) - u.y * (v.x * b.z - v.z * b.x) + u.z * (v.x * b.y - v.y * b.x)) * Spec.dot3 b n := by
    unfold Spec.dot3; ring
  rw [e, hb, hbn]; ring

variable [IdCfg]

/-- The coordinates of `transform_to_2d_planar_coordinate_system`, for a coplanar list with distinct first vertices. -/
theorem transformTo2d_spec (vs : List (Vtx3 ℝ)) (n v0 v1 : Vtx3 ℝ) (hc : Spec.Coplanar n vs)
    (h0 : vs[0]? = some v0) (h1 : vs[1]? = some v1) (hne : v0 ≠ v1) :
    ∃ pv : List (Vtx ℝ), transformTo2d vs n = .ok pv ∧ pv.length = vs.length ∧
      (∀ (i j : Nat) (A B : Vtx3 ℝ) (a b : Vtx ℝ), vs[i]? = some A → vs[j]? = some B → pv[i]? = some a → pv[j]? = some b →
        dist2 a b = Spec.dist3 A B) ∧
      (∀ (i j k : Nat) (A B C : Vtx3 ℝ) (a b c : Vtx ℝ), vs[i]? = some A → vs[j]? = some B → vs[k]? = some C →
        pv[i]? = some a → pv[j]? = some b → pv[k]? = some c → area2 a b c = Spec.area3 n A B C) := by
  obtain ⟨hn, hp⟩ := hc
  -- the first basis vector
  set d : Vtx3 ℝ := ⟨v0.x - v1.x, v0.y - v1.y, v0.z - v1.z⟩ with hd
  set r : ℝ := 1 / Real.sqrt (Spec.dot3 d d) with hr
  set b : Vtx3 ℝ := ⟨d.x * r, d.y * r, d.z * r⟩ with hb
  have hdd : 0 < Spec.dot3 d d := by
    have h : ¬ (d.x = 0 ∧ d.y = 0 ∧ d.z = 0) := by
      rintro ⟨hx, hy, hz⟩
      apply hne
      cases v0; cases v1
      simp [hd] at hx hy hz ⊢
      exact ⟨by linarith, by linarith, by linarith⟩
    rcases (add_nonneg (add_nonneg (mul_self_nonneg d.x) (mul_self_nonneg d.y)) (mul_self_nonneg d.z)).lt_or_eq with g | g
    · exact g
    · exfalso
      apply h
      have hx := mul_self_nonneg d.x
      have hy := mul_self_nonneg d.y
      have hz := mul_self_nonneg d.z
      exact ⟨mul_self_eq_zero.1 (by linarith), mul_self_eq_zero.1 (by linarith), mul_self_eq_zero.1 (by linarith)⟩
  have hrr : r * r * Spec.dot3 d d = 1 := by
    have hs := Real.mul_self_sqrt hdd.le
    have hs0 : Real.sqrt (Spec.dot3 d d) ≠ 0 := (Real.sqrt_pos.2 hdd).ne'
    calc r * r * Spec.dot3 d d = r * r * (Real.sqrt (Spec.dot3 d d) * Real.sqrt (Spec.dot3 d d)) := by rw [hs]
      _ = 1 := by rw [hr]; field_simp
  have hbb : Spec.dot3 b b = 1 := by
    rw [← hrr]; simp only [Spec.dot3, hb]; ring
  have hdn : Spec.dot3 d n = 0 := by
    have := hp v0 (List.mem_of_getElem? h0) v1 (List.mem_of_getElem? h1)
    simp only [Spec.dot3, hd] at this ⊢
    linarith
  have hbn : Spec.dot3 b n = 0 := by
    have : Spec.dot3 b n = r * Spec.dot3 d n := by simp only [Spec.dot3, hb]; ring
    rw [this, hdn, mul_zero]
  set f : Vtx3 ℝ → Vtx ℝ := fun v => ⟨Spec.dot3 v b,
    v.x * (n.y * b.z - n.z * b.y) + v.y * (n.z * b.x - n.x * b.z) + v.z * (n.x * b.y - n.y * b.x)⟩ with hf
  have ht : transformTo2d vs n = .ok (vs.map f) := by
    unfold transformTo2d
    rw [getI_of h0, getI_of h1]
    simp only [Res.ok_bind]
    congr 1
    apply List.map_congr_left
    intro v _
    have e1 : Vtx3.dot v (Vtx3.normalize (Vtx3.sub' v0 v1)) = (f v).x := rfl
    have e2 : Vtx3.dot v (Vtx3.cross (Vtx3.normalize (Vtx3.sub' v0 v1)) n.neg') = (f v).y := by
      show v.x * (b.y * -n.z - -n.y * b.z) + v.y * (b.z * -n.x - -n.z * b.x) + v.z * (b.x * -n.y - -n.x * b.y) = _
      simp only [hf]; ring
    rw [e1, e2]
  refine ⟨vs.map f, ht, by simp, ?_, ?_⟩
  · intro i j A B a b' hA hB ha hb'
    rw [List.getElem?_map, hA] at ha
    rw [List.getElem?_map, hB] at hb'
    simp only [Option.map_some, Option.some.injEq] at ha hb'
    subst ha; subst hb'
    have hw : Spec.dot3 ⟨A.x - B.x, A.y - B.y, A.z - B.z⟩ n = 0 := by
      have := hp A (List.mem_of_getElem? hA) B (List.mem_of_getElem? hB)
      simp only [Spec.dot3] at this ⊢
      linarith
    have := frame_norm _ b n hbb hn hbn hw
    simp only [dist2, hf, Spec.dist3, Spec.dot3] at this ⊢
    linarith
  · intro i j k A B C a b' c hA hB hC ha hb' hc
    rw [List.getElem?_map, hA] at ha
    rw [List.getElem?_map, hB] at hb'
    rw [List.getElem?_map, hC] at hc
    simp only [Option.map_some, Option.some.injEq] at ha hb' hc
    subst ha; subst hb'; subst hc
    have := frame_area ⟨B.x - A.x, B.y - A.y, B.z - A.z⟩ ⟨C.x - A.x, C.y - A.y, C.z - A.z⟩ b n hbb hbn
    simp only [area2, hf, Spec.area3, Spec.dot3] at this ⊢
    linarith

/-- **C16**, partial: over the reals (the quantifier of the property is not restricted to exact arithmetic), for vertices of a
plane with unit normal and distinct first two vertices, the 3d entry points are the 2d ones applied to coordinates that
preserve all distances and all signed areas seen from the tip of the normal. -/
theorem C16_planar_partial (fuel : Nat) (bins : Nat → Nat) (vs : List (Vtx3 ℝ)) (n v0 v1 : Vtx3 ℝ) (hc : Spec.Coplanar n vs)
    (h0 : vs[0]? = some v0) (h1 : vs[1]? = some v1) (hne : v0 ≠ v1) :
    ∃ pv : List (Vtx ℝ), pv.length = vs.length ∧
      triangulation3d fuel bins vs n = triangulation2d fuel bins pv ∧
      (∀ es, constrained3d fuel bins vs n es = constrained2d fuel bins pv es) ∧
      (∀ (i j : Nat) (A B : Vtx3 ℝ) (a b : Vtx ℝ), vs[i]? = some A → vs[j]? = some B → pv[i]? = some a → pv[j]? = some b →
        dist2 a b = Spec.dist3 A B) ∧
      (∀ (i j k : Nat) (A B C : Vtx3 ℝ) (a b c : Vtx ℝ), vs[i]? = some A → vs[j]? = some B → vs[k]? = some C →
        pv[i]? = some a → pv[j]? = some b → pv[k]? = some c → area2 a b c = Spec.area3 n A B C) := by
  obtain ⟨pv, ht, hl, h2, h3⟩ := transformTo2d_spec vs n v0 v1 hc h0 h1 hne
  refine ⟨pv, hl, ?_, ?_, h2, h3⟩
  · unfold triangulation3d
    split
    · rw [triangulation2d, if_pos (by omega)]
    · rw [ht, Res.ok_bind]
  · intro es
    unfold constrained3d
    split
    · rw [constrained2d, if_pos (by omega)]
    · rw [ht, Res.ok_bind]

end CDT

namespace CDT

/-- A square in the plane `z = 5`, and a triangle in the oblique plane of normal `(0, 3/5, 4/5)`. -/
example : Spec.Coplanar (⟨0, 0, 1⟩ : Vtx3 ℝ) [⟨0, 0, 5⟩, ⟨1, 0, 5⟩, ⟨1, 1, 5⟩, ⟨0, 1, 5⟩] ∧
    Spec.Coplanar (⟨0, 3 / 5, 4 / 5⟩ : Vtx3 ℝ) [⟨0, 0, 0⟩, ⟨1, 4, -3⟩, ⟨7, -4, 3⟩] := by
  constructor
  · refine ⟨by norm_num [Spec.dot3], ?_⟩
    intro v hv w hw
    simp at hv hw
    rcases hv with rfl | rfl | rfl | rfl <;> rcases hw with rfl | rfl | rfl | rfl <;> norm_num [Spec.dot3]
  · refine ⟨by norm_num [Spec.dot3], ?_⟩
    intro v hv w hw
    simp at hv hw
    rcases hv with rfl | rfl | rfl <;> rcases hw with rfl | rfl | rfl <;> norm_num [Spec.dot3]

end CDT

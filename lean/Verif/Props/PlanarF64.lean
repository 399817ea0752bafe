import Verif.Props.Planar
import Verif.Model.SoftFloat

/-! C16 in `f64`: the projection is not isometric. -/

namespace CDT

/-- Three collinear points of the plane `z = 0`. -/
def planarPts : List (Vtx3 ℚ) := [⟨0, 0, 0⟩, ⟨1, 3, 0⟩, ⟨3, 9, 0⟩]
/-- Its normal. -/
def planarNormal : Vtx3 ℚ := ⟨0, 0, 1⟩
/-- The same numbers as floats. -/
def Vtx3.toF64 (v : Vtx3 ℚ) : Vtx3 F64 := ⟨.fin v.x, .fin v.y, .fin v.z⟩
/-- The projected points, as numbers. -/
def planarImage : List (Vtx ℚ) :=
  [⟨0, 0⟩, ⟨-3560408122994089 / 1125899906842624, 0⟩, ⟨-5340612184491133 / 562949953421312, -1 / 2251799813685248⟩]

/-- **C16** is false in `f64`: three collinear points of a coordinate plane, given exactly, are projected to the corners of a
proper triangle, and their distances change. The numbers of `planarImage` are the exact values of the computed coordinates. -/
theorem C16_planar_refuted :
    Spec.Coplanar planarNormal planarPts ∧
    transformTo2d (planarPts.map Vtx3.toF64) planarNormal.toF64 = .ok (planarImage.map fun v => ⟨.fin v.x, .fin v.y⟩) ∧
    (∃ a b c A B C, planarImage = [a, b, c] ∧ planarPts = [A, B, C] ∧
      Spec.area3 planarNormal A B C = 0 ∧ Plane.area2 a b c ≠ 0 ∧ Plane.dist2 a b ≠ Spec.dist3 A B) := by
  refine ⟨⟨by decide +kernel, by unfold planarPts planarNormal; decide +kernel⟩, by decide +kernel, _, _, _, _, _, _, rfl, rfl,
    by decide +kernel, by decide +kernel, by decide +kernel⟩

end CDT

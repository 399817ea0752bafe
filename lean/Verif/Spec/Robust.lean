import Verif.Spec.Plane

/-!
# Robust inputs

Hypothesis of the theorems about rounded arithmetic: geometric quantities of the input are zero for a trivial reason (equal
coordinates) or large compared with the unit roundoff `u`. Nothing here refers to the functions of the modelled code.
-/

namespace CDT
namespace Plane

variable {K : Type} [Field K] [LinearOrder K]

/-- The in-circle determinant of `a b c p`. -/
def circleDet (a b c p : Vtx K) : K :=
  let ax := a.x - p.x
  let ay := a.y - p.y
  let bx := b.x - p.x
  let b_y := b.y - p.y
  let cx := c.x - p.x
  let cy := c.y - p.y
  (ax ^ 2 + ay ^ 2) * (bx * cy - cx * b_y) - (bx ^ 2 + b_y ^ 2) * (ax * cy - cx * ay) +
    (cx ^ 2 + cy ^ 2) * (ax * b_y - bx * ay)

/-- `W` is the extent of `V`: the largest difference of coordinates. -/
structure Extent (W : K) (V : List (Vtx K)) : Prop where
  pos : 0 < W
  bound : ∀ a ∈ V, ∀ b ∈ V, |a.x - b.x| ≤ W ∧ |a.y - b.y| ≤ W
  attained : ∃ a ∈ V, ∃ b ∈ V, |a.x - b.x| = W ∨ |a.y - b.y| = W

/-- No predicate of the input of extent `W` is close to zero, in units of `u`. -/
structure Robust (u W : K) (V : List (Vtx K)) : Prop extends Extent W V where
  x : ∀ a ∈ V, ∀ b ∈ V, a.x = b.x ∨ 32 * u * W ≤ |a.x - b.x|
  y : ∀ a ∈ V, ∀ b ∈ V, a.y = b.y ∨ 32 * u * W ≤ |a.y - b.y|
  /-- three vertices are on a horizontal or vertical line (or two of them are equal), or their triangle is not too small -/
  turn : ∀ a ∈ V, ∀ b ∈ V, ∀ c ∈ V,
    b = c ∨ ((b.x - a.x) * (c.y - a.y) = 0 ∧ (c.x - a.x) * (b.y - a.y) = 0) ∨ 64 * u * W ^ 2 ≤ |area2 a b c|
  /-- a vertex beyond the edge `a b` of the triangle `a b c` is not too close to the circle -/
  circle : ∀ a ∈ V, ∀ b ∈ V, ∀ c ∈ V, ∀ p ∈ V, Clockwise a b c → Clockwise b a p → 512 * u * W ^ 4 ≤ |circleDet a b c p|

/-- The input lies on a grid of step `2^s`, its extent is `2^k` steps, and numbers of `4k+3` binary digits are not rounded: all
predicates are evaluated without any error. Collinear and cocircular vertices are allowed. -/
def OnGrid (u tiny W : K) (V : List (Vtx K)) : Prop :=
  ∃ (k : ℕ) (s : ℤ), W = 2 ^ k * 2 ^ s ∧ 8 * 16 ^ k * u ≤ 1 ∧ 2 * tiny ≤ 2 ^ s ∧
    ∀ v ∈ V, ∃ a b : ℤ, v.x = a * 2 ^ s ∧ v.y = b * 2 ^ s

/-- The unit vectors along the axes. -/
def axes : List (Vtx K) := [⟨-1, 0⟩, ⟨0, 1⟩, ⟨1, 0⟩, ⟨0, -1⟩]

/-- Condition for a constrained triangulation. For the intersection test an edge from `f` to an artificial vertex is cut off
at distance `1.42 * W`; the line through two vertices must not almost pass through the far end of such an edge. -/
def ClearRays (u W : K) (V : List (Vtx K)) : Prop :=
  ∀ a ∈ V, ∀ b ∈ V, ∀ f ∈ V, f ≠ a → f ≠ b → ∀ d ∈ (axes : List (Vtx K)),
    ((b.x - a.x) * (f.y + 142 / 100 * W * d.y - b.y) = 0 ∧ (b.y - a.y) * (f.x + 142 / 100 * W * d.x - b.x) = 0) ∨
    96 * u * W ^ 2 ≤ |area2 a b ⟨f.x + 142 / 100 * W * d.x, f.y + 142 / 100 * W * d.y⟩|

end Plane
end CDT

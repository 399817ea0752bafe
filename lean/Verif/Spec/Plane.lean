import Mathlib.Algebra.Order.Field.Basic
import Mathlib.Tactic.Linarith
import Mathlib.Tactic.LinearCombination
import Mathlib.Tactic.Ring
import Verif.Model.Types

/-!
# Plane geometry used to state the properties

Nothing here refers to the functions of the modelled code; only the type of vertices is shared.
-/

namespace CDT

namespace Plane

variable {K : Type} [Field K] [LinearOrder K] [IsStrictOrderedRing K]

/-- Twice the signed area of `a b c` (positive: counter-clockwise in a frame with `y` up). -/
def area2 (a b c : Vtx K) : K := (b.x - a.x) * (c.y - a.y) - (c.x - a.x) * (b.y - a.y)

/-- `a b c` turn clockwise. -/
def Clockwise (a b c : Vtx K) : Prop := area2 a b c < 0

/-- Squared distance. -/
def dist2 (a b : Vtx K) : K := (a.x - b.x) ^ 2 + (a.y - b.y) ^ 2

/-- `m` is the center of a circle through `a`, `b` and `c`. -/
def Circumcenter (m a b c : Vtx K) : Prop := dist2 m a = dist2 m b ∧ dist2 m a = dist2 m c

/-- `p` lies strictly inside the circle through `a`, `b` and `c`. -/
def InCircle (a b c p : Vtx K) : Prop := ∃ m, Circumcenter m a b c ∧ dist2 m p < dist2 m a

/-- `p` lies strictly inside the clockwise triangle `a b c`. -/
def InTriangle (a b c p : Vtx K) : Prop := Clockwise a b p ∧ Clockwise b c p ∧ Clockwise c a p

/-- `p` lies on the closed segment from `a` to `b`. -/
def OnSegment (a b p : Vtx K) : Prop :=
  ∃ s : K, 0 ≤ s ∧ s ≤ 1 ∧ p.x = a.x + s * (b.x - a.x) ∧ p.y = a.y + s * (b.y - a.y)

/-- `p` lies on the segment from `a` to `b`, strictly between its ends. -/
def InsideSegment (a b p : Vtx K) : Prop :=
  ∃ s : K, 0 < s ∧ s < 1 ∧ p.x = a.x + s * (b.x - a.x) ∧ p.y = a.y + s * (b.y - a.y)

/-- The segments `a b` and `c d` share an endpoint. -/
def Shared (a b c d : Vtx K) : Prop := a = c ∨ a = d ∨ b = c ∨ b = d

/-- An end of one of the segments `a b` and `c d` lies on the other one. -/
def Tip (a b c d : Vtx K) : Prop := OnSegment a b c ∨ OnSegment a b d ∨ OnSegment c d a ∨ OnSegment c d b

/-- `p` lies on the ray from `f` in one of the four axis directions: left, up, right, down. -/
def OnRay (f : Vtx K) (k : Fin 4) (p : Vtx K) : Prop :=
  match k with
  | 0 => p.y = f.y ∧ p.x ≤ f.x
  | 1 => p.x = f.x ∧ f.y ≤ p.y
  | 2 => p.y = f.y ∧ f.x ≤ p.x
  | 3 => p.x = f.x ∧ p.y ≤ f.y

/-- The unit square. -/
def InUnit (p : Vtx K) : Prop := 0 ≤ p.x ∧ p.x ≤ 1 ∧ 0 ≤ p.y ∧ p.y ≤ 1

theorem area2_cyc (a b c : Vtx K) : area2 b c a = area2 a b c := by unfold area2; ring
theorem area2_swap (a b c : Vtx K) : area2 b a c = - area2 a b c := by unfold area2; ring

/-- A non-flat triangle has a circumcenter. -/
theorem exists_circumcenter (a b c : Vtx K) (h : area2 a b c ≠ 0) : ∃ m, Circumcenter m a b c := by
  obtain ⟨u, hu⟩ : ∃ u, 2 * area2 a b c * u = (c.y - a.y) * dist2 a b - (b.y - a.y) * dist2 a c :=
    ⟨((c.y - a.y) * dist2 a b - (b.y - a.y) * dist2 a c) / (2 * area2 a b c), mul_div_cancel₀ _ (by simpa using h)⟩
  obtain ⟨v, hv⟩ : ∃ v, 2 * area2 a b c * v = (b.x - a.x) * dist2 a c - (c.x - a.x) * dist2 a b :=
    ⟨((b.x - a.x) * dist2 a c - (c.x - a.x) * dist2 a b) / (2 * area2 a b c), mul_div_cancel₀ _ (by simpa using h)⟩
  refine ⟨⟨a.x + u, a.y + v⟩, ?_, ?_⟩
  · apply mul_left_cancel₀ h
    unfold dist2 area2 at *
    linear_combination (b.x - a.x) * hu + (b.y - a.y) * hv
  · apply mul_left_cancel₀ h
    unfold dist2 area2 at *
    linear_combination (c.x - a.x) * hu + (c.y - a.y) * hv

end Plane

end CDT

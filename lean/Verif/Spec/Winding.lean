import Mathlib.Algebra.BigOperators.Group.List.Basic
import Mathlib.Algebra.Order.Group.Int
import Verif.Spec.Plane

/-!
# Winding number of a list of directed edges

Nothing here refers to the functions of the modelled code.
-/

namespace CDT

namespace Plane

variable {K : Type} [Field K] [LinearOrder K] [IsStrictOrderedRing K]

/-- Signed crossing of the edge from `a` to `b` with the horizontal ray from `q` to the right: `1` if the edge goes down
across it, `-1` if it goes up. -/
def crossing (a b q : Vtx K) : ℤ :=
  if b.y ≤ q.y ∧ q.y < a.y ∧ area2 a b q < 0 then 1
  else if a.y ≤ q.y ∧ q.y < b.y ∧ 0 < area2 a b q then -1
  else 0

/-- How often the edges wind clockwise around `q`. -/
def winding (es : List (Vtx K × Vtx K)) (q : Vtx K) : ℤ := (es.map fun e => crossing e.1 e.2 q).sum

/-- Every point is the start of as many edges as it is the end of: the edges form closed curves. -/
def Balanced (es : List (Vtx K × Vtx K)) : Prop := (es.map (·.1)).Perm (es.map (·.2))

/-- `q` is on none of the edges. -/
def OffEdges (es : List (Vtx K × Vtx K)) (q : Vtx K) : Prop := ∀ e ∈ es, ¬ OnSegment e.1 e.2 q

/-- The segments `p q` and `a b` have a common point. -/
def Meet (p q a b : Vtx K) : Prop := ∃ m, OnSegment p q m ∧ OnSegment a b m

/-- `q` is in the clockwise triangle `a b c` or on its border. -/
def InClosedTriangle (a b c q : Vtx K) : Prop := area2 a b q ≤ 0 ∧ area2 b c q ≤ 0 ∧ area2 c a q ≤ 0

/-- Twice the signed area enclosed by closed curves (shoelace formula; positive: counter-clockwise). -/
def shoelace (es : List (Vtx K × Vtx K)) : K := (es.map fun e => e.1.x * e.2.y - e.2.x * e.1.y).sum

end Plane

namespace Spec

/-- The constraints as directed segments. -/
def segments {K : Type} (vs : List (Vtx K)) (es : List Edge) : List (Vtx K × Vtx K) := es.filterMap fun e =>
  match vs[e.src]?, vs[e.dst]? with
  | some a, some b => some (a, b)
  | _, _ => none

variable {K : Type} [Field K] [LinearOrder K] [IsStrictOrderedRing K]

/-- The constraints form the border of a region that is on their clockwise side: they are directed segments between
different points, none is repeated or used in both directions, they form closed curves, and the winding number of every
point off them is 0 or 1. The region may have several parts and holes, and parts may touch in points. -/
structure Border (vs : List (Vtx K)) (es : List Edge) : Prop where
  ne : ∀ s ∈ segments vs es, s.1 ≠ s.2
  nodup : (segments vs es).Nodup
  norev : ∀ s ∈ segments vs es, s.swap ∉ segments vs es
  bal : Plane.Balanced (segments vs es)
  win : ∀ q, Plane.OffEdges (segments vs es) q → Plane.winding (segments vs es) q = 0 ∨ Plane.winding (segments vs es) q = 1

/-- Twice the signed area of a triangle given by vertex numbers. -/
def triangleArea2 (vs : List (Vtx K)) (t : Nat × Nat × Nat) : K :=
  match vs[t.1]?, vs[t.2.1]?, vs[t.2.2]? with
  | some a, some b, some c => Plane.area2 a b c
  | _, _, _ => 0

end Spec

end CDT

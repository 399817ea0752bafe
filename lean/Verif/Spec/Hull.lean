import Verif.Spec.Visible

/-! # Convex hulls, and a test for the result of a triangulation -/

namespace CDT
open Plane

variable {K : Type} [Field K] [LinearOrder K] [IsStrictOrderedRing K]

namespace Spec

/-- `p` is in the closed convex hull of the points `vs`: every closed half-plane with all of `vs` contains `p`. -/
def InHull (vs : List (Vtx K)) (p : Vtx K) : Prop := ∀ A B : Vtx K, (∀ v ∈ vs, area2 A B v ≤ 0) → area2 A B p ≤ 0

/-- The triangles cover the convex hull of the points. -/
def CoversConvex (vs : List (Vtx K)) (out : List (Nat × Nat × Nat)) : Prop := ∀ p, InHull vs p → Covered vs out p

/-- A side of a triangle that is no side of another one has no point on its outer side. -/
def HullSides (vs : List (Vtx K)) (out : List (Nat × Nat × Nat)) : Prop :=
  ∀ t ∈ out, ∀ a b c, CornersOf t a b c → ∀ A B, vs[a]? = some A → vs[b]? = some B →
    (∃ u ∈ out, ∃ d, CornersOf u b a d) ∨ ∀ p ∈ vs, area2 A B p ≤ 0

end Spec

end CDT

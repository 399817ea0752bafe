import Verif.Spec.Local
import Verif.Spec.Winding

/-! # Constrained Delaunay triangulations, the global condition -/

namespace CDT
open Plane

variable {K : Type} [Field K] [LinearOrder K] [IsStrictOrderedRing K]

namespace Spec

/-- A point is in one of the closed triangles `out`. -/
def Covered (vs : List (Vtx K)) (out : List (Nat × Nat × Nat)) (x : Vtx K) : Prop :=
  ∃ t ∈ out, ∃ A B C, vs[t.1]? = some A ∧ vs[t.2.1]? = some B ∧ vs[t.2.2]? = some C ∧ InClosedTriangle A B C x

/-- `p` can be seen from `q`: between them there is no vertex and no point of a constraint, and the triangles `out` are not left. -/
def Visible (vs : List (Vtx K)) (es : List Edge) (out : List (Nat × Nat × Nat)) (q p : Vtx K) : Prop :=
  ∀ x, InsideSegment q p x → x ∉ vs ∧ Covered vs out x ∧
    ∀ e ∈ es, ∀ A B, vs[e.src]? = some A → vs[e.dst]? = some B → ¬ OnSegment A B x

/-- Constrained Delaunay: no vertex that can be seen from a point of a triangle is strictly inside its circumcircle. -/
def ConstrainedDelaunay (vs : List (Vtx K)) (es : List Edge) (out : List (Nat × Nat × Nat)) : Prop :=
  ∀ t ∈ out, ∀ A B C, vs[t.1]? = some A → vs[t.2.1]? = some B → vs[t.2.2]? = some C → ∀ q, InTriangle A B C q →
    ∀ p ∈ vs, Visible vs es out q p → ¬ InCircle A B C p

/-- No vertex that can be seen from a point of a triangle is on its circumcircle, other than its corners. -/
def NoneOnCircle (vs : List (Vtx K)) (es : List Edge) (out : List (Nat × Nat × Nat)) : Prop :=
  ∀ t ∈ out, ∀ A B C, vs[t.1]? = some A → vs[t.2.1]? = some B → vs[t.2.2]? = some C → ∀ q, InTriangle A B C q →
    ∀ p ∈ vs, Visible vs es out q p → ∀ m, Circumcenter m A B C → dist2 m p = dist2 m A → p = A ∨ p = B ∨ p = C

/-- No four different vertices are on a circle. -/
def NoFourOnCircle (vs : List (Vtx K)) : Prop :=
  ∀ A ∈ vs, ∀ B ∈ vs, ∀ C ∈ vs, ∀ D ∈ vs, A ≠ B → B ≠ C → C ≠ A → D ≠ A → D ≠ B → D ≠ C → ∀ m, Circumcenter m A B C → dist2 m D ≠ dist2 m A

end Spec

end CDT

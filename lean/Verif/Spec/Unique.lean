import Verif.Spec.Plane

/-!
# Membership of triangles by position

Statements about the triangles of an output as positions in the plane, whatever the numbers of the vertices and the order of
the corners.
-/

namespace CDT
open Plane

variable {K : Type} [Field K] [LinearOrder K] [IsStrictOrderedRing K]

/-- One of the listed triangles has the corners `A B C`, starting from any of them. -/
def Spec.Occurs (vs : List (Vtx K)) (out : List (Nat × Nat × Nat)) (A B C : Vtx K) : Prop :=
  ∃ o ∈ out, ∃ P Q R, vs[o.1]? = some P ∧ vs[o.2.1]? = some Q ∧ vs[o.2.2]? = some R ∧
    ((P = A ∧ Q = B ∧ R = C) ∨ (P = B ∧ Q = C ∧ R = A) ∨ (P = C ∧ Q = A ∧ R = B))

/-- No point of the list other than `A`, `B`, `C` is inside or on the circle through `A B C`. -/
def Spec.EmptyDisc (vs : List (Vtx K)) (A B C : Vtx K) : Prop :=
  ∀ m, Circumcenter m A B C → ∀ q ∈ vs, q = A ∨ q = B ∨ q = C ∨ dist2 m A < dist2 m q

/-- No four different points on a circle that contains no point of the list. -/
def Spec.NoFourOnEmptyCircle (vs : List (Vtx K)) : Prop :=
  ∀ A ∈ vs, ∀ B ∈ vs, ∀ C ∈ vs, ∀ D ∈ vs, A ≠ B → B ≠ C → C ≠ A → D ≠ A → D ≠ B → D ≠ C → ∀ m, Circumcenter m A B C →
    (∀ q ∈ vs, dist2 m A ≤ dist2 m q) → dist2 m D ≠ dist2 m A

end CDT

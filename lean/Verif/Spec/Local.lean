import Verif.Spec.Planar
import Verif.Geo.Segment
import Verif.Model.Types

/-! # Locally Delaunay triangulations with constraints -/

namespace CDT
open Plane

variable {K : Type} [Field K] [LinearOrder K] [IsStrictOrderedRing K]

namespace Spec

/-- `t` lists the corners `a b c` in this cyclic order. -/
def CornersOf (t : Nat × Nat × Nat) (a b c : Nat) : Prop := t = (a, b, c) ∨ t = (b, c, a) ∨ t = (c, a, b)

/-- A constraint joins the positions `A` and `B`, in one direction or the other. -/
def Constrains (vs : List (Vtx K)) (es : List Edge) (A B : Vtx K) : Prop :=
  ∃ e ∈ es, (vs[e.src]? = some A ∧ vs[e.dst]? = some B) ∨ (vs[e.src]? = some B ∧ vs[e.dst]? = some A)

/-- Constrained Delaunay, the local condition: for two triangles with a common edge that is no constraint, the far corner
of the one is not strictly inside the circumcircle of the other. -/
def LocallyDelaunay (vs : List (Vtx K)) (es : List Edge) (out : List (Nat × Nat × Nat)) : Prop :=
  ∀ t ∈ out, ∀ u ∈ out, ∀ a b c d, CornersOf t a b c → CornersOf u b a d → ∀ A B C D,
    vs[a]? = some A → vs[b]? = some B → vs[c]? = some C → vs[d]? = some D → ¬ Constrains vs es A B → ¬ InCircle A B C D

/-- Every constraint crosses at most one edge of the triangles `out`. -/
def SingleCross (vs : List (Vtx K)) (es : List Edge) (out : List (Nat × Nat × Nat)) : Prop :=
  ∀ e ∈ es, ∀ A B, vs[e.src]? = some A → vs[e.dst]? = some B → ∀ t ∈ out, ∀ u ∈ out, ∀ x y x' y' X Y X' Y',
    Side t x y → Side u x' y' → vs[x]? = some X → vs[y]? = some Y → vs[x']? = some X' → vs[y']? = some Y' →
    Cross A B X Y → Cross A B X' Y' → (x' = x ∧ y' = y) ∨ (x' = y ∧ y' = x)

end Spec

end CDT

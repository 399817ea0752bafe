import Verif.Model.Infinite

/-!
# Remaining helper functions of `/repo/src/types.rs` and `/repo/src/utils.rs`

They are not used (or only through the definitions of the other files) by the entry points.
-/

namespace CDT
open FloatOps

/-- `Edge::opposite` (`types.rs:121-126`). -/
def Edge.opposite (e : Edge) : Edge := ⟨e.dst, e.src⟩

/-- `impl From<(VertexId, VertexId)> for Edge` (`types.rs:128-132`). -/
def Edge.ofPair (p : Nat × Nat) : Edge := ⟨p.1, p.2⟩

section
variable [IdCfg]
/-- `Neighbor::exists` (`types.rs:152-154`). -/
def nbExists (n : Nat) : Bool := decide (n ≠ NONE)
/-- `TriangleData::is_pseudo_infinite` (`types.rs:337-339`). -/
def Tri.isPseudoInfinite (t : Tri) : Bool := isInf t.v1 || isInf t.v2 || isInf t.v3
end

/-- `TriangleData::edges` (`types.rs:252-254`). -/
def Tri.edges3 (t : Tri) : List Edge := [t.edge 0, t.edge 1, t.edge 2]

/-- `TriangleData::other_edges` (`types.rs:266-271`). -/
def Tri.otherEdges (t : Tri) (i : Fin 3) : List Edge := [t.edge (nextCwEdge i), t.edge (nextCcwEdge i)]

/-- `TriangleData::get_vertex_index` (`types.rs:304-311`): the loop over the three vertices. -/
def Tri.getVertexIndex (t : Tri) (x : Nat) : Option (Fin 3) :=
  if t.v1 = x then some 0 else if t.v2 = x then some 1 else if t.v3 = x then some 2 else none

/-- `TriangleData::opposite_edge_index_from_vertex` (`types.rs:315-317`). -/
def Tri.oppEdgeFromVertex (t : Tri) (x : Nat) : Fin 3 := oppEdgeIdx (t.vertexIndex x)

/-- `TriangleData::to_vertices`, `to_vertices_array` (`types.rs:275-290`). -/
def Tri.toVertices {F : Type} (t : Tri) (vs : List (Vtx F)) : Res (Vtx F × Vtx F × Vtx F) := do
  let a ← getI vs t.v1
  let b ← getI vs t.v2
  let c ← getI vs t.v3
  .ok (a, b, c)

/-- `Edge::to_vertices` (`types.rs:111-113`). -/
def Edge.toVertices {F : Type} (e : Edge) (vs : List (Vtx F)) : Res (EV F) := do
  let a ← getI vs e.src
  let b ← getI vs e.dst
  .ok (a, b)

variable {F : Type} [FloatOps F]

/-- `EdgeSideTestResult::is_strictly_on_right_side` (`utils.rs:101-103`). -/
def strictlyRight (s : F) : Bool := lt s (neg eps)
/-- `EdgeSideTestResult::is_strictly_on_left_side` (`utils.rs:109-111`). -/
def strictlyLeft (s : F) : Bool := lt eps s
/-- `EdgeSideTestResult::is_colinear` (`utils.rs:113-115`). -/
def isColinear (s : F) : Bool := eq s zero

/-- `line_slope` (`utils.rs:150-152`). -/
def lineSlope (a b : Vtx F) : F := div (sub b.y a.y) (sub b.x a.x)

end CDT

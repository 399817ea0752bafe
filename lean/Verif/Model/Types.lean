import Verif.Model.Arith

/-!
# Data types (`/repo/src/types.rs`) and the identifiers of `/repo/src/infinite.rs`
-/

namespace CDT

/-- Width of `IndexType` (`/repo/src/types/u32.rs:1`, `/repo/src/types/u64.rs:1`): the largest id. -/
class IdCfg where
  maxId : Nat
  big : 7 ≤ maxId

/-- Default: `u32` indexes. -/
abbrev u32Cfg : IdCfg := ⟨4294967295, by decide⟩
/-- Feature `u64_indexes`. -/
abbrev u64Cfg : IdCfg := ⟨18446744073709551615, by decide⟩

section Ids
variable [IdCfg]

/-- `Neighbor::NONE` (`types.rs:143-145`). -/
def NONE : Nat := IdCfg.maxId
/-- `INFINITE_V0_ID` (`infinite.rs:21`). -/
def INF0 : Nat := IdCfg.maxId - 3
/-- `INFINITE_V1_ID` (`infinite.rs:22`). -/
def INF1 : Nat := IdCfg.maxId - 2
/-- `INFINITE_V2_ID` (`infinite.rs:23`). -/
def INF2 : Nat := IdCfg.maxId - 1
/-- `INFINITE_V3_ID` (`infinite.rs:24`). -/
def INF3 : Nat := IdCfg.maxId

/-- `is_infinite` (`infinite.rs:39-41`). -/
def isInf (v : Nat) : Bool := decide (INF0 ≤ v)
/-- `is_finite` (`infinite.rs:45-47`). -/
def isFin (v : Nat) : Bool := decide (v < INF0)

/-- `usize as IndexType`: truncating cast. -/
def toId (n : Nat) : Nat := n % (IdCfg.maxId + 1)

/-- `a + b` on `IndexType`; overflow panics (debug profile). -/
def addId (a b : Nat) : Res Nat := if a + b ≤ IdCfg.maxId then .ok (a + b) else .panic

end Ids

/-- `Vertex` (`types/f64.rs`): a pair of coordinates. -/
structure Vtx (F : Type) where
  x : F
  y : F
  deriving DecidableEq, Repr

/-- `TriangleData` (`types.rs:165-174`): `verts: [VertexId;3]`, `neighbors: [Neighbor;3]`
(`Neighbor` is just an id, `types.rs:138-140`). The arrays are spelled out as fields. -/
structure Tri where
  v1 : Nat
  v2 : Nat
  v3 : Nat
  n12 : Nat
  n23 : Nat
  n31 : Nat
  deriving DecidableEq, Repr, Inhabited

/-- `Edge` (`types.rs:93-97`). -/
structure Edge where
  src : Nat
  dst : Nat
  deriving DecidableEq, Repr

namespace Edge
/-- `Edge::undirected_equals` (`types.rs:105-107`). -/
def undirEq (e o : Edge) : Bool := decide (e = o) || (decide (e.src = o.dst) && decide (e.dst = o.src))
/-- `Edge::contains` (`types.rs:116-118`). -/
def contains (e : Edge) (v : Nat) : Bool := decide (e.src = v) || decide (e.dst = v)
end Edge

/-! ## Local indices (`types.rs:36-91`): `u8` values 0,1,2 are `Fin 3`. -/

/-- `NEXT_CLOCKWISE_EDGE_INDEX` (`types.rs:56`). -/
def nextCwEdge : Fin 3 → Fin 3
  | 0 => 1
  | 1 => 2
  | 2 => 0
/-- `NEXT_COUNTER_CLOCKWISE_EDGE_INDEX` (`types.rs:58`). -/
def nextCcwEdge : Fin 3 → Fin 3
  | 0 => 2
  | 1 => 0
  | 2 => 1
/-- `EDGE_TO_VERTS` (`types.rs:60-61`), first component. -/
def edgeToVert0 : Fin 3 → Fin 3
  | 0 => 0
  | 1 => 1
  | 2 => 2
/-- `EDGE_TO_VERTS` (`types.rs:60-61`), second component. -/
def edgeToVert1 : Fin 3 → Fin 3
  | 0 => 1
  | 1 => 2
  | 2 => 0
/-- `OPPOSITE_VERTEX_INDEX` (`types.rs:63`). -/
def oppVertIdx : Fin 3 → Fin 3
  | 0 => 2
  | 1 => 0
  | 2 => 1
/-- `NEXT_CW_VERTEX_INDEX` (`types.rs:66`). -/
def nextCwVert : Fin 3 → Fin 3
  | 0 => 1
  | 1 => 2
  | 2 => 0
/-- `NEXT_CCW_VERTEX_INDEX` (`types.rs:68`). -/
def nextCcwVert : Fin 3 → Fin 3
  | 0 => 2
  | 1 => 0
  | 2 => 1
/-- `OPPOSITE_EDGE_INDEX` (`types.rs:70`). -/
def oppEdgeIdx : Fin 3 → Fin 3
  | 0 => 1
  | 1 => 2
  | 2 => 0
/-- `vertex_next_cw_edge_index` (`types.rs:432-434`). -/
def vertNextCwEdge (i : Fin 3) : Fin 3 := i
/-- `NEXT_CCW_EDGE_INDEX` / `vertex_next_ccw_edge_index` (`types.rs:72,438-440`). -/
def vertNextCcwEdge : Fin 3 → Fin 3
  | 0 => 2
  | 1 => 0
  | 2 => 1
/-- `OUTERMOST_CW_EDGE_INDEX_AROUND_VERTEX` (`types.rs:77-78`). -/
def outerCwEdge : Fin 3 → Fin 3
  | 0 => 2
  | 1 => 0
  | 2 => 1
/-- `OUTERMOST_CCW_EDGE_INDEX_AROUND_VERTEX` (`types.rs:82-83`). -/
def outerCcwEdge : Fin 3 → Fin 3
  | 0 => 0
  | 1 => 1
  | 2 => 2

namespace Tri

/-- `TriangleData::v` (`types.rs:178-180`). -/
def v (t : Tri) : Fin 3 → Nat
  | 0 => t.v1
  | 1 => t.v2
  | 2 => t.v3
/-- `TriangleData::neighbor` (`types.rs:221-223`). -/
def n (t : Tri) : Fin 3 → Nat
  | 0 => t.n12
  | 1 => t.n23
  | 2 => t.n31
/-- `TriangleData::edge` (`types.rs:257-263`), also `edge12`, `edge23`, `edge31` (`types.rs:208-218`). -/
def edge (t : Tri) (i : Fin 3) : Edge := ⟨t.v (edgeToVert0 i), t.v (edgeToVert1 i)⟩
/-- `TriangleData::vertex_index` (`types.rs:294-302`). -/
def vertexIndex (t : Tri) (x : Nat) : Fin 3 :=
  if t.v1 = x then 0 else if t.v2 = x then 1 else 2
/-- `TriangleData::get_opposite_vertex_id` (`types.rs:321-329`). -/
def oppVertexId (t : Tri) (e : Edge) : Nat :=
  if !e.contains t.v1 then t.v1 else if !e.contains t.v2 then t.v2 else t.v3
/-- `triangle.verts.contains(&x)` (`constrained_triangulation.rs:429,562`). -/
def hasVert (t : Tri) (x : Nat) : Bool := decide (t.v1 = x) || decide (t.v2 = x) || decide (t.v3 = x)
/-- `TriangleData::is_finite` (`types.rs:332-334`). -/
def isFinite [IdCfg] (t : Tri) : Bool := isFin t.v1 && isFin t.v2 && isFin t.v3

end Tri

/-- `Quad` (`types.rs:471-474`). -/
structure Quad where
  q1 : Nat
  q2 : Nat
  q3 : Nat
  q4 : Nat
  deriving DecidableEq, Repr

namespace Quad
/-- `Quad::v` (`types.rs:482-484`). -/
def v (q : Quad) : Fin 4 → Nat
  | 0 => q.q1
  | 1 => q.q2
  | 2 => q.q3
  | 3 => q.q4
end Quad

/-- `ADJACENT_QUAD_VERTICES_INDEXES` (`types.rs:85-90`). -/
def adjQuadIdx : Fin 4 → Fin 4 × Fin 4
  | 0 => (2, 3)
  | 1 => (3, 2)
  | 2 => (1, 0)
  | 3 => (0, 1)
/-- `OPPOSITE_QUAD_VERTEX_INDEX` (`types.rs:91`). -/
def oppQuadIdx : Fin 4 → Fin 4
  | 0 => 1
  | 1 => 0
  | 2 => 3
  | 3 => 2

/-- The output type `[VertexId; 3]`. -/
abbrev Out := Nat × Nat × Nat

/-- `t.verts` as an output item. -/
def Tri.verts (t : Tri) : Out := (t.v1, t.v2, t.v3)

section
variable [IdCfg]
/-- `Triangles::next_id` (`types.rs:384-386`). -/
def nextId (ts : List Tri) : Nat := toId ts.length
/-- `Triangles::last_id` (`types.rs:380-382`); `len() - 1` underflows on an empty buffer. -/
def lastId (ts : List Tri) : Res Nat := if ts.length = 0 then .panic else .ok (toId (ts.length - 1))
end

end CDT

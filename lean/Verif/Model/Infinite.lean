import Verif.Model.Utils

/-!
# Artificial (infinite) vertices (`/repo/src/infinite.rs`)
-/

namespace CDT
open FloatOps

variable {F : Type} [FloatOps F] [IdCfg]

/-- `infinite_vertex_local_quad_index` (`infinite.rs:33-35`): `(vertex_id - INFINITE_V0_ID) as u8`;
the subtraction underflows (panic, debug profile) on a finite vertex. The result is at most 3. -/
def infLocal (v : Nat) : Res (Fin 4) :=
  if v < INF0 then .panic
  else match v - INF0 with
    | 0 => .ok 0
    | 1 => .ok 1
    | 2 => .ok 2
    | 3 => .ok 3
    | _ => .panic

/-- `INFINITE_VERTS_X_DELTAS` (`infinite.rs:55-60`). -/
def xDelta : Fin 4 → F
  | 0 => neg delta
  | 1 => zero
  | 2 => delta
  | 3 => zero
/-- `INFINITE_VERTS_Y_DELTAS` (`infinite.rs:49-54`). -/
def yDelta : Fin 4 → F
  | 0 => zero
  | 1 => delta
  | 2 => zero
  | 3 => neg delta

/-- `edge_from_semi_infinite_edge` (`infinite.rs:65-78`). -/
def semiInf (a : Vtx F) (i : Fin 4) : EV F :=
  (a, ⟨add a.x (xDelta i), add a.y (yDelta i)⟩)

/-- `collect_infinite_triangle_vertices` (`infinite.rs:82-97`): `ArrayVec<_, 2>`, the third push
panics. -/
def collectInfTri (t : Tri) : Res (List (Fin 3)) :=
  let l : List (Fin 3) := (if isInf t.v1 then [0] else []) ++ (if isInf t.v2 then [1] else [])
    ++ (if isInf t.v3 then [2] else [])
  if l.length ≤ 2 then .ok l else .panic

/-- `collect_infinite_quad_vertices` (`infinite.rs:101-119`). As in the source, an infinite
`QUAD_4` pushes `QUAD_3` (line 116). -/
def collectInfQuad (q : Quad) : Res (List (Fin 4)) :=
  let l : List (Fin 4) := (if isInf q.q1 then [0] else []) ++ (if isInf q.q2 then [1] else [])
    ++ (if isInf q.q3 then [2] else []) ++ (if isInf q.q4 then [2] else [])
  if l.length ≤ 2 then .ok l else .panic

/-- `is_vertex_in_half_plane_1` (`infinite.rs:122-142`). -/
def inHalfPlane1 (vs : List (Vtx F)) (q : Quad) (infVert : Fin 3) : Res Bool := do
  let ei := oppEdgeIdx infVert
  let a ← getI vs (q.v (edgeToVert1 ei).castSucc)
  let b ← getI vs (q.v (edgeToVert0 ei).castSucc)
  let p ← getI vs q.q4
  .ok (strictlyRightOfEdge (a, b) p)

/-- `VertexPlacement` (`triangulation.rs:218-223`). -/
inductive Placement where
  | inside (t : Nat)
  | onEdge (t : Nat) (ei : Fin 3) (e : Edge)
  | notFound
  deriving DecidableEq, Repr

/-- What one iteration of the placement search does: stop with a placement, or go on with new
values of `previous_triangle` and `current_triangle`. -/
inductive Walk where
  | found (p : Placement)
  | go (prev cur : Nat)
  deriving DecidableEq, Repr

/-- `vertex_placement_1_infinite_vertex` (`infinite.rs:145-220`). -/
def placement1 (vs : List (Vtx F)) (p : Vtx F) (t : Tri) (tid : Nat) (i : Fin 3)
    (prev cur : Nat) : Res Walk := do
  let ai := nextCwVert i
  let aId := t.v ai
  let a ← getI vs aId
  let bi := nextCcwVert i
  let bId := t.v bi
  let b ← getI vs bId
  let sAB := edgeSide (a, b) p
  let eAB := vertNextCwEdge ai
  if onLeft sAB && decide (prev ≠ t.n eAB) then .ok (.go cur (t.n eAB))
  else
    let infId := t.v i
    let k ← infLocal infId
    let eA := vertNextCcwEdge ai
    let sA := edgeSide (semiInf a k) p
    if onRight sA && decide (prev ≠ t.n eA) then .ok (.go cur (t.n eA))
    else
      let eB := vertNextCwEdge bi
      let sB := edgeSide (semiInf b k) p
      if onLeft sB && decide (prev ≠ t.n eB) then .ok (.go cur (t.n eB))
      else if nearEdge sAB then .ok (.found (.onEdge tid eAB ⟨aId, bId⟩))
      else if nearEdge sA then .ok (.found (.onEdge tid eA ⟨infId, aId⟩))
      else if nearEdge sB then .ok (.found (.onEdge tid eB ⟨bId, infId⟩))
      else .ok (.found (.inside tid))

/-- `opposite_vertex_index_from_edge` (`types.rs:453-458`): `3 - (v_a + v_b)`. The function is only
called with two different indices (the result of `collect_infinite_triangle_vertices`). -/
def oppVertFromEdge : Fin 3 → Fin 3 → Res (Fin 3)
  | 0, 1 => .ok 2
  | 0, 2 => .ok 1
  | 1, 2 => .ok 0
  | 1, 0 => .ok 2
  | 2, 0 => .ok 1
  | 2, 1 => .ok 0
  | _, _ => .panic

/-- `vertex_placement_2_infinite_vertex` (`infinite.rs:223-280`). -/
def placement2 (vs : List (Vtx F)) (p : Vtx F) (t : Tri) (tid : Nat) (i j : Fin 3)
    (prev cur : Nat) : Res Walk := do
  let fi ← oppVertFromEdge i j
  let fId := t.v fi
  let f ← getI vs fId
  let aId := t.v (nextCwVert fi)
  let ka ← infLocal aId
  let eA := vertNextCwEdge fi
  let sA := edgeSide (semiInf f ka) p
  if onLeft sA && decide (prev ≠ t.n eA) then .ok (.go cur (t.n eA))
  else
    let bId := t.v (nextCcwVert fi)
    let kb ← infLocal bId
    let eB := vertNextCcwEdge fi
    let sB := edgeSide (semiInf f kb) p
    if onRight sB && decide (prev ≠ t.n eB) then .ok (.go cur (t.n eB))
    else if nearEdge sA then .ok (.found (.onEdge tid eA ⟨fId, aId⟩))
    else if nearEdge sB then .ok (.found (.onEdge tid eB ⟨bId, fId⟩))
    else .ok (.found (.inside tid))

/-- `quad_diagonals_intersection_1_infinite` (`infinite.rs:283-301`). -/
def quadDiag1 (vs : List (Vtx F)) (q : Quad) (i : Fin 4) : Res Isect := do
  let k ← infLocal (q.v i)
  let f ← getI vs (q.v (oppQuadIdx i))
  let a ← getI vs (q.v (adjQuadIdx i).1)
  let b ← getI vs (q.v (adjQuadIdx i).2)
  .ok (edgesIntersect (a, b) (semiInf f k))

/-- `quad_diagonals_intersection_2_infinite` (`infinite.rs:304-325`). -/
def quadDiag2 (vs : List (Vtx F)) (q : Quad) (i j : Fin 4) : Res Isect := do
  let k0 ← infLocal (q.v i)
  let f0 ← getI vs (q.v (oppQuadIdx i))
  let k1 ← infLocal (q.v j)
  let f1 ← getI vs (q.v (oppQuadIdx j))
  .ok (edgesIntersect (semiInf f0 k0) (semiInf f1 k1))

end CDT

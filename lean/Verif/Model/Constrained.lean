import Verif.Model.Triangulation

/-!
# Constrained triangulation (`/repo/src/constrained_triangulation.rs`)
-/

namespace CDT
open FloatOps

variable {F : Type} [FloatOps F] [IdCfg]

/-- `EdgeData` (`constrained_triangulation.rs:612-617`). -/
structure EdgeData where
  f : Nat
  t : Nat
  edge : Edge
  deriving DecidableEq, Repr

/-- `EdgeData::to_quad` (`constrained_triangulation.rs:637-648`). -/
def EdgeData.toQuad (d : EdgeData) (ts : List Tri) : Res Quad := do
  let tt ← getI ts d.t
  let tf ← getI ts d.f
  .ok ⟨d.edge.src, d.edge.dst, tt.oppVertexId d.edge, tf.oppVertexId d.edge⟩

/-! ## Domain filtering -/

/-- Push the neighbors of `t` across its non-constrained edges, in order 12, 23, 31
(`constrained_triangulation.rs:207-211,230-235`); head of the list is the stack top. -/
def pushUnconstrained (S : List Edge) (t : Tri) (st : List Nat) : List Nat :=
  let st := if t.edge 0 ∈ S then st else t.n12 :: st
  let st := if t.edge 1 ∈ S then st else t.n23 :: st
  if t.edge 2 ∈ S then st else t.n31 :: st

/-- State of the domain filter: visited flags and output in order. -/
structure Flood where
  visited : List Bool
  out : List Out
  deriving DecidableEq, Repr

/-- `if t.is_finite() { indices.push(t.verts) }`. -/
def emit (t : Tri) (out : List Out) : List Out := if t.isFinite then out ++ [t.verts] else out

/-- The exploration loop of `cdt_filter_triangles` (`constrained_triangulation.rs:215-238`), a
`while let` loop, with fuel. -/
def explore (S : List Edge) (ts : List Tri) : Nat → List Nat → Flood → Res Flood
  | _, [], s => .ok s
  | 0, _ :: _, _ => .diverge
  | fuel + 1, n :: st, s =>
    if n = NONE then explore S ts fuel st s
    else do
      let vis ← getI s.visited n
      if vis then explore S ts fuel st s
      else do
        let t ← getI ts n
        explore S ts fuel (pushUnconstrained S t st) ⟨s.visited.set n true, emit t s.out⟩

/-- Does a triangle own a constrained directed edge (`constrained_triangulation.rs:190-197`). -/
def hasConstrained (S : List Edge) (t : Tri) : Bool :=
  decide (t.edge 0 ∈ S) || decide (t.edge 1 ∈ S) || decide (t.edge 2 ∈ S)

/-- The outer loop of `cdt_filter_triangles` (`constrained_triangulation.rs:185-240`). -/
def floodLoop (S : List Edge) (ts : List Tri) (fuel : Nat) : List Tri → Nat → Flood → Res Flood
  | [], _, s => .ok s
  | t :: rest, idx, s => do
    let vis ← getI s.visited idx
    if !vis && hasConstrained S t then do
      let s' ← explore S ts fuel (pushUnconstrained S t []) ⟨s.visited.set idx true, emit t s.out⟩
      floodLoop S ts fuel rest (idx + 1) s'
    else floodLoop S ts fuel rest (idx + 1) s

/-- `cdt_filter_triangles` (`constrained_triangulation.rs:168-247`). -/
def cdtFilter (fuel : Nat) (ts : List Tri) (S : List Edge) : Res (List Out) := do
  let s ← floodLoop S ts fuel ts 0 ⟨List.replicate ts.length false, []⟩
  .ok s.out

/-! ## Crossing search -/

/-- `edge_and_constrained_edge_intersection` (`constrained_triangulation.rs:373-401`). -/
def edgeIsect (vs : List (Vtx F)) (e : Edge) (ce : EV F) : Res Isect :=
  if isInf e.src then
    if isInf e.dst then .ok .none
    else do
      let k ← infLocal e.src
      let f ← getI vs e.dst
      .ok (edgesIntersect ce (semiInf f k))
  else if isInf e.dst then do
    let k ← infLocal e.dst
    let f ← getI vs e.src
    .ok (edgesIntersect ce (semiInf f k))
  else do
    let a ← getI vs e.src
    let b ← getI vs e.dst
    .ok (edgesIntersect ce (a, b))

/-- `EdgeFirstIntersection` (`constrained_triangulation.rs:363-371`). -/
inductive First where
  | already
  | isect (d : EdgeData)
  | notFound
  deriving DecidableEq, Repr

/-- Loop of `loop_around_vertex_and_search_intersection` (`constrained_triangulation.rs:416-466`);
`i` is the iteration counter, `n` the remaining iterations. -/
def loopAround (vs : List (Vtx F)) (ts : List Tri) (start : Nat) (ce : Edge) (cv : EV F)
    (next : Fin 3 → Fin 3) : Nat → Nat → Nat → Res First
  | 0, _, _ => .ok .notFound
  | n + 1, i, tid =>
    if 0 < i ∧ tid = start then .err .cycleAroundVertex
    else do
      let t ← getI ts tid
      if t.hasVert ce.dst then .ok .already
      else do
        let vi := t.vertexIndex ce.src
        let ei := oppEdgeIdx vi
        let r ← edgeIsect vs (t.edge ei) cv
        if r = .crossing then
          if t.n ei = NONE then .err .crossedEdgeWithoutNeighbor
          else .ok (.isect ⟨tid, t.n ei, t.edge ei⟩)
        else
          let nb := t.n (next vi)
          if nb = NONE then .ok .notFound
          else loopAround vs ts start ce cv next n (i + 1) nb

/-- `search_first_interstected_quad` (`constrained_triangulation.rs:469-516`). -/
def searchFirst (vs : List (Vtx F)) (ts : List Tri) (ce : Edge) (cv : EV F) (start : Nat) :
    Res First := do
  match ← loopAround vs ts start ce cv outerCwEdge ts.length 0 start with
  | .already => .ok .already
  | .isect d => .ok (.isect d)
  | .notFound => do
    let t ← getI ts start
    let nb := t.n (outerCcwEdge (t.vertexIndex ce.src))
    loopAround vs ts nb ce cv outerCcwEdge ts.length 0 nb

/-- One edge of the loop of `get_next_triangle_edge_intersection`
(`constrained_triangulation.rs:659-683`): the edge is not the one we come from, is crossed, and
has a neighbor. -/
def nextCandidate (vs : List (Vtx F)) (cv : EV F) (t : Tri) (fromE : Edge) (ei : Fin 3) :
    Res Bool :=
  if (t.edge ei).undirEq fromE then .ok false
  else do
    let r ← edgeIsect vs (t.edge ei) cv
    .ok (decide (r = .crossing) && decide (t.n ei ≠ NONE))

/-- `get_next_triangle_edge_intersection` (`constrained_triangulation.rs:651-685`). -/
def nextIsect (vs : List (Vtx F)) (cv : EV F) (t : Tri) (tid : Nat) (fromE : Edge) :
    Res (Option EdgeData) := do
  if ← nextCandidate vs cv t fromE 0 then .ok (some ⟨tid, t.n 0, t.edge 0⟩)
  else if ← nextCandidate vs cv t fromE 1 then .ok (some ⟨tid, t.n 1, t.edge 1⟩)
  else if ← nextCandidate vs cv t fromE 2 then .ok (some ⟨tid, t.n 2, t.edge 2⟩)
  else .ok none

/-- Loop of `register_intersected_edges` (`constrained_triangulation.rs:558-590`): the edges
registered after `cur`. -/
def registerLoop (vs : List (Vtx F)) (ts : List Tri) (ce : Edge) (cv : EV F) :
    Nat → EdgeData → Res (List EdgeData)
  | 0, _ => .ok []
  | n + 1, cur => do
    let t ← getI ts cur.t
    if t.hasVert ce.dst then .ok []
    else do
      match ← nextIsect vs cv t cur.t cur.edge with
      | some d => do
        let rest ← registerLoop vs ts ce cv n d
        .ok (d :: rest)
      | none => .err .nextIntersectionNotFound

/-- `register_intersected_edges` (`constrained_triangulation.rs:518-592`): the content of the
`intersections` queue (empty before the call). -/
def registerEdges (vs : List (Vtx F)) (ts : List Tri) (ce : Edge) (cv : EV F) (v2t : List Nat) :
    Res (List EdgeData) := do
  let start ← getI v2t ce.src
  match ← searchFirst vs ts ce cv start with
  | .already => .ok []
  | .notFound => .err .firstIntersectionNotFound
  | .isect d => do
    let rest ← registerLoop vs ts ce cv ts.length d
    .ok (d :: rest)

/-! ## Swapping -/

/-- Loop body of `update_edges_data` (`constrained_triangulation.rs:791-816`). -/
def EdgeData.upd (d : EdgeData) (ttl tfr f t : Nat) : EdgeData :=
  let d :=
    if ttl = NONE then d
    else if d.f = ttl ∧ d.t = t then { d with t := f }
    else if d.f = t ∧ d.t = ttl then { d with f := f }
    else d
  if tfr = NONE then d
  else if d.f = tfr ∧ d.t = f then { d with t := t }
  else if d.f = f ∧ d.t = tfr then { d with f := t }
  else d

/-- Mesh part of `swap_quad_diagonal`: result mesh, `vertex_to_triangle`, and the neighbors
`tt_left`, `tf_right` used to update the queues. -/
structure Swapped where
  ts : List Tri
  v2t : List Nat
  ttl : Nat
  tfr : Nat

/-- `if is_finite(q) { vertex_to_triangle[q] = t }`. -/
def setV2t (v2t : List Nat) (q t : Nat) : Res (List Nat) :=
  if isFin q then setI v2t q t else .ok v2t

/-- `swap_quad_diagonal` (`constrained_triangulation.rs:717-782`) except for the loop over the
queues, which is `EdgeData.upd` applied to every entry. -/
def swapQuad (ts : List Tri) (v2t : List Nat) (d : EdgeData) (q : Quad) : Res Swapped := do
  let tt ← getI ts d.t
  let ttlE := oppEdgeIdx (tt.vertexIndex q.q2)
  let ttl := tt.n ttlE
  let ttr := tt.n (nextCwEdge ttlE)
  let tf ← getI ts d.f
  let tflE := oppEdgeIdx (tf.vertexIndex q.q2)
  let tfl := tf.n tflE
  let tfr := tf.n (nextCcwEdge tflE)
  let ts := ts.set d.f ⟨q.q3, q.q4, q.q1, d.t, tfl, ttl⟩
  let ts := ts.set d.t ⟨q.q3, q.q2, q.q4, ttr, tfr, d.f⟩
  let ts ← updNb ts ttl d.t d.f
  let ts ← updNb ts tfr d.f d.t
  let v2t ← setV2t v2t q.q1 d.f
  let v2t ← setV2t v2t q.q2 d.t
  .ok ⟨ts, v2t, ttl, tfr⟩

/-- `quad_diagonals_intersection` (`constrained_triangulation.rs:819-832`) with
`QuadVertices::diagonals_intersection_test` (`types.rs:543-548`). -/
def quadDiag (vs : List (Vtx F)) (q : Quad) : Res Isect := do
  match ← collectInfQuad q with
  | [] => do
    let a ← getI vs q.q1
    let b ← getI vs q.q2
    let c ← getI vs q.q3
    let d ← getI vs q.q4
    .ok (edgesIntersect (a, b) (c, d))
  | [i] => quadDiag1 vs q i
  | i :: j :: _ => quadDiag2 vs q i j

/-- State of `remove_crossed_edges`. -/
structure RC where
  ts : List Tri
  v2t : List Nat
  isects : List EdgeData
  diags : List EdgeData
  nonConvex : Nat

/-- One iteration of `remove_crossed_edges` (`constrained_triangulation.rs:850-898`) on the popped
entry `d`; `s.isects` is the queue after the pop. -/
def removeStep (vs : List (Vtx F)) (cv : EV F) (d : EdgeData) (s : RC) : Res RC :=
  if s.nonConvex > s.isects.length then .err .noConvexQuad
  else do
    let q ← d.toQuad s.ts
    let r ← quadDiag vs q
    if r ≠ .crossing then
      .ok { s with isects := s.isects ++ [d], nonConvex := s.nonConvex + 1 }
    else do
      let w ← swapQuad s.ts s.v2t d q
      let isects := s.isects.map (·.upd w.ttl w.tfr d.f d.t)
      let diags := s.diags.map (·.upd w.ttl w.tfr d.f d.t)
      let nd : EdgeData := ⟨d.f, d.t, ⟨q.q3, q.q4⟩⟩
      let x ← edgeIsect vs nd.edge cv
      if x = .crossing then .ok ⟨w.ts, w.v2t, isects ++ [nd], diags, 0⟩
      else .ok ⟨w.ts, w.v2t, isects, diags ++ [nd], 0⟩

/-- `remove_crossed_edges` (`constrained_triangulation.rs:834-900`): a `while let` loop, with
fuel. -/
def removeCrossed (vs : List (Vtx F)) (cv : EV F) : Nat → RC → Res RC
  | 0, s => match s.isects with
    | [] => .ok s
    | _ :: _ => .diverge
  | fuel + 1, s => match s.isects with
    | [] => .ok s
    | d :: rest => do
      let s' ← removeStep vs cv d { s with isects := rest }
      removeCrossed vs cv fuel s'

/-- `constrained_should_swap_diagonals` (`constrained_triangulation.rs:949-979`). -/
def shouldSwapC (vs : List (Vtx F)) (q : Quad) : Res Bool :=
  if isInf q.q3 || isInf q.q4 then .ok false
  else shouldSwap vs q

/-- State of `restore_delaunay_triangulation_constrained`. -/
structure RS where
  ts : List Tri
  v2t : List Nat
  diags : List EdgeData
  hist : List (Nat × Nat)

/-- One iteration of `restore_delaunay_triangulation_constrained`
(`constrained_triangulation.rs:915-943`) on the popped entry `d`. -/
def restoreStepC (vs : List (Vtx F)) (ce : Edge) (d : EdgeData) (s : RS) : Res RS :=
  if d.edge.undirEq ce then .ok s
  else do
    let q ← d.toQuad s.ts
    let sw ← shouldSwapC vs q
    if sw && decide ((d.f, d.t) ∉ s.hist) then do
      let w ← swapQuad s.ts s.v2t d q
      .ok ⟨w.ts, w.v2t, s.diags.map (·.upd w.ttl w.tfr d.f d.t) ++ [⟨d.f, d.t, ⟨q.q3, q.q4⟩⟩],
        (d.f, d.t) :: s.hist⟩
    else .ok s

/-- `restore_delaunay_triangulation_constrained` (`constrained_triangulation.rs:902-945`): a
`while let` loop, with fuel. -/
def restoreC (vs : List (Vtx F)) (ce : Edge) : Nat → RS → Res RS
  | 0, s => match s.diags with
    | [] => .ok s
    | _ :: _ => .diverge
  | fuel + 1, s => match s.diags with
    | [] => .ok s
    | d :: rest => do
      let s' ← restoreStepC vs ce d { s with diags := rest }
      restoreC vs ce fuel s'

/-! ## Applying constraints, entry points -/

/-- Initial `vertex_to_triangle` (`constrained_triangulation.rs:262-273`). -/
def buildV2t : List Tri → Nat → List Nat → Res (List Nat)
  | [], _, v2t => .ok v2t
  | t :: ts, i, v2t => do
    let v2t ← setV2t v2t t.v1 (toId i)
    let v2t ← setV2t v2t t.v2 (toId i)
    let v2t ← setV2t v2t t.v3 (toId i)
    buildV2t ts (i + 1) v2t

/-- State of the loop of `apply_constraints`: mesh, `vertex_to_triangle`, the set of constrained
edges. The shared buffers are empty (`swaps_history`: cleared) between two iterations. -/
structure AC where
  ts : List Tri
  v2t : List Nat
  S : List Edge

/-- Insertion of one effective constraint (`constrained_triangulation.rs:321-358`). -/
def insertEdge (vs : List (Vtx F)) (fuel : Nat) (ce : Edge) (s : AC) : Res AC := do
  let a ← getI vs ce.src
  let b ← getI vs ce.dst
  let isects ← registerEdges vs s.ts ce (a, b) s.v2t
  match isects with
  | [] => .ok s
  | _ :: _ => do
    let rc ← removeCrossed vs (a, b) fuel ⟨s.ts, s.v2t, isects, [], 0⟩
    let rs ← restoreC vs ce fuel ⟨rc.ts, rc.v2t, rc.diags, []⟩
    .ok ⟨rs.ts, rs.v2t, s.S⟩

/-- One iteration of `apply_constraints` (`constrained_triangulation.rs:283-359`). -/
def applyOne (vs : List (Vtx F)) (fuel : Nat) (merge : List Nat) (e : Edge) (s : AC) : Res AC := do
  let a ← getI merge e.src
  let b ← getI merge e.dst
  if a = b then .ok s
  else if (⟨a, b⟩ : Edge) ∈ s.S then .ok s
  else insertEdge vs fuel ⟨a, b⟩ { s with S := ⟨a, b⟩ :: s.S }

/-- Loop of `apply_constraints` (`constrained_triangulation.rs:283-359`). -/
def applyLoop (vs : List (Vtx F)) (fuel : Nat) (merge : List Nat) : List Edge → AC → Res AC
  | [], s => .ok s
  | e :: es, s => do
    let s' ← applyOne vs fuel merge e s
    applyLoop vs fuel merge es s'

/-- `apply_constraints` (`constrained_triangulation.rs:249-361`). -/
def applyConstraints (vs : List (Vtx F)) (fuel : Nat) (ts : List Tri) (es : List Edge)
    (merge : List Nat) : Res AC := do
  let v2t ← buildV2t ts 0 (List.replicate vs.length 0)
  applyLoop vs fuel merge es ⟨ts, v2t, []⟩

/-- The mesh and the constraint set before the final filtering of
`constrained_triangulation_from_2d_vertices` (`constrained_triangulation.rs:119-147`). Line 127 casts the number of vertices
to the id type; the table here is the same one if that number fits (`mergeTable_eq`). -/
def constrainedMesh (fuel : Nat) (bins : Nat → Nat) (vs : List (Vtx F)) (es : List Edge) :
    Res AC := do
  let nv := normalizeVerts vs
  let s ← wrapAndTriangulate fuel (bins vs.length) nv (some ((List.range vs.length).map toId))
  applyConstraints nv fuel s.ts es (s.merge.getD [])

/-- `constrained_triangulation_from_2d_vertices` (`constrained_triangulation.rs:106-164`). -/
def constrained2d (fuel : Nat) (bins : Nat → Nat) (vs : List (Vtx F)) (es : List Edge) :
    Res (List Out) :=
  if vs.length < 3 then .ok []
  else do
    let r ← constrainedMesh fuel bins vs es
    cdtFilter fuel r.ts r.S

/-- `constrained_triangulation_from_3d_planar_vertices` (`constrained_triangulation.rs:62-76`). -/
def constrained3d (fuel : Nat) (bins : Nat → Nat) (vs : List (Vtx3 F)) (normal : Vtx3 F)
    (es : List Edge) : Res (List Out) :=
  if vs.length < 3 then .ok []
  else do
    let pv ← transformTo2d vs normal
    constrained2d fuel bins pv es

end CDT

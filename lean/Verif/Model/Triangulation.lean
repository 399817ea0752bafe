import Verif.Model.Infinite

/-!
# Unconstrained triangulation (`/repo/src/triangulation.rs`)
-/

namespace CDT
open FloatOps

variable {F : Type} [FloatOps F] [IdCfg]

/-! ## Normalization -/

/-- Loop of `normalize_vertices_coordinates` (`triangulation.rs:191-204`): running
`(x_min, y_min, x_max, y_max)`. -/
def bboxLoop : List (Vtx F) → F × F × F × F → F × F × F × F
  | [], b => b
  | v :: vs, (xmin, ymin, xmax, ymax) =>
    bboxLoop vs
      (if lt v.x xmin then v.x else xmin,
       if lt v.y ymin then v.y else ymin,
       if lt xmax v.x then v.x else xmax,
       if lt ymax v.y then v.y else ymax)

/-- Bounding box computed by `normalize_vertices_coordinates` (`triangulation.rs:188-204`). -/
def bbox (vs : List (Vtx F)) : F × F × F × F := bboxLoop vs (fmax, fmax, fmin, fmin)

/-- `scale_factor` (`triangulation.rs:206`). -/
def scaleFactor (vs : List (Vtx F)) : F :=
  let b := bbox vs
  max (sub b.2.2.1 b.1) (sub b.2.2.2 b.2.1)

/-- `normalize_vertices_coordinates` (`triangulation.rs:181-216`), the vertices. -/
def normalizeVerts (vs : List (Vtx F)) : List (Vtx F) :=
  let b := bbox vs
  let s := scaleFactor vs
  vs.map fun v => ⟨div (sub v.x b.1) s, div (sub v.y b.2.1) s⟩

/-! ## Spatial sort -/

/-- `bin_index_from_bin_position` (`triangulation.rs:663-669`); the subtractions of the odd rows
panic on underflow. -/
def binIndexPos (bins x y : Nat) : Res Nat :=
  if y % 2 = 0 then .ok (y * bins + x)
  else if x + 1 ≤ (y + 1) * bins then .ok ((y + 1) * bins - x - 1) else .panic

/-- `bin_index_from_vertex` (`triangulation.rs:655-660`). -/
def binIndex (bins : Nat) (v : Vtx F) : Res Nat :=
  binIndexPos bins (toUsize (mul (mul c099 (ofNat bins)) v.x))
    (toUsize (mul (mul c099 (ofNat bins)) v.y))

/-- First loop of `VertexBinSort::sort` (`triangulation.rs:634-639`): bin index of each vertex
and number of vertices per bin. -/
def countBins (bins : Nat) : List (Vtx F) → List Nat → Res (List Nat × List Nat)
  | [], cnt => .ok ([], cnt)
  | v :: vs, cnt => do
    let b ← binIndex bins v
    let c ← getI cnt b
    let r ← countBins bins vs (cnt.set b (c + 1))
    .ok (b :: r.1, r.2)

/-- Second loop (`triangulation.rs:641-644`): running sums; `acc` is the previous counter. -/
def prefixSums : List Nat → Nat → List Nat
  | [], _ => []
  | c :: cs, acc => (c + acc) :: prefixSums cs (c + acc)

/-- Third loop (`triangulation.rs:647-651`): `bins_counters[b] -= 1; sorted[bins_counters[b]] = id`. -/
def placeLoop : List Nat → Nat → List Nat → List Nat → Res (List Nat)
  | [], _, _, sorted => .ok sorted
  | b :: bs, vid, cnt, sorted => do
    let c ← getI cnt b
    if c = 0 then .panic
    else do
      let sorted' ← setI sorted (c - 1) (toId vid)
      placeLoop bs (vid + 1) (cnt.set b (c - 1)) sorted'

/-- `VertexBinSort::sort` (`triangulation.rs:616-653`). The number of bins per row
(`(n as f64).powf(power / 2.).round() as usize`, lines 620-622) is the parameter `bins`. -/
def binSort (bins : Nat) (vs : List (Vtx F)) : Res (List Nat) := do
  let r ← countBins bins vs (List.replicate (bins * bins) 0)
  placeLoop r.1 0 (prefixSums r.2 0) (List.replicate vs.length 0)

/-! ## Placement search -/

/-- One iteration of `find_vertex_placement` (`triangulation.rs:239-326`) on an existing triangle. -/
def findStep (vs : List (Vtx F)) (p : Vtx F) (ts : List Tri) (prev cur : Nat) : Res Walk := do
  let t ← getI ts cur
  let inf ← collectInfTri t
  match inf with
  | [] => do
    let a ← getI vs t.v1
    let b ← getI vs t.v2
    let c ← getI vs t.v3
    if decide (prev ≠ t.n12) && onLeft (edgeSide (a, b) p) then .ok (.go cur t.n12)
    else if decide (prev ≠ t.n23) && onLeft (edgeSide (b, c) p) then .ok (.go cur t.n23)
    else if decide (prev ≠ t.n31) && onLeft (edgeSide (c, a) p) then .ok (.go cur t.n31)
    else if nearEdge (edgeSide (a, b) p) then .ok (.found (.onEdge cur 0 (t.edge 0)))
    else if nearEdge (edgeSide (b, c) p) then .ok (.found (.onEdge cur 1 (t.edge 1)))
    else if nearEdge (edgeSide (c, a) p) then .ok (.found (.onEdge cur 2 (t.edge 2)))
    else .ok (.found (.inside cur))
  | [i] => placement1 vs p t cur i prev cur
  | i :: j :: _ => placement2 vs p t cur i j prev cur

/-- Loop of `find_vertex_placement` (`triangulation.rs:239-328`). -/
def findLoop (vs : List (Vtx F)) (p : Vtx F) (ts : List Tri) : Nat → Nat → Nat → Res Placement
  | 0, _, _ => .ok .notFound
  | n + 1, prev, cur =>
    if cur = NONE then .ok .notFound
    else do
      match ← findStep vs p ts prev cur with
      | .found pl => .ok pl
      | .go prev' cur' => findLoop vs p ts n prev' cur'

/-- `find_vertex_placement` (`triangulation.rs:225-329`). -/
def findPlacement (vs : List (Vtx F)) (p : Vtx F) (start : Nat) (ts : List Tri) : Res Placement :=
  findLoop vs p ts ts.length start start

/-! ## Mesh updates -/

/-- `create_initial_triangles` (`triangulation.rs:344-365`). -/
def initialTriangles (first : Nat) : List Tri :=
  [⟨first, INF0, INF1, 3, NONE, 1⟩,
   ⟨first, INF1, INF2, 0, NONE, 2⟩,
   ⟨first, INF2, INF3, 1, NONE, 3⟩,
   ⟨first, INF3, INF0, 2, NONE, 0⟩]

/-- `is_vertex_pair_too_close` (`triangulation.rs:368-371`). -/
def tooClose (a b : Vtx F) : Bool :=
  lt (abs (sub a.x b.x)) eps && lt (abs (sub a.y b.y)) eps

/-- `update_triangle_neighbor` (`triangulation.rs:892-907`). -/
def Tri.updN (t : Tri) (old new : Nat) : Tri :=
  if t.n12 = old then { t with n12 := new }
  else if t.n23 = old then { t with n23 := new }
  else if t.n31 = old then { t with n31 := new }
  else t

/-- `if n.exists() { update_triangle_neighbor(triangles.get_mut(n.id), old, new) }`
(`triangulation.rs:764-771,848-855,1062-1068`); the same as `update_neighbor_neighbor`
(`triangulation.rs:871-890`). -/
def updNb (ts : List Tri) (n old new : Nat) : Res (List Tri) :=
  if n = NONE then .ok ts
  else do
    let t ← getI ts n
    .ok (ts.set n (t.updN old new))

/-- `if n.exists() { quads_to_check.push((t, n.id)) }`; the stack top is the head of the list. -/
def pushQ (st : List (Nat × Nat)) (t n : Nat) : List (Nat × Nat) :=
  if n = NONE then st else (t, n) :: st

/-- `split_triangle_into_three_triangles` (`triangulation.rs:810-869`). Returns the mesh and
`quads_to_check` (empty before the call). -/
def split3 (ts : List Tri) (t1 p : Nat) : Res (List Tri × List (Nat × Nat)) := do
  let t2 := nextId ts
  let t3 ← addId (nextId ts) 1
  let t ← getI ts t1
  let n4 := t.n12
  let n5 := t.n23
  let n6 := t.n31
  let ts := ts ++ [⟨p, t.v2, t.v3, t3, n5, t1⟩, ⟨p, t.v1, t.v2, t1, n4, t2⟩]
  let ts := ts.set t1 ⟨p, t.v3, t.v1, t2, n6, t3⟩
  let ts ← updNb ts n4 t1 t3
  let ts ← updNb ts n5 t1 t2
  .ok (ts, pushQ (pushQ (pushQ [] t3 n4) t2 n5) t1 n6)

/-- `split_quad_into_four_triangles` (`triangulation.rs:704-787`). -/
def split4 (ts : List Tri) (t1 : Nat) (ei : Fin 3) (e : Edge) (p : Nat) :
    Res (List Tri × List (Nat × Nat)) := do
  let a ← getI ts t1
  let t2 := a.n ei
  let t3 := nextId ts
  let t4 ← addId (nextId ts) 1
  let b ← getI ts t2
  let n1 := a.n (nextCwEdge ei)
  let n2 := a.n (nextCcwEdge ei)
  let o1 := a.v (oppVertIdx ei)
  let o2 := b.oppVertexId e
  let o2i := b.vertexIndex o2
  let n3 := b.n (vertNextCcwEdge o2i)
  let n4 := b.n (vertNextCwEdge o2i)
  let ts := ts ++ [⟨p, e.dst, o1, t4, n1, t1⟩, ⟨p, o2, e.dst, t2, n4, t3⟩]
  let ts := ts.set t1 ⟨p, o1, e.src, t3, n2, t2⟩
  let ts := ts.set t2 ⟨p, e.src, o2, t1, n3, t4⟩
  let ts ← updNb ts n1 t1 t3
  let ts ← updNb ts n4 t2 t4
  .ok (ts, pushQ (pushQ (pushQ (pushQ [] t3 n1) t4 n4) t1 n2) t2 n3)

/-! ## Delaunay restoration -/

/-- `should_swap_diagonals` (`triangulation.rs:936-962`). -/
def shouldSwap (vs : List (Vtx F)) (q : Quad) : Res Bool :=
  if isInf q.q3 then .ok false
  else if isFin q.q1 && isFin q.q2 then do
    let a ← getI vs q.q1
    let b ← getI vs q.q2
    let c ← getI vs q.q3
    let d ← getI vs q.q4
    .ok (inCircumcircle a b c d)
  else if !isFin q.q1 && !isFin q.q2 then .ok true
  else if !isFin q.q1 then inHalfPlane1 vs q 0
  else inHalfPlane1 vs q 1

/-- The quad and the neighbors `n3`, `n4` read by `check_and_swap_quad_diagonal`
(`triangulation.rs:1005-1042`). -/
def quadOf (t2 : Tri) (t1id p : Nat) : Quad × Nat × Nat :=
  if t2.n12 = t1id then (⟨t2.v2, t2.v1, t2.v3, p⟩, t2.n23, t2.n31)
  else if t2.n23 = t1id then (⟨t2.v3, t2.v2, t2.v1, p⟩, t2.n31, t2.n12)
  else (⟨t2.v1, t2.v3, t2.v2, p⟩, t2.n12, t2.n23)

/-- `check_and_swap_quad_diagonal` (`triangulation.rs:993-1081`). `st` is the stack after the pop. -/
def checkAndSwap (vs : List (Vtx F)) (p : Nat) (ts : List Tri) (t1id t2id : Nat)
    (st : List (Nat × Nat)) : Res (List Tri × List (Nat × Nat)) := do
  let t2 ← getI ts t2id
  let q := (quadOf t2 t1id p).1
  let n3 := (quadOf t2 t1id p).2.1
  let n4 := (quadOf t2 t1id p).2.2
  if ← shouldSwap vs q then do
    let t1 ← getI ts t1id
    let n1 := t1.n31
    let n2 := t1.n12
    let ts := ts.set t1id ⟨q.q4, q.q1, q.q3, n2, n3, t2id⟩
    let ts := ts.set t2id ⟨q.q4, q.q3, q.q2, t1id, n4, n1⟩
    let ts ← updNb ts n1 t1id t2id
    let ts ← updNb ts n3 t2id t1id
    .ok (ts, pushQ (pushQ st t1id n3) t2id n4)
  else .ok (ts, st)

/-- `restore_delaunay_triangulation` (`triangulation.rs:911-933`): a `while let` loop, with fuel. -/
def restore (vs : List (Vtx F)) (p : Nat) : Nat → List Tri → List (Nat × Nat) → Res (List Tri)
  | _, ts, [] => .ok ts
  | 0, _, _ :: _ => .diverge
  | fuel + 1, ts, (a, b) :: st => do
    let r ← checkAndSwap vs p ts a b st
    restore vs p fuel r.1 r.2

/-! ## Insertion loop and entry points -/

/-- State of the insertion loop: the mesh, `triangle_id`, and the optional
`vertex_merge_mapping`. -/
structure DT where
  ts : List Tri
  tid : Nat
  merge : Option (List Nat)
  deriving DecidableEq, Repr

/-- `if let Some(m) = vertex_merge_mapping { m[i] = v }` (`triangulation.rs:453-455`); the index is in
bounds because `vertices[i]` was just read and the vector has the same length. -/
def setMerge (m : Option (List Nat)) (i v : Nat) : Option (List Nat) := m.map (·.set i v)

/-- Tail of one iteration (`triangulation.rs:490-501`): restore, then search from the last
triangle. -/
def finishInsert (vs : List (Vtx F)) (fuel : Nat) (vid : Nat) (m : Option (List Nat))
    (r : List Tri × List (Nat × Nat)) : Res DT := do
  let ts ← restore vs vid fuel r.1 r.2
  let tid ← lastId ts
  .ok ⟨ts, tid, m⟩

/-- Continuation of one iteration for `OnTriangleEdge` when the vertex is not merged with
`edge.from` (`triangulation.rs:458-476`). -/
def insertOnEdge (vs : List (Vtx F)) (fuel : Nat) (s : DT) (vid : Nat) (p : Vtx F) (t : Nat)
    (ei : Fin 3) (e : Edge) : Res DT := do
  let closeDst ← if isFin e.dst then do
      let b ← getI vs e.dst
      pure (tooClose b p)
    else pure false
  if closeDst then .ok { s with merge := setMerge s.merge vid e.dst }
  else do
    let r ← split4 s.ts t ei e vid
    finishInsert vs fuel vid s.merge r

/-- One iteration of the insertion loop (`triangulation.rs:426-501`). -/
def insertVertex (vs : List (Vtx F)) (fuel : Nat) (s : DT) (vid : Nat) : Res DT := do
  let p ← getI vs vid
  match ← findPlacement vs p s.tid s.ts with
  | .notFound => .err .placementNotFound
  | .inside t => do
    let r ← split3 s.ts t vid
    finishInsert vs fuel vid s.merge r
  | .onEdge t ei e => do
    let closeSrc ← if isFin e.src then do
        let a ← getI vs e.src
        pure (tooClose a p)
      else pure false
    if closeSrc then .ok { s with merge := setMerge s.merge vid e.src }
    else insertOnEdge vs fuel s vid p t ei e

/-- The insertion loop (`triangulation.rs:417-516`). -/
def insertAll (vs : List (Vtx F)) (fuel : Nat) : List Nat → DT → Res DT
  | [], s => .ok s
  | v :: rest, s => do
    let s' ← insertVertex vs fuel s v
    insertAll vs fuel rest s'

/-- `wrap_and_triangulate_2d_normalized_vertices` (`triangulation.rs:386-519`). The search for the
second vertex starts at `triangles.last_id()` (line 405). -/
def wrapAndTriangulate (fuel bins : Nat) (vs : List (Vtx F)) (m : Option (List Nat)) : Res DT := do
  let sorted ← binSort bins vs
  match sorted with
  | [] => .panic
  | first :: rest =>
    let ts := initialTriangles first
    let tid ← lastId ts
    insertAll vs fuel rest ⟨ts, tid, m⟩

/-- `_singlethreaded_filter_triangles` (`triangulation.rs:594-607`). -/
def filterSeq : List Tri → List Out
  | [] => []
  | t :: ts => if t.isFinite then t.verts :: filterSeq ts else filterSeq ts

/-- How rayon may split the work of `par_iter().filter_map().collect()`: a binary tree of splits
at arbitrary positions. -/
inductive Split where
  | leaf
  | node (at' : Nat) (l r : Split)

/-- The parallel pipeline (`triangulation.rs:570-580`) executed along a split: halves are processed
separately, results concatenated in order. -/
def filterPar : Split → List Tri → List Out
  | .leaf, ts => ts.filterMap fun t => if t.isFinite then some t.verts else none
  | .node k l r, ts => filterPar l (ts.take k) ++ filterPar r (ts.drop k)

/-- `_multithreaded_filter_triangles` (`triangulation.rs:553-592`). -/
def filterMulti (threshold : Nat) (sp : Split) (ts : List Tri) : List Out :=
  if threshold < ts.length then filterPar sp ts else filterSeq ts

/-- `triangulation_from_2d_vertices` (`triangulation.rs:118-157`), without `parallel_filtering`.
`bins` maps the number of vertices to the number of bins per row (the configuration). -/
def triangulation2d (fuel : Nat) (bins : Nat → Nat) (vs : List (Vtx F)) : Res (List Out) :=
  if vs.length < 3 then .ok []
  else do
    let nv := normalizeVerts vs
    let s ← wrapAndTriangulate fuel (bins vs.length) nv none
    .ok (filterSeq s.ts)

/-- `triangulation_from_2d_vertices` (`triangulation.rs:118-157`) with `parallel_filtering`. -/
def triangulation2dPar (fuel : Nat) (bins : Nat → Nat) (threshold : Nat) (sp : Split)
    (vs : List (Vtx F)) : Res (List Out) :=
  if vs.length < 3 then .ok []
  else do
    let nv := normalizeVerts vs
    let s ← wrapAndTriangulate fuel (bins vs.length) nv none
    .ok (filterMulti threshold sp s.ts)

/-! ## 3d input -/

/-- A 3d vertex (`types/vertex.rs`, `Vertex3d`; glam `DVec3`). -/
structure Vtx3 (F : Type) where
  x : F
  y : F
  z : F
  deriving DecidableEq, Repr

namespace Vtx3
/-- glam `DVec3::sub`. -/
def sub' (a b : Vtx3 F) : Vtx3 F := ⟨sub a.x b.x, sub a.y b.y, sub a.z b.z⟩
/-- glam `DVec3::neg`. -/
def neg' (a : Vtx3 F) : Vtx3 F := ⟨neg a.x, neg a.y, neg a.z⟩
/-- glam `DVec3::dot`. -/
def dot (a b : Vtx3 F) : F := add (add (mul a.x b.x) (mul a.y b.y)) (mul a.z b.z)
/-- glam `DVec3::cross`. -/
def cross (a b : Vtx3 F) : Vtx3 F :=
  ⟨sub (mul a.y b.z) (mul b.y a.z), sub (mul a.z b.x) (mul b.z a.x), sub (mul a.x b.y) (mul b.x a.y)⟩
/-- glam `DVec3::normalize`: multiplication by the reciprocal of the length. -/
def normalize (a : Vtx3 F) : Vtx3 F :=
  let r := div one (sqrt (dot a a))
  ⟨mul a.x r, mul a.y r, mul a.z r⟩
end Vtx3

/-- `transform_to_2d_planar_coordinate_system` (`triangulation.rs:162-177`). -/
def transformTo2d (vs : List (Vtx3 F)) (normal : Vtx3 F) : Res (List (Vtx F)) := do
  let a ← getI vs 0
  let b ← getI vs 1
  let b1 := (a.sub' b).normalize
  let b2 := b1.cross normal.neg'
  .ok (vs.map fun v => ⟨v.dot b1, v.dot b2⟩)

/-- `triangulation_from_3d_planar_vertices` (`triangulation.rs:100-110`). -/
def triangulation3d (fuel : Nat) (bins : Nat → Nat) (vs : List (Vtx3 F)) (normal : Vtx3 F) :
    Res (List Out) :=
  if vs.length < 3 then .ok []
  else do
    let pv ← transformTo2d vs normal
    triangulation2d fuel bins pv

end CDT

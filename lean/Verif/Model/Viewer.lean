import Verif.Model.Debug
import Verif.Model.Helpers

/-!
# The visual debugger and the file loaders (`/repo/examples`, `/repo/benchmarks`, `/repo/profiling`)

What is drawn is modelled as the lists of points, lines and texts handed to the drawing library. Colors, materials, the size of
texts and log messages are left out. The viewer computes in `f32`; the conversions from `f64` are left out, so its arithmetic is the
parameter `F`. `SEMI_INFINITE_EDGE_VISUAL_LEN_FACTOR` (`examples/src/debugger/infinite.rs:15`), the literals `3.` and `0.15` of
`label.rs` are parameters as well.
-/

namespace CDT
open FloatOps

section
variable {F : Type} [FloatOps F]

namespace Vtx3
/-- glam `Vec3::add`. -/
def add' (a b : Vtx3 F) : Vtx3 F := ⟨add a.x b.x, add a.y b.y, add a.z b.z⟩
/-- glam `f32 * Vec3` (and, up to the order of the factors, `Vec3 * f32`). -/
def smul' (c : F) (a : Vtx3 F) : Vtx3 F := ⟨mul c a.x, mul c a.y, mul c a.z⟩
/-- glam `Vec3 / f32`. -/
def sdiv' (a : Vtx3 F) (c : F) : Vtx3 F := ⟨div a.x c, div a.y c, div a.z c⟩
end Vtx3

/-- `Basis` (`examples/src/debugger.rs:71-75`) with the numbers that are constants in the source. -/
structure Canvas (F : Type) where
  e1 : Vtx3 F
  e2 : Vtx3 F
  /-- `SEMI_INFINITE_EDGE_VISUAL_LEN_FACTOR` (`debugger/infinite.rs:15`) -/
  len : F
  /-- `3.` (`debugger/label.rs:104`) -/
  three : F
  /-- `0.15` (`debugger/label.rs:134`) -/
  inset : F

variable [IdCfg]

/-- `extrapolated_vertex_from_semi_infinite_edge` (`debugger/infinite.rs:18-30`). -/
def tipOf (c : Canvas F) (v : Vtx3 F) (k : Fin 4) : Vtx3 F :=
  (v.add' (Vtx3.smul' (mul c.len (xDelta k)) c.e1)).add' (Vtx3.smul' (mul c.len (yDelta k)) c.e2)

/-- `get_2_extrapolated_vertices_from_2_finite_vertices` (`debugger/infinite.rs:32-59`). -/
def tipsOf2 (c : Canvas F) (vs : List (Vtx3 F)) (t : Tri) (i : Fin 3) : Res (Vtx3 F × Vtx3 F × Vtx3 F × Vtx3 F) := do
  let k ← infLocal (t.v i)
  let a ← getI vs (t.v (nextCwVert i))
  let b ← getI vs (t.v (nextCcwVert i))
  .ok (a, tipOf c a k, b, tipOf c b k)

/-- `get_2_extrapolated_vertices_from_1_finite_vertex` (`debugger/infinite.rs:61-89`). -/
def tipsOf1 (c : Canvas F) (vs : List (Vtx3 F)) (t : Tri) (f : Fin 3) : Res (Vtx3 F × Vtx3 F × Vtx3 F) := do
  let p ← getI vs (t.v f)
  let ka ← infLocal (t.v (nextCwVert f))
  let kb ← infLocal (t.v (nextCcwVert f))
  .ok (tipOf c p ka, p, tipOf c p kb)

/-- `draw_triangle_gizmo` (`debugger/gizmos.rs:82-123`): the line strip. The last branch (`vec![]`) is never taken:
`collect_infinite_triangle_vertices` panics on a third artificial vertex. -/
def triStrip (c : Canvas F) (vs : List (Vtx3 F)) (t : Tri) : Res (List (Vtx3 F)) := do
  match ← collectInfTri t with
  | [] =>
    let a ← getI vs t.v1
    let b ← getI vs t.v2
    let d ← getI vs t.v3
    .ok [a, b, d, a]
  | [i] =>
    let (a, ta, b, tb) ← tipsOf2 c vs t i
    .ok [ta, a, b, tb]
  | [i, j] =>
    let f ← oppVertFromEdge i j
    let (ta, p, tb) ← tipsOf1 c vs t f
    .ok [ta, p, tb]
  | _ => .ok []

/-- The lines of one triangle in `spawn_all_as_mesh_batches` (`debugger/meshes.rs:46-83`). -/
def triLines (c : Canvas F) (vs : List (Vtx3 F)) (t : Tri) : Res (List (Vtx3 F × Vtx3 F)) := do
  match ← collectInfTri t with
  | [] =>
    let a ← getI vs t.v1
    let b ← getI vs t.v2
    let d ← getI vs t.v3
    .ok [(a, b), (b, d), (d, a)]
  | [i] =>
    let (a, ta, b, tb) ← tipsOf2 c vs t i
    .ok [(ta, a), (a, b), (b, tb)]
  | [i, j] =>
    let f ← oppVertFromEdge i j
    let (ta, p, tb) ← tipsOf1 c vs t f
    .ok [(ta, p), (p, tb)]
  | _ => .ok []

/-- A remainder: by zero is a panic. -/
def remI (a b : Nat) : Res Nat := if b = 0 then .panic else .ok (a % b)

/-- The loop of `spawn_all_as_mesh_batches` (`debugger/meshes.rs:43-106`): `lines` is the batch being filled, `out` the batches
spawned so far, each with its `batch_index`. -/
def meshLoop (c : Canvas F) (vs : List (Vtx3 F)) (size : Nat) :
    List Tri → Nat → Nat → List (Vtx3 F × Vtx3 F) → List (Nat × List (Vtx3 F × Vtx3 F)) → Res (List (Nat × List (Vtx3 F × Vtx3 F)))
  | [], _, bi, lines, out => .ok (if lines.isEmpty then out else out ++ [(bi, lines)])
  | t :: ts, index, bi, lines, out => do
    let tl ← triLines c vs t
    let r ← remI index size
    if r = size - 1 then meshLoop c vs size ts (index + 1) (bi + 1) [] (out ++ [(bi, lines ++ tl)])
    else meshLoop c vs size ts (index + 1) bi (lines ++ tl) out

/-- `spawn_all_as_mesh_batches` (`debugger/meshes.rs:30-107`). -/
def meshBatches (c : Canvas F) (vs : List (Vtx3 F)) (size : Nat) (ts : List Tri) : Res (List (Nat × List (Vtx3 F × Vtx3 F))) :=
  meshLoop c vs size ts 0 0 [] []

/-- The inner loop of `spawn_contour_and_interior_meshes` (`debugger/meshes.rs:144-154`): contour and interior lines. -/
def contourEdges (vs : List (Vtx3 F)) (cs : List Edge) : List Edge → List (Vtx3 F × Vtx3 F) × List (Vtx3 F × Vtx3 F) →
    Res (List (Vtx3 F × Vtx3 F) × List (Vtx3 F × Vtx3 F))
  | [], acc => .ok acc
  | e :: es, acc => do
    let a ← getI vs e.src
    let b ← getI vs e.dst
    if cs.contains e || cs.contains e.opposite then contourEdges vs cs es (acc.1 ++ [(a, b)], acc.2)
    else contourEdges vs cs es (acc.1, acc.2 ++ [(a, b)])

/-- The outer loop of `spawn_contour_and_interior_meshes` (`debugger/meshes.rs:140-155`). The set of constraints is a list. -/
def contourLoop (vs : List (Vtx3 F)) (cs : List Edge) : List Tri → List (Vtx3 F × Vtx3 F) × List (Vtx3 F × Vtx3 F) →
    Res (List (Vtx3 F × Vtx3 F) × List (Vtx3 F × Vtx3 F))
  | [], acc => .ok acc
  | t :: ts, acc => do
    if t.isPseudoInfinite then contourLoop vs cs ts acc
    else
      let acc' ← contourEdges vs cs t.edges3 acc
      contourLoop vs cs ts acc'

/-- The positions of the three vertices in `spawn_label` (`debugger/label.rs:41-102`). -/
def labelSpots (c : Canvas F) (vs : List (Vtx3 F)) (t : Tri) : Res (Option (Vtx3 F × Vtx3 F × Vtx3 F)) := do
  match ← collectInfTri t with
  | [] =>
    let a ← getI vs t.v1
    let b ← getI vs t.v2
    let d ← getI vs t.v3
    .ok (some (a, b, d))
  | [i] =>
    let (_, ta, _, tb) ← tipsOf2 c vs t i
    let m := (ta.add' tb).sdiv' two
    if i = 0 then
      let b ← getI vs t.v2
      let d ← getI vs t.v3
      .ok (some (m, b, d))
    else if i = 1 then
      let a ← getI vs t.v1
      let d ← getI vs t.v3
      .ok (some (a, m, d))
    else
      let a ← getI vs t.v1
      let b ← getI vs t.v2
      .ok (some (a, b, m))
  | [i, j] =>
    let f ← oppVertFromEdge i j
    let (ta, p, tb) ← tipsOf1 c vs t f
    if f = 0 then .ok (some (p, ta, tb))
    else if f = 1 then .ok (some (tb, p, ta))
    else .ok (some (ta, tb, p))
  | _ => .ok none

/-- `VertexLabelMode` (`debugger.rs:103-108`). -/
inductive VertexLabelMode where
  | localIndex | globalIndex
  deriving DecidableEq, Repr

/-- The texts of labels: `t{id}`, `v1`/`v2`/`v3`, `{id}`, `inf_{k}`. -/
inductive LabelText where
  | tri (t : Nat)
  | corner (k : Fin 3)
  | vertex (v : Nat)
  | inf (k : Fin 4)
  deriving DecidableEq, Repr

/-- The text of a vertex label (`debugger/label.rs:135-144`). -/
def vertexText (m : VertexLabelMode) (n : Nat) (v : Nat) (k : Fin 3) : Res LabelText :=
  match m with
  | .localIndex => .ok (.corner k)
  | .globalIndex => if v < n then .ok (.vertex v) else do .ok (.inf (← infLocal v))

/-- `spawn_label` (`debugger/label.rs:29-155`): the four texts with their places. -/
def spawnLabel (c : Canvas F) (m : VertexLabelMode) (vs : List (Vtx3 F)) (tid : Nat) (t : Tri) : Res (List (LabelText × Vtx3 F)) := do
  match ← labelSpots c vs t with
  | none => .ok []
  | some (a, b, d) =>
    let center := ((a.add' b).add' d).sdiv' c.three
    let place (v : Vtx3 F) : Vtx3 F := v.add' (Vtx3.smul' c.inset (center.sub' v))
    let ta ← vertexText m vs.length t.v1 0
    let tb ← vertexText m vs.length t.v2 1
    let td ← vertexText m vs.length t.v3 2
    .ok [(.tri tid, center), (ta, place a), (tb, place b), (td, place d)]

/-- `TrianglesDrawMode` (`debugger.rs:77-94`). -/
inductive DrawMode where
  | allAsGizmos | changedAsGizmos | allAsMeshBatches (size : Nat) | contoursAndInterior
  deriving DecidableEq, Repr

/-- `LabelMode` (`debugger.rs:96-102`). -/
inductive LabelMode where
  | all | changed | none
  deriving DecidableEq, Repr

/-- The part of `TrianglesDebugViewConfig` (`debugger.rs`) that the drawing depends on. -/
structure ViewCfg where
  draw : DrawMode
  label : LabelMode
  vertexLabel : VertexLabelMode
  deriving DecidableEq, Repr

/-- `TrianglesDebugData` (`debugger.rs:110-120`) and the view configuration. The bounds of the changes are computed by
`changeBounds`. -/
structure Viewer (F : Type) where
  vertices : List (Vtx3 F)
  constraints : List Edge
  snaps : List Snap
  canvas : Canvas F
  cursor : Nat
  cfg : ViewCfg

/-- A subtraction of `usize`: underflow is a panic (debug profile). -/
def subI (a b : Nat) : Res Nat := if a < b then .panic else .ok (a - b)

/-- `advance_cursor` (`debugger.rs:165-171`). -/
def Viewer.advance (v : Viewer F) : Viewer F :=
  if 0 < v.snaps.length then { v with cursor := (v.cursor + 1) % v.snaps.length } else v

/-- `move_back_cursor` (`debugger.rs:173-180`). -/
def Viewer.back (v : Viewer F) : Res (Viewer F) :=
  if v.cursor = 0 then do .ok { v with cursor := ← subI v.snaps.length 1 } else .ok { v with cursor := v.cursor - 1 }

/-- `set_cursor_to_first_snapshot` (`debugger.rs:182-184`). -/
def Viewer.first (v : Viewer F) : Viewer F := { v with cursor := 0 }

/-- `set_cursor_to_last_snapshot` (`debugger.rs:186-188`). -/
def Viewer.last (v : Viewer F) : Res (Viewer F) := do .ok { v with cursor := ← subI v.snaps.length 1 }

/-- `current_snapshot` (`debugger.rs:190-196`). -/
def Viewer.current (v : Viewer F) : Res (Option Snap) :=
  if v.cursor < v.snaps.length then do .ok (some (← getI v.snaps v.cursor)) else .ok Option.none

/-- `switch_triangles_draw_mode` (`debugger.rs:387-412`), with `DEFAULT_TRIANGLES_BATCH_SIZE = 15`. -/
def DrawMode.next : DrawMode → DrawMode
  | .allAsGizmos => .changedAsGizmos
  | .changedAsGizmos => .allAsMeshBatches 15
  | .allAsMeshBatches _ => .contoursAndInterior
  | .contoursAndInterior => .allAsGizmos

/-- `switch_label_mode` (`debugger.rs:414-425`). -/
def LabelMode.next : LabelMode → LabelMode
  | .all => .changed
  | .changed => .none
  | .none => .all

/-- `switch_vertex_label_mode` (`debugger.rs:427-440`). -/
def VertexLabelMode.next : VertexLabelMode → VertexLabelMode
  | .globalIndex => .localIndex
  | .localIndex => .globalIndex

/-- What a user can do between two frames: the arrow keys (`update_triangles_debug_index`, `debugger.rs:264-276`; the right arrow
has precedence when both are pressed) and the keys of the three switches. -/
inductive Key where
  | right | left | drawMode | labelMode | vertexLabelMode
  deriving DecidableEq, Repr

def Viewer.press (v : Viewer F) : Key → Res (Viewer F)
  | .right => .ok v.advance
  | .left => v.back
  | .drawMode => .ok { v with cfg := { v.cfg with draw := v.cfg.draw.next } }
  | .labelMode => .ok { v with cfg := { v.cfg with label := v.cfg.label.next } }
  | .vertexLabelMode => .ok { v with cfg := { v.cfg with vertexLabel := v.cfg.vertexLabel.next } }

def Viewer.presses (v : Viewer F) : List Key → Res (Viewer F)
  | [] => .ok v
  | k :: ks => do (← v.press k).presses ks

/-- One comparison of the loop over the vertices of the changed triangles (`debugger.rs:363-376`). -/
def boundStep (b : F × F × F × F) (p : Vtx3 F) : F × F × F × F :=
  (if lt p.x b.1 then p.x else b.1, if lt b.2.1 p.x then p.x else b.2.1,
   if lt p.y b.2.2.1 then p.y else b.2.2.1, if lt b.2.2.2 p.y then p.y else b.2.2.2)

/-- The loop over the vertices of one triangle (`debugger.rs:361-380`). -/
def boundVerts (vs : List (Vtx3 F)) : List Nat → F × F × F × F → Res (F × F × F × F)
  | [], b => .ok b
  | v :: l, b => if v < vs.length then do boundVerts vs l (boundStep b (← getI vs v)) else boundVerts vs l b

/-- The loop over the changed triangles (`debugger.rs:358-381`): `(x_min, x_max, y_min, y_max)`. -/
def boundLoop (vs : List (Vtx3 F)) (ts : List Tri) : List Nat → F × F × F × F → Res (F × F × F × F)
  | [], b => .ok b
  | i :: l, b => do
    let t ← getI ts i
    let b' ← boundVerts vs [t.v1, t.v2, t.v3] b
    boundLoop vs ts l b'

/-- `debugger.rs:357-381`. -/
def changeBounds (vs : List (Vtx3 F)) (s : Snap) : Res (F × F × F × F) := boundLoop vs s.ts s.changed (fmax, fmin, fmax, fmin)

/-- A loop that does the same to every element. -/
def forEach {α β : Type} (f : α → Res β) : List α → Res (List β)
  | [] => .ok []
  | a :: l => do
    let b ← f a
    let bs ← forEach f l
    .ok (b :: bs)

/-- What is on the screen. -/
structure Frame (F : Type) where
  strips : List (List (Vtx3 F))
  batches : List (Nat × List (Vtx3 F × Vtx3 F))
  contour : List (Vtx3 F × Vtx3 F)
  interior : List (Vtx3 F × Vtx3 F)
  labels : List (List (LabelText × Vtx3 F))
  bounds : F × F × F × F
  /-- the place of the circle that marks the vertex of a split -/
  circle : Option (Vtx3 F)

/-- `draw_triangles_debug_data_gizmos`, the match on the mode (`debugger/gizmos.rs:33-59`). -/
def Viewer.strips (v : Viewer F) (s : Snap) : Res (List (List (Vtx3 F))) :=
  match v.cfg.draw with
  | .allAsGizmos => forEach (triStrip v.canvas v.vertices) s.ts
  | .changedAsGizmos => forEach (fun i => do triStrip v.canvas v.vertices (← getI s.ts i)) s.changed
  | _ => .ok []

/-- `update_triangles_debug_view`, the labels (`debugger.rs:326-355`). -/
def Viewer.labels (v : Viewer F) (s : Snap) : Res (List (List (LabelText × Vtx3 F))) :=
  match v.cfg.label with
  | .all => forEach (fun p : Tri × Nat => spawnLabel v.canvas v.cfg.vertexLabel v.vertices p.2 p.1) s.ts.zipIdx
  | .changed => forEach (fun i => do spawnLabel v.canvas v.cfg.vertexLabel v.vertices i (← getI s.ts i)) s.changed
  | .none => .ok []

/-- The observer `spawn_all_as_mesh_batches` and its trigger (`debugger.rs:316-319`). -/
def Viewer.batches (v : Viewer F) (s : Snap) : Res (List (Nat × List (Vtx3 F × Vtx3 F))) :=
  match v.cfg.draw with
  | .allAsMeshBatches size => meshBatches v.canvas v.vertices size s.ts
  | _ => .ok []

/-- The observer `spawn_contour_and_interior_meshes` and its trigger (`debugger.rs:320-322`). -/
def Viewer.contours (v : Viewer F) (s : Snap) : Res (List (Vtx3 F × Vtx3 F) × List (Vtx3 F × Vtx3 F)) :=
  match v.cfg.draw with
  | .contoursAndInterior => contourLoop v.vertices v.constraints s.ts ([], [])
  | _ => .ok ([], [])

/-- The circle of a split (`debugger/gizmos.rs:69-79`). -/
def Viewer.circle (v : Viewer F) (s : Snap) : Res (Option (Vtx3 F)) :=
  match s.event with
  | .split x => do .ok (some (← getI v.vertices x))
  | .snapshot => .ok Option.none

/-- One frame: `update_triangles_debug_view` (`debugger.rs:281-385`), the observers it triggers and
`draw_triangles_debug_data_gizmos` (`debugger/gizmos.rs:22-80`). Nothing is drawn without a current snapshot. -/
def Viewer.frame (v : Viewer F) : Res (Option (Frame F)) := do
  match ← v.current with
  | Option.none => .ok Option.none
  | some s =>
    let batches ← v.batches s
    let ci ← v.contours s
    let labels ← v.labels s
    let bounds ← changeBounds v.vertices s
    let strips ← v.strips s
    let circle ← v.circle s
    .ok (some ⟨strips, batches, ci.1, ci.2, labels, bounds, circle⟩)

end

/-! ## The loaders of polylines -/

section
variable [IdCfg]

/-- The loader of the examples (`examples/examples/cdt_real_data.rs:51-68`, `benchmarks/examples/cdt_benchmark.rs:29-42`,
`profiling/examples/cdt_real_data.rs`): the points of the parts of all the polylines, one after the other, and one constraint
between consecutive points of a part. Vertex ids are `i as VertexId`. -/
def loadParts {P : Type} : List (List P) → List P × List Edge → Res (List P × List Edge)
  | [], acc => .ok acc
  | part :: parts, acc => do
    let first := acc.1.length
    let vs := acc.1 ++ part
    let last ← subI vs.length 1
    loadParts parts (vs, acc.2 ++ (List.range' first (last - first)).map fun i => ⟨toId i, toId (i + 1)⟩)

end

end CDT

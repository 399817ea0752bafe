import Verif.Model.Types

/-!
# Geometric predicates and checkers (`/repo/src/utils.rs`)
-/

namespace CDT
open FloatOps

variable {F : Type} [FloatOps F]

/-- `EdgesIntersectionResult` (`utils.rs:9-15`). -/
inductive Isect where
  | none
  | crossing
  | onEdgeTip
  | sharedEdges
  deriving DecidableEq, Repr

/-- `Orientation` (`utils.rs:17-22`). -/
inductive Orient where
  | colinear
  | clockwise
  | counterClockwise
  deriving DecidableEq, Repr

/-- `EdgeVertices` (`types.rs:517`). -/
abbrev EV (F : Type) := Vtx F × Vtx F

/-- `Vertex == Vertex` (glam: both components equal). -/
def vtxEq (a b : Vtx F) : Bool := eq a.x b.x && eq a.y b.y

/-- `validate_vertices` (`utils.rs:30-37`): `true` is `Ok(())`. `v.is_nan()` and `v.is_finite()` are
glam's component-wise tests. -/
def validateVertices : List (Vtx F) → Bool
  | [] => true
  | v :: vs =>
    if (isNan v.x || isNan v.y) || !(isFinite v.x && isFinite v.y) then false
    else validateVertices vs

/-- `triplet_orientation` (`utils.rs:81-91`). -/
def tripletOrientation (p q r : Vtx F) : Orient :=
  let val := sub (mul (sub q.y p.y) (sub r.x q.x)) (mul (sub q.x p.x) (sub r.y q.y))
  if eq val zero then .colinear
  else if lt zero val then .clockwise
  else .counterClockwise

/-- `on_segment` (`utils.rs:156-158`). -/
def onSegment (p q r : Vtx F) : Bool :=
  le q.x (max p.x r.x) && le (min p.x r.x) q.x && le q.y (max p.y r.y) && le (min p.y r.y) q.y

/-- `egdes_intersect` (`utils.rs:40-78`). -/
def edgesIntersect (e1 e2 : EV F) : Isect :=
  if vtxEq e1.1 e2.1 || vtxEq e1.1 e2.2 || vtxEq e1.2 e2.1 || vtxEq e1.2 e2.2 then .sharedEdges
  else
    let o1 := tripletOrientation e1.1 e1.2 e2.1
    let o2 := tripletOrientation e1.1 e1.2 e2.2
    let o3 := tripletOrientation e2.1 e2.2 e1.1
    let o4 := tripletOrientation e2.1 e2.2 e1.2
    if decide (o1 = .colinear) && onSegment e1.1 e2.1 e1.2 then .onEdgeTip
    else if decide (o2 = .colinear) && onSegment e1.1 e2.2 e1.2 then .onEdgeTip
    else if decide (o3 = .colinear) && onSegment e2.1 e1.1 e2.2 then .onEdgeTip
    else if decide (o4 = .colinear) && onSegment e2.1 e1.2 e2.2 then .onEdgeTip
    else if decide (o1 ≠ o2) && decide (o3 ≠ o4) then .crossing
    else .none

/-- `test_point_edge_side` (`utils.rs:126-128`): the wrapped value of `EdgeSideTestResult`. -/
def edgeSide (e : EV F) (p : Vtx F) : F :=
  sub (mul (sub p.y e.1.y) (sub e.2.x e.1.x)) (mul (sub p.x e.1.x) (sub e.2.y e.1.y))

/-- `EdgeSideTestResult::is_on_right_side` (`utils.rs:97-99`). -/
def onRight (s : F) : Bool := lt s zero
/-- `EdgeSideTestResult::is_on_left_side` (`utils.rs:105-107`). -/
def onLeft (s : F) : Bool := lt zero s
/-- `EdgeSideTestResult::is_near_edge` (`utils.rs:117-119`). -/
def nearEdge (s : F) : Bool := lt (abs s) eps

/-- `is_point_on_right_side_of_edge` (`utils.rs:134-136`). -/
def rightSideOfEdge (e : EV F) (p : Vtx F) : Bool := le (edgeSide e p) zero

/-- `is_point_strictly_on_right_side_of_edge` (`utils.rs:142-144`). -/
def strictlyRightOfEdge (e : EV F) (p : Vtx F) : Bool := le (edgeSide e p) (neg eps)

/-- `is_vertex_in_triangle_circumcircle` (`utils.rs:182-213`). -/
def inCircumcircle (t1 t2 t3 p : Vtx F) : Bool :=
  let x13 := sub t1.x t3.x
  let x23 := sub t2.x t3.x
  let y13 := sub t1.y t3.y
  let y23 := sub t2.y t3.y
  let x14 := sub t1.x p.x
  let x24 := sub t2.x p.x
  let y14 := sub t1.y p.y
  let y24 := sub t2.y p.y
  let cosA := add (mul x13 x23) (mul y13 y23)
  let cosB := add (mul x24 x14) (mul y24 y14)
  if le zero cosA && le zero cosB then false
  else if lt cosA zero && lt cosB zero then true
  else
    let sinA := sub (mul x13 y23) (mul x23 y13)
    let sinB := sub (mul x24 y14) (mul x14 y24)
    let sinAB := add (mul sinA cosB) (mul sinB cosA)
    lt sinAB zero

/-- Loop body of `check_degenerate_triangles` (`utils.rs:230-251`): counts of flat and
counter-clockwise triangles. -/
def checkDegenerate (vs : List (Vtx F)) : List Out → Res (Nat × Nat)
  | [] => .ok (0, 0)
  | t :: ts => do
    let v1 ← getI vs t.1
    let v2 ← getI vs t.2.1
    let v3 ← getI vs t.2.2
    let r ← checkDegenerate vs ts
    match tripletOrientation v1 v2 v3 with
    | .colinear => .ok (r.1 + 1, r.2)
    | .counterClockwise => .ok (r.1, r.2 + 1)
    | .clockwise => .ok r

/-- `get_circumcircle_info` (`utils.rs:264-276`). -/
def circumcircleInfo (v1 v2 v3 : Vtx F) : Vtx F × F :=
  let bx := sub v2.x v1.x
  let by' := sub v2.y v1.y
  let cx := sub v3.x v1.x
  let cy := sub v3.y v1.y
  let d := mul two (sub (mul bx cy) (mul by' cx))
  let bb := add (mul bx bx) (mul by' by')
  let cc := add (mul cx cx) (mul cy cy)
  let ux := div (sub (mul cy bb) (mul by' cc)) d
  let uy := div (sub (mul bx cc) (mul cx bb)) d
  (⟨add ux v1.x, add uy v1.y⟩, sqrt (add (mul ux ux) (mul uy uy)))

/-- Inner loops of `check_circumcircles` (`utils.rs:309-327`) over the vertex ids of all triangles:
is there a vertex, not of `t`, whose distance to the center is less than the radius? -/
def circumcircleHit (vs : List (Vtx F)) (t : Out) (c : Vtx F × F) : List Nat → Res Bool
  | [] => .ok false
  | i :: is =>
    if i = t.1 ∨ i = t.2.1 ∨ i = t.2.2 then circumcircleHit vs t c is
    else do
      let v ← getI vs i
      let dx := sub v.x c.1.x
      let dy := sub v.y c.1.y
      let dist := sqrt (add (mul dx dx) (mul dy dy))
      if lt dist c.2 then .ok true else circumcircleHit vs t c is

/-- All the vertex ids enumerated by the two inner loops of `check_circumcircles`. -/
def allIds : List Out → List Nat
  | [] => []
  | t :: ts => t.1 :: t.2.1 :: t.2.2 :: allIds ts

/-- Outer loop of `check_circumcircles` (`utils.rs:281-331`); `ids` are the ids of all triangles. -/
def checkCircumcirclesLoop (vs : List (Vtx F)) (ids : List Nat) : List Out → Res Nat
  | [] => .ok 0
  | t :: ts => do
    let v1 ← getI vs t.1
    let v2 ← getI vs t.2.1
    let v3 ← getI vs t.2.2
    let hit ← circumcircleHit vs t (circumcircleInfo v1 v2 v3) ids
    let r ← checkCircumcirclesLoop vs ids ts
    .ok (if hit then r + 1 else r)

/-- `check_circumcircles` (`utils.rs:281-331`). -/
def checkCircumcircles (ts : List Out) (vs : List (Vtx F)) : Res Nat :=
  checkCircumcirclesLoop vs (allIds ts) ts

/-- `DelaunayQualityInfo` (`utils.rs:333-337`). -/
structure Quality where
  flat : Nat
  ccw : Nat
  nonOptimal : Nat
  deriving DecidableEq, Repr

/-- `check_delaunay_optimal` (`utils.rs:351-363`). -/
def checkDelaunayOptimal (ts : List Out) (vs : List (Vtx F)) : Res Quality := do
  let d ← checkDegenerate vs ts
  let c ← checkCircumcircles ts vs
  .ok ⟨d.1, d.2, c⟩

end CDT

import Verif.Model.Constrained
import Verif.Model.SoftFloat

/-!
# Input vertex formats (`/repo/src/types/vertex.rs`)

The entry points are generic in the type of the input vertices. `Float` (here `F`) is the number type of the build: `f64`, or
`f32` with the feature `f32`. The other modules take the input in this type.
-/

namespace CDT
open FloatOps

/-- `x as Float` (`types/vertex.rs`) for a value of another number type. -/
class AsFloat (G F : Type) where
  asFloat : G → F
export AsFloat (asFloat)

/-- The cast of IEEE values: rounds to the nearest, ties to even, with overflow; infinities and NaN are kept. -/
instance asFloatFl (g f : Fmt) : AsFloat (Fl g) (Fl f) where
  asFloat
    | .nan => .nan
    | .inf s => .inf s
    | .fin q => .mk f q

/-- The trait `Vertex2d` (`types/vertex.rs:8-11`). -/
class Vertex2d (T F : Type) where
  x : T → F
  y : T → F

/-- `impl Vertex2d for Vec2`, `for DVec2` (`types/vertex.rs:13-38`). -/
instance (priority := low) vertex2dVtx (G F : Type) [AsFloat G F] : Vertex2d (Vtx G) F where
  x v := asFloat v.x
  y v := asFloat v.y

/-- The trait `Vertex3d` (`types/vertex.rs:41-47`). -/
class Vertex3d (T F : Type) where
  sub : T → T → T
  neg : T → T
  normalize : T → T
  cross : T → T → T
  dot : T → T → F

/-- `impl Vertex3d for Vec3`, `for DVec3` (`types/vertex.rs:48-85`): computed in the type of the input, only the result of
`dot` is cast. -/
instance (priority := low) vertex3dVtx (G F : Type) [FloatOps G] [AsFloat G F] : Vertex3d (Vtx3 G) F where
  sub := Vtx3.sub'
  neg := Vtx3.neg'
  normalize := Vtx3.normalize
  cross := Vtx3.cross
  dot a b := asFloat (a.dot b)

variable {T : Type} (F : Type) [FloatOps F]

/-- First loop of `normalize_vertices_coordinates` (`triangulation.rs:191-204`). -/
def bboxLoopOf [Vertex2d T F] : List T → F × F × F × F → F × F × F × F
  | [], b => b
  | v :: vs, (xmin, ymin, xmax, ymax) =>
    bboxLoopOf vs
      (if lt (Vertex2d.x v) xmin then Vertex2d.x v else xmin,
       if lt (Vertex2d.y v) ymin then Vertex2d.y v else ymin,
       if lt xmax (Vertex2d.x v) then Vertex2d.x v else xmax,
       if lt ymax (Vertex2d.y v) then Vertex2d.y v else ymax)

/-- `normalize_vertices_coordinates` (`triangulation.rs:181-216`), the vertices. -/
def normalizeOf [Vertex2d T F] (vs : List T) : List (Vtx F) :=
  let b := bboxLoopOf F vs (fmax, fmax, fmin, fmin)
  let s := max (sub b.2.2.1 b.1) (sub b.2.2.2 b.2.1)
  vs.map fun v => ⟨div (sub (Vertex2d.x v) b.1) s, div (sub (Vertex2d.y v) b.2.1) s⟩

variable [IdCfg]

/-- `triangulation_from_2d_vertices` (`triangulation.rs:118-157`), without `parallel_filtering`. -/
def triangulation2dOf [Vertex2d T F] (fuel : Nat) (bins : Nat → Nat) (vs : List T) : Res (List Out) :=
  if vs.length < 3 then .ok []
  else do
    let nv : List (Vtx F) := normalizeOf F vs
    let s ← wrapAndTriangulate fuel (bins vs.length) nv none
    .ok (filterSeq s.ts)

/-- `constrained_triangulation_from_2d_vertices` (`constrained_triangulation.rs:106-164`). -/
def constrained2dOf [Vertex2d T F] (fuel : Nat) (bins : Nat → Nat) (vs : List T) (es : List Edge) : Res (List Out) :=
  if vs.length < 3 then .ok []
  else do
    let nv : List (Vtx F) := normalizeOf F vs
    let s ← wrapAndTriangulate fuel (bins vs.length) nv (some ((List.range vs.length).map toId))
    let r ← applyConstraints nv fuel s.ts es (s.merge.getD [])
    cdtFilter fuel r.ts r.S

/-- `transform_to_2d_planar_coordinate_system` (`triangulation.rs:162-177`). -/
def transformTo2dOf [Vertex3d T F] (vs : List T) (normal : T) : Res (List (Vtx F)) := do
  let a ← getI vs 0
  let b ← getI vs 1
  let b1 := Vertex3d.normalize F (Vertex3d.sub F a b)
  let b2 := Vertex3d.cross F b1 (Vertex3d.neg F normal)
  .ok (vs.map fun v => ⟨Vertex3d.dot v b1, Vertex3d.dot v b2⟩)

/-- The type `Vertex` of the build is itself an input type, with the trivial cast. -/
@[instance_reducible] def ownVertex : Vertex2d (Vtx F) F := ⟨fun v => v.x, fun v => v.y⟩

/-- `triangulation_from_3d_planar_vertices` (`triangulation.rs:100-110`). -/
def triangulation3dOf [Vertex3d T F] (fuel : Nat) (bins : Nat → Nat) (vs : List T) (normal : T) : Res (List Out) :=
  if vs.length < 3 then .ok []
  else do
    let pv ← transformTo2dOf F vs normal
    @triangulation2dOf (Vtx F) F _ _ (ownVertex F) fuel bins pv

/-- `constrained_triangulation_from_3d_planar_vertices` (`constrained_triangulation.rs:62-76`). -/
def constrained3dOf [Vertex3d T F] (fuel : Nat) (bins : Nat → Nat) (vs : List T) (normal : T) (es : List Edge) :
    Res (List Out) :=
  if vs.length < 3 then .ok []
  else do
    let pv ← transformTo2dOf F vs normal
    @constrained2dOf (Vtx F) F _ _ (ownVertex F) fuel bins pv es

end CDT

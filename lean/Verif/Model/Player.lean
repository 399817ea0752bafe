import Verif.Model.Viewer

/-!
# The video player (`/repo/examples/examples/bad_apple.rs`)

The file of frames is a list of frames; reading and decoding it are left out. The timer is an input: whether it finished. The
conversions of coordinates to `Float` and to `f32` are parameters. The systems that run in one pass of the application have no
fixed order, so each of them is an event of its own, and a pass is any sequence of events. The camera is left out.
-/

namespace CDT

/-- `Frame` (`bad_apple.rs:54-58`). -/
structure VideoFrame where
  vertices : List (Int × Int)
  edges : List (Nat × Nat)
  deriving DecidableEq, Repr

/-- `TriangulatedFrame` (`bad_apple.rs:60-64`). -/
structure ReadyFrame (G : Type) where
  tris : List Out
  snaps : List Snap
  edges : List Edge
  vertices : List (Vtx3 G)

/-- `Frames` (`bad_apple.rs:66-72`) with the resources of the viewer that `setup` and `next_frame` insert. -/
structure Player (G : Type) where
  index : Nat
  frames : List (ReadyFrame G)
  auto : Bool
  viewer : Viewer G

/-- The numbers a frame is converted to, and what a run depends on. -/
structure PlayerParams (F G : Type) where
  /-- `v as Float` (`bad_apple.rs:146`) -/
  conv : Int → F
  /-- `v as f32` (`bad_apple.rs:156`) -/
  disp : Int → G
  fuel : Nat
  bins : Nat → Nat
  canvas : Canvas G

section
variable [IdCfg] {F G : Type} [FloatOps F] [FloatOps G]

/-- `edges` (`bad_apple.rs:135-139`). -/
def VideoFrame.constraints (f : VideoFrame) : List Edge := f.edges.map fun e => ⟨toId e.1, toId e.2⟩

/-- The vertices handed to the triangulation (`bad_apple.rs:142-146`). -/
def VideoFrame.points (conv : Int → F) (f : VideoFrame) : List (Vtx F) := f.vertices.map fun v => ⟨conv v.1, conv v.2⟩

/-- `displayed_vertices` (`bad_apple.rs:152-156`). -/
def VideoFrame.displayed (disp : Int → G) (f : VideoFrame) : List (Vtx3 G) :=
  f.vertices.map fun v => ⟨disp v.1, disp v.2, FloatOps.zero⟩

/-- The configuration (`bad_apple.rs:124-130`). -/
def playerCfg : DebugCfg := { phases := .only .filterTriangles }

/-- `.unwrap()` of a triangulation (`bad_apple.rs:151`). -/
def unwrapD {α : Type} (r : Res α × DCtx) : Res (α × List Snap) :=
  match r.1 with
  | .ok a => .ok (a, r.2.snaps)
  | .err _ => .panic
  | .panic => .panic
  | .diverge => .diverge

/-- One pass of the loop over the frames (`bad_apple.rs:133-162`). -/
def readyFrame (p : PlayerParams F G) (f : VideoFrame) : Res (ReadyFrame G) := do
  let r ← unwrapD (constrained2dD p.fuel p.bins (f.points p.conv) f.constraints playerCfg)
  .ok ⟨r.1, r.2, f.constraints, f.displayed p.disp⟩

/-- `TrianglesDebugData::new_with_constrained_edges` (`examples/src/debugger.rs:147-158`) with a view configuration. -/
def viewerOf (c : Canvas G) (cfg : ViewCfg) (f : ReadyFrame G) : Viewer G := ⟨f.vertices, f.edges, f.snaps, c, 0, cfg⟩

/-- `setup` (`bad_apple.rs:115-187`). `DEFAULT_FRAME_SWITCH_MODE` is `Auto` (line 46). -/
def playerSetup (p : PlayerParams F G) (fs : List VideoFrame) : Res (Player G) := do
  let frames ← forEach (readyFrame p) fs
  let f ← getI frames 0
  .ok ⟨0, frames, true, viewerOf p.canvas ⟨.contoursAndInterior, .none, .globalIndex⟩ f⟩

/-- The keys that `next_frame` looks at. -/
structure PlayerKeys where
  back : Bool := false
  forward : Bool := false
  num8 : Bool := false
  num7 : Bool := false
  num5 : Bool := false
  num4 : Bool := false
  deriving DecidableEq, Repr

/-- The arrow keys (`bad_apple.rs:199-213`): the new index and `updated`. -/
def arrowKeys (len i : Nat) (k : PlayerKeys) : Res (Nat × Bool) :=
  if k.back then
    if i = 0 then do .ok (← subI len 1, true) else .ok (i - 1, true)
  else if k.forward then do .ok (← remI (i + 1) len, true)
  else .ok (i, false)

/-- A key that moves forward by `d` (`bad_apple.rs:214-217,222-225`). -/
def keyPlus (pressed : Bool) (d len : Nat) (s : Nat × Bool) : Res (Nat × Bool) :=
  if pressed then do .ok (← remI (s.1 + d) len, true) else .ok s

/-- A key that moves back by `d` (`bad_apple.rs:218-221,226-229`): `saturating_sub`. -/
def keyMinus (pressed : Bool) (d : Nat) (s : Nat × Bool) : Nat × Bool := if pressed then (s.1 - d, true) else s

/-- The `match` on `switch_mode` (`bad_apple.rs:197-242`). -/
def nextIndex (len i : Nat) (auto finished : Bool) (k : PlayerKeys) : Res (Nat × Bool) :=
  if auto then
    if finished then do .ok (← remI (i + 1) len, true) else .ok (i, false)
  else do
    let s ← arrowKeys len i k
    let s ← keyPlus k.num8 1000 len s
    let s := keyMinus k.num7 1000 s
    let s ← keyPlus k.num5 100 len s
    .ok (keyMinus k.num4 100 s)

/-- `next_frame` (`bad_apple.rs:189-252`). The view configuration is another resource and is kept. -/
def Player.nextFrame (p : Player G) (finished : Bool) (k : PlayerKeys) : Res (Player G) := do
  let s ← nextIndex p.frames.length p.index p.auto finished k
  if s.2 then do
    let f ← getI p.frames s.1
    .ok { p with index := s.1, viewer := viewerOf p.viewer.canvas p.viewer.cfg f }
  else .ok { p with index := s.1 }

/-- What can happen: `next_frame`, `switch_frame_mode` (`bad_apple.rs:254-260`), or a key of the viewer. -/
inductive PlayerEvent where
  | next (finished : Bool) (k : PlayerKeys)
  | space
  | viewer (k : Key)
  deriving DecidableEq, Repr

def Player.step (p : Player G) : PlayerEvent → Res (Player G)
  | .next b k => p.nextFrame b k
  | .space => .ok { p with auto := !p.auto }
  | .viewer k => do .ok { p with viewer := ← p.viewer.press k }

def Player.run (p : Player G) : List PlayerEvent → Res (Player G)
  | [] => .ok p
  | e :: es => do (← p.step e).run es

end

end CDT

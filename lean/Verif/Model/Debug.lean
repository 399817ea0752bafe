import Verif.Model.Constrained

/-!
# The `debug_context` feature (`/repo/src/debug.rs` and the code under `cfg(feature = "debug_context")`)

The functions that record or advance the debug context are written again, with the context threaded through them. The functions
that only pass the context along (`find_vertex_placement`, `register_intersected_edges` and its callees) are used as they are.
`scale_factor`, `x_min` and `y_min`, which are stored and never read, are left out. A `usize` step counter is a natural number.
-/

namespace CDT

/-- `Phase` (`debug.rs:175-192`). -/
inductive Phase where
  | firstVertexInsertion | splitTriangle | splitQuad | restoreSwap | beforeConstraints | registerCrossedEdges
  | constrainedSwap | afterConstraints | filterTriangles
  deriving DecidableEq, Repr

/-- `EventInfo` (`debug.rs:194-198`). -/
inductive Event where
  | snapshot
  | split (v : Nat)
  deriving DecidableEq, Repr

/-- `PhaseRecord` (`debug.rs:6-15`). -/
inductive PhaseRecord where
  | none
  | all
  | only (p : Phase)
  | inAny (ps : List Phase)

/-- `StepsRecord` (`debug.rs:18-29`). -/
inductive StepsRecord where
  | none
  | all
  | starting (a : Nat)
  | until (b : Nat)
  | between (a b : Nat)

/-- `DebugConfiguration` (`debug.rs:31-46`). -/
structure DebugCfg where
  phases : PhaseRecord := .all
  steps : StepsRecord := .all
  forceEnd : Option Nat := Option.none

/-- `DebugSnapshot` (`debug.rs:48-71`). -/
structure Snap where
  step : Nat
  phase : Phase
  event : Event
  changed : List Nat
  ts : List Tri
  deriving DecidableEq, Repr

/-- `DebugContext` (`debug.rs:73-84`). -/
structure DCtx where
  cfg : DebugCfg
  snaps : List Snap
  step : Nat

/-- `DebugContext::new` (`debug.rs:87-101`). -/
def DCtx.new (cfg : DebugCfg) : DCtx := ⟨cfg, [], 0⟩

/-- Computations with a mutable debug context. An error carries a clone of the context (`triangulation.rs:82-93`), so the context
is kept in every outcome. -/
def D (α : Type) : Type := DCtx → Res α × DCtx

instance : Monad D where
  pure a := fun c => (.ok a, c)
  bind x f := fun c => match x c with
    | (.ok a, c') => f a c'
    | (.err e, c') => (.err e, c')
    | (.panic, c') => (.panic, c')
    | (.diverge, c') => (.diverge, c')

/-- Code that does not touch the context. -/
def liftD {α : Type} (r : Res α) : D α := fun c => (r, c)

/-- The `match` on `phase_record` (`debug.rs:111-116`). -/
def recordsPhase (r : PhaseRecord) (p : Phase) : Bool :=
  match r with
  | .none => false
  | .all => true
  | .inAny ps => decide (p ∈ ps)
  | .only q => decide (p = q)

/-- The `match` on `steps_record` (`debug.rs:120-126`). -/
def recordsStep (r : StepsRecord) (s : Nat) : Bool :=
  match r with
  | .none => false
  | .all => true
  | .starting a => decide (s ≥ a)
  | .until b => decide (s ≤ b)
  | .between a b => decide (s ≥ a) && decide (s ≤ b)

section
variable [IdCfg]

/-- `DebugContext::push_snapshot_event` (`debug.rs:103-146`). -/
def pushEvent (p : Phase) (e : Event) (ts : List Tri) (ids nbs : List Nat) : D Unit := fun c =>
  if !recordsPhase c.cfg.phases p then (.ok (), c)
  else if recordsStep c.cfg.steps c.step then
    (.ok (), { c with snaps := c.snaps ++ [⟨c.step, p, e, ids ++ nbs.filter (fun n => decide (n ≠ NONE)), ts⟩] })
  else (.ok (), c)

/-- `DebugContext::push_snapshot` (`debug.rs:148-162`). -/
def pushSnap (p : Phase) (ts : List Tri) (ids nbs : List Nat) : D Unit := pushEvent p .snapshot ts ids nbs

/-- The `match` on `force_end_at_step` (`debug.rs:167-170`). -/
def forcedEnd (f : Option Nat) (step : Nat) : Bool :=
  match f with
  | some k => decide (step ≥ k)
  | Option.none => false

/-- `DebugContext::advance_step` (`debug.rs:165-171`). -/
def advanceStep : D Bool := fun c => (.ok (forcedEnd c.cfg.forceEnd (c.step + 1)), { c with step := c.step + 1 })

variable {F : Type} [FloatOps F]

/-- `split_triangle_into_three_triangles` with its final event (`triangulation.rs:810-869`). -/
def split3D (ts : List Tri) (t1 p : Nat) : D (List Tri × List (Nat × Nat)) := do
  let r ← liftD (split3 ts t1 p)
  pushEvent .splitTriangle (.split p) r.1 [t1, nextId ts, nextId ts + 1] []
  pure r

/-- `split_quad_into_four_triangles` with its final event (`triangulation.rs:704-787`). -/
def split4D (ts : List Tri) (t1 : Nat) (ei : Fin 3) (e : Edge) (p : Nat) : D (List Tri × List (Nat × Nat)) := do
  let a ← liftD (getI ts t1)
  let r ← liftD (split4 ts t1 ei e p)
  pushEvent .splitQuad (.split p) r.1 [t1, a.n ei, nextId ts, nextId ts + 1] []
  pure r

/-- `check_and_swap_quad_diagonal` with its snapshot (`triangulation.rs:993-1081`). -/
def checkAndSwapD (vs : List (Vtx F)) (p : Nat) (ts : List Tri) (t1id t2id : Nat) (st : List (Nat × Nat)) :
    D (List Tri × List (Nat × Nat)) := do
  let t2 ← liftD (getI ts t2id)
  let q := (quadOf t2 t1id p).1
  let n3 := (quadOf t2 t1id p).2.1
  let n4 := (quadOf t2 t1id p).2.2
  let sw ← liftD (shouldSwap vs q)
  if sw then do
    let t1 ← liftD (getI ts t1id)
    let n1 := t1.n31
    let n2 := t1.n12
    let ts := ts.set t1id ⟨q.q4, q.q1, q.q3, n2, n3, t2id⟩
    let ts := ts.set t2id ⟨q.q4, q.q3, q.q2, t1id, n4, n1⟩
    let ts ← liftD (updNb ts n1 t1id t2id)
    let ts ← liftD (updNb ts n3 t2id t1id)
    pushSnap .restoreSwap ts [t1id, t2id] [n3, n1]
    pure (ts, pushQ (pushQ st t1id n3) t2id n4)
  else pure (ts, st)

/-- `restore_delaunay_triangulation` (`triangulation.rs:911-933`). -/
def restoreD (vs : List (Vtx F)) (p : Nat) : Nat → List Tri → List (Nat × Nat) → D (List Tri)
  | _, ts, [] => pure ts
  | 0, _, _ :: _ => liftD .diverge
  | fuel + 1, ts, (a, b) :: st => do
    let r ← checkAndSwapD vs p ts a b st
    restoreD vs p fuel r.1 r.2

/-- Tail of one iteration (`triangulation.rs:490-501`). -/
def finishInsertD (vs : List (Vtx F)) (fuel vid : Nat) (m : Option (List Nat)) (r : List Tri × List (Nat × Nat)) : D DT := do
  let ts ← restoreD vs vid fuel r.1 r.2
  let tid ← liftD (lastId ts)
  pure ⟨ts, tid, m⟩

/-- The `OnTriangleEdge` case when the vertex is not merged with `edge.from` (`triangulation.rs:458-476`). -/
def insertOnEdgeD (vs : List (Vtx F)) (fuel : Nat) (s : DT) (vid : Nat) (p : Vtx F) (t : Nat) (ei : Fin 3) (e : Edge) : D DT := do
  let closeDst ← liftD (if isFin e.dst then do
      let b ← getI vs e.dst
      pure (tooClose b p)
    else pure false)
  if closeDst then pure { s with merge := setMerge s.merge vid e.dst }
  else do
    let r ← split4D s.ts t ei e vid
    finishInsertD vs fuel vid s.merge r

/-- One iteration of the insertion loop after the step was advanced (`triangulation.rs:426-501`). -/
def insertVertexD (vs : List (Vtx F)) (fuel : Nat) (s : DT) (vid : Nat) : D DT := do
  let p ← liftD (getI vs vid)
  let pl ← liftD (findPlacement vs p s.tid s.ts)
  match pl with
  | .notFound => liftD (.err .placementNotFound)
  | .inside t => do
    let r ← split3D s.ts t vid
    finishInsertD vs fuel vid s.merge r
  | .onEdge t ei e => do
    let closeSrc ← liftD (if isFin e.src then do
        let a ← getI vs e.src
        pure (tooClose a p)
      else pure false)
    if closeSrc then pure { s with merge := setMerge s.merge vid e.src }
    else insertOnEdgeD vs fuel s vid p t ei e

/-- The insertion loop (`triangulation.rs:417-516`); it stops when `advance_step` asks for it. -/
def insertAllD (vs : List (Vtx F)) (fuel : Nat) : List Nat → DT → D DT
  | [], s => pure s
  | v :: rest, s => do
    let stop ← advanceStep
    if stop then pure s
    else do
      let s' ← insertVertexD vs fuel s v
      insertAllD vs fuel rest s'

/-- `wrap_and_triangulate_2d_normalized_vertices` (`triangulation.rs:386-519`). -/
def wrapAndTriangulateD (fuel bins : Nat) (vs : List (Vtx F)) (m : Option (List Nat)) : D DT := do
  let sorted ← liftD (binSort bins vs)
  match sorted with
  | [] => liftD .panic
  | first :: rest => do
    let tid ← liftD (lastId (initialTriangles first))
    pushSnap .firstVertexInsertion (initialTriangles first) [0] []
    insertAllD vs fuel rest ⟨initialTriangles first, tid, m⟩

/-- `triangulation_from_2d_vertices` (`triangulation.rs:118-157`) with `filter_triangles` (`triangulation.rs:521-550`), without
`parallel_filtering`: the outcome and the final debug context. For fewer than three vertices the default context is returned
(line 127). -/
def triangulation2dD (fuel : Nat) (bins : Nat → Nat) (vs : List (Vtx F)) (cfg : DebugCfg) : Res (List Out) × DCtx :=
  if vs.length < 3 then (.ok [], .new {})
  else (do
    let s ← wrapAndTriangulateD fuel (bins vs.length) (normalizeVerts vs) none
    pushSnap .filterTriangles (s.ts.filter Tri.isFinite) [] []
    pure (filterSeq s.ts) : D (List Out)) (.new cfg)

/-! ## Constrained triangulation -/

/-- `swap_quad_diagonal` with its snapshot (`constrained_triangulation.rs:717-782`). -/
def swapQuadD (ts : List Tri) (v2t : List Nat) (d : EdgeData) (q : Quad) : D Swapped := do
  let w ← liftD (swapQuad ts v2t d q)
  pushSnap .constrainedSwap w.ts [d.f, d.t] [w.ttl, w.tfr]
  pure w

/-- One iteration of `remove_crossed_edges` (`constrained_triangulation.rs:850-898`). -/
def removeStepD (vs : List (Vtx F)) (cv : EV F) (d : EdgeData) (s : RC) : D RC :=
  if s.nonConvex > s.isects.length then liftD (.err .noConvexQuad)
  else do
    let q ← liftD (d.toQuad s.ts)
    let r ← liftD (quadDiag vs q)
    if r ≠ .crossing then
      pure { s with isects := s.isects ++ [d], nonConvex := s.nonConvex + 1 }
    else do
      let w ← swapQuadD s.ts s.v2t d q
      let isects := s.isects.map (·.upd w.ttl w.tfr d.f d.t)
      let diags := s.diags.map (·.upd w.ttl w.tfr d.f d.t)
      let nd : EdgeData := ⟨d.f, d.t, ⟨q.q3, q.q4⟩⟩
      let x ← liftD (edgeIsect vs nd.edge cv)
      if x = .crossing then pure ⟨w.ts, w.v2t, isects ++ [nd], diags, 0⟩
      else pure ⟨w.ts, w.v2t, isects, diags ++ [nd], 0⟩

/-- `remove_crossed_edges` (`constrained_triangulation.rs:834-900`). -/
def removeCrossedD (vs : List (Vtx F)) (cv : EV F) : Nat → RC → D RC
  | 0, s => match s.isects with
    | [] => pure s
    | _ :: _ => liftD .diverge
  | fuel + 1, s => match s.isects with
    | [] => pure s
    | d :: rest => do
      let s' ← removeStepD vs cv d { s with isects := rest }
      removeCrossedD vs cv fuel s'

/-- One iteration of `restore_delaunay_triangulation_constrained` (`constrained_triangulation.rs:915-943`). -/
def restoreStepCD (vs : List (Vtx F)) (ce : Edge) (d : EdgeData) (s : RS) : D RS :=
  if d.edge.undirEq ce then pure s
  else do
    let q ← liftD (d.toQuad s.ts)
    let sw ← liftD (shouldSwapC vs q)
    if sw && decide ((d.f, d.t) ∉ s.hist) then do
      let w ← swapQuadD s.ts s.v2t d q
      pure ⟨w.ts, w.v2t, s.diags.map (·.upd w.ttl w.tfr d.f d.t) ++ [⟨d.f, d.t, ⟨q.q3, q.q4⟩⟩], (d.f, d.t) :: s.hist⟩
    else pure s

/-- `restore_delaunay_triangulation_constrained` (`constrained_triangulation.rs:902-945`). -/
def restoreCD (vs : List (Vtx F)) (ce : Edge) : Nat → RS → D RS
  | 0, s => match s.diags with
    | [] => pure s
    | _ :: _ => liftD .diverge
  | fuel + 1, s => match s.diags with
    | [] => pure s
    | d :: rest => do
      let s' ← restoreStepCD vs ce d { s with diags := rest }
      restoreCD vs ce fuel s'

/-- Insertion of one effective constraint (`constrained_triangulation.rs:321-358`). -/
def insertEdgeD (vs : List (Vtx F)) (fuel : Nat) (ce : Edge) (s : AC) : D AC := do
  let a ← liftD (getI vs ce.src)
  let b ← liftD (getI vs ce.dst)
  let isects ← liftD (registerEdges vs s.ts ce (a, b) s.v2t)
  match isects with
  | [] => pure s
  | _ :: _ => do
    let rc ← removeCrossedD vs (a, b) fuel ⟨s.ts, s.v2t, isects, [], 0⟩
    let rs ← restoreCD vs ce fuel ⟨rc.ts, rc.v2t, rc.diags, []⟩
    pure ⟨rs.ts, rs.v2t, s.S⟩

/-- One iteration of `apply_constraints` after the step was advanced (`constrained_triangulation.rs:304-359`). -/
def applyOneD (vs : List (Vtx F)) (fuel : Nat) (merge : List Nat) (e : Edge) (s : AC) : D AC := do
  let a ← liftD (getI merge e.src)
  let b ← liftD (getI merge e.dst)
  if a = b then pure s
  else if (⟨a, b⟩ : Edge) ∈ s.S then pure s
  else insertEdgeD vs fuel ⟨a, b⟩ { s with S := ⟨a, b⟩ :: s.S }

/-- Loop of `apply_constraints` (`constrained_triangulation.rs:281-359`). -/
def applyLoopD (vs : List (Vtx F)) (fuel : Nat) (merge : List Nat) : List Edge → AC → D AC
  | [], s => pure s
  | e :: es, s => do
    let stop ← advanceStep
    if stop then pure s
    else do
      let s' ← applyOneD vs fuel merge e s
      applyLoopD vs fuel merge es s'

/-- `apply_constraints` (`constrained_triangulation.rs:249-361`). -/
def applyConstraintsD (vs : List (Vtx F)) (fuel : Nat) (ts : List Tri) (es : List Edge) (merge : List Nat) : D AC := do
  let v2t ← liftD (buildV2t ts 0 (List.replicate vs.length 0))
  applyLoopD vs fuel merge es ⟨ts, v2t, []⟩

/-- State of the domain filter with `filtered_debug_triangles` (`constrained_triangulation.rs:182-183`). -/
structure FloodD where
  visited : List Bool
  out : List Out
  dbg : List Tri

/-- `filtered_debug_triangles.push(t.clone())` beside `indices.push(t.verts)` (`constrained_triangulation.rs:201-205,224-228`). -/
def emitD (t : Tri) (dbg : List Tri) : List Tri := if t.isFinite then dbg ++ [t] else dbg

/-- The exploration loop of `cdt_filter_triangles` (`constrained_triangulation.rs:214-238`). -/
def exploreD (S : List Edge) (ts : List Tri) : Nat → List Nat → FloodD → Res FloodD
  | _, [], s => .ok s
  | 0, _ :: _, _ => .diverge
  | fuel + 1, n :: st, s =>
    if n = NONE then exploreD S ts fuel st s
    else do
      let vis ← getI s.visited n
      if vis then exploreD S ts fuel st s
      else do
        let t ← getI ts n
        exploreD S ts fuel (pushUnconstrained S t st) ⟨s.visited.set n true, emit t s.out, emitD t s.dbg⟩

/-- The outer loop of `cdt_filter_triangles` (`constrained_triangulation.rs:186-241`). -/
def floodLoopD (S : List Edge) (ts : List Tri) (fuel : Nat) : List Tri → Nat → FloodD → Res FloodD
  | [], _, s => .ok s
  | t :: rest, idx, s => do
    let vis ← getI s.visited idx
    if !vis && hasConstrained S t then do
      let s' ← exploreD S ts fuel (pushUnconstrained S t []) ⟨s.visited.set idx true, emit t s.out, emitD t s.dbg⟩
      floodLoopD S ts fuel rest (idx + 1) s'
    else floodLoopD S ts fuel rest (idx + 1) s

/-- `cdt_filter_triangles` (`constrained_triangulation.rs:168-247`). -/
def cdtFilterD (fuel : Nat) (ts : List Tri) (S : List Edge) : D (List Out) := do
  let s ← liftD (floodLoopD S ts fuel ts 0 ⟨List.replicate ts.length false, [], []⟩)
  pushSnap .filterTriangles s.dbg [] []
  pure s.out

/-- `constrained_triangulation_from_2d_vertices` (`constrained_triangulation.rs:106-164`). -/
def constrained2dD (fuel : Nat) (bins : Nat → Nat) (vs : List (Vtx F)) (es : List Edge) (cfg : DebugCfg) : Res (List Out) × DCtx :=
  if vs.length < 3 then (.ok [], .new {})
  else (do
    let nv := normalizeVerts vs
    let s ← wrapAndTriangulateD fuel (bins vs.length) nv (some ((List.range vs.length).map toId))
    pushSnap .beforeConstraints s.ts [] []
    let r ← applyConstraintsD nv fuel s.ts es (s.merge.getD [])
    pushSnap .afterConstraints r.ts [] []
    cdtFilterD fuel r.ts r.S : D (List Out)) (.new cfg)

end

end CDT

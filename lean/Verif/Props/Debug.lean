import Verif.Props.Run
import Verif.Props.Tiling
import Verif.Model.Debug

/-! # C37, C38: the debug context -/

set_option linter.unusedSectionVars false
set_option linter.unusedSimpArgs false
set_option linter.unusedVariables false

namespace CDT
open Plane

/-! ## Specification -/

namespace Spec

/-- Does a configuration ask for a snapshot of this phase? -/
def phaseWanted (r : PhaseRecord) (p : Phase) : Prop :=
  r = .all ∨ r = .only p ∨ ∃ ps, r = .inAny ps ∧ p ∈ ps

/-- Does a configuration ask for a snapshot at this step? -/
def stepWanted (r : StepsRecord) (s : Nat) : Prop :=
  r = .all ∨ (∃ a, r = .starting a ∧ a ≤ s) ∨ (∃ b, r = .until b ∧ s ≤ b) ∨ ∃ a b, r = .between a b ∧ a ≤ s ∧ s ≤ b

/-- Does a configuration ask for this snapshot? -/
def Wanted (cfg : DebugCfg) (s : Snap) : Prop := phaseWanted cfg.phases s.phase ∧ stepWanted cfg.steps s.step

/-- The same configuration, recording everything. -/
def recordAll (cfg : DebugCfg) : DebugCfg := { cfg with phases := .all, steps := .all }

end Spec

theorem recordsPhase_iff (r : PhaseRecord) (p : Phase) : recordsPhase r p = true ↔ Spec.phaseWanted r p := by
  unfold Spec.phaseWanted
  cases r <;> simp [recordsPhase, eq_comm]

theorem recordsStep_iff (r : StepsRecord) (s : Nat) : recordsStep r s = true ↔ Spec.stepWanted r s := by
  unfold Spec.stepWanted
  cases r <;> simp [recordsStep]

/-! ## Computations that do not depend on what is recorded -/

section
variable {α β : Type}

theorem D.bind_def (x : D α) (f : α → D β) (c : DCtx) : (x >>= f) c = match x c with
    | (.ok a, c') => f a c'
    | (.err e, c') => (.err e, c')
    | (.panic, c') => (.panic, c')
    | (.diverge, c') => (.diverge, c') := rfl

/-- The outcome is `y`, the configuration and the step do not change. -/
def Quiet (x : D α) (y : Res α) : Prop := ∀ c, (x c).1 = y ∧ (x c).2.cfg = c.cfg ∧ (x c).2.step = c.step

theorem Quiet.lift (y : Res α) : Quiet (liftD y) y := fun c => ⟨rfl, rfl, rfl⟩
theorem Quiet.pure (a : α) : Quiet (Pure.pure a : D α) (.ok a) := fun c => ⟨rfl, rfl, rfl⟩

theorem Quiet.bind {x : D α} {y : Res α} {f : α → D β} {g : α → Res β} (h : Quiet x y) (hf : ∀ a, Quiet (f a) (g a)) :
    Quiet (x >>= f) (y >>= g) := by
  intro c
  obtain ⟨h1, h2, h3⟩ := h c
  rw [D.bind_def]
  rcases hx : x c with ⟨r, c'⟩
  rw [hx] at h1 h2 h3
  simp only at h1 h2 h3
  subst h1
  cases r with
  | ok a =>
    obtain ⟨g1, g2, g3⟩ := hf a c'
    exact ⟨g1, g2.trans h2, g3.trans h3⟩
  | err e => exact ⟨rfl, h2, h3⟩
  | panic => exact ⟨rfl, h2, h3⟩
  | diverge => exact ⟨rfl, h2, h3⟩

/-- Recording: steps of the snapshots do not decrease, and are at most the current step. -/
def StepsSorted (c : DCtx) : Prop := c.snaps.Pairwise (fun a b => a.step ≤ b.step) ∧ ∀ s ∈ c.snaps, s.step ≤ c.step

open Classical in
/-- `c'` records everything and `c` what its configuration asks for. -/
def Recorded (c c' : DCtx) : Prop :=
  c'.cfg = Spec.recordAll c.cfg ∧ c'.step = c.step ∧ c.snaps = c'.snaps.filter fun s => decide (Spec.Wanted c.cfg s)

/-- Computations for which recording has no influence. -/
structure Blind (x : D α) : Prop where
  cfg : ∀ c, (x c).2.cfg = c.cfg
  sorted : ∀ c, StepsSorted c → StepsSorted (x c).2
  par : ∀ c c', Recorded c c' → (x c).1 = (x c').1 ∧ Recorded (x c).2 (x c').2

theorem Blind.lift (y : Res α) : Blind (liftD y) := ⟨fun _ => rfl, fun _ h => h, fun _ _ h => ⟨rfl, h⟩⟩
theorem Blind.pure (a : α) : Blind (Pure.pure a : D α) := ⟨fun _ => rfl, fun _ h => h, fun _ _ h => ⟨rfl, h⟩⟩

theorem Blind.bind {x : D α} {f : α → D β} (h : Blind x) (hf : ∀ a, Blind (f a)) : Blind (x >>= f) := by
  constructor
  · intro c
    have h1 := h.cfg c
    rw [D.bind_def]
    rcases hx : x c with ⟨r, c'⟩
    rw [hx] at h1
    cases r with
    | ok a => exact ((hf a).cfg c').trans h1
    | err e => exact h1
    | panic => exact h1
    | diverge => exact h1
  · intro c hc
    have h1 := h.sorted c hc
    rw [D.bind_def]
    rcases hx : x c with ⟨r, c'⟩
    rw [hx] at h1
    cases r with
    | ok a => exact (hf a).sorted c' h1
    | err e => exact h1
    | panic => exact h1
    | diverge => exact h1
  · intro c c' hc
    have h1 := h.par c c' hc
    rw [D.bind_def, D.bind_def]
    rcases hx : x c with ⟨r, d⟩
    rcases hx' : x c' with ⟨r', d'⟩
    rw [hx, hx'] at h1
    obtain ⟨h1, h2⟩ := h1
    simp only at h1 h2
    subst h1
    cases r with
    | ok a => exact (hf a).par d d' h2
    | err e => exact ⟨rfl, h2⟩
    | panic => exact ⟨rfl, h2⟩
    | diverge => exact ⟨rfl, h2⟩

end

section
variable [IdCfg]

theorem Quiet.event (p : Phase) (e : Event) (ts : List Tri) (ids nbs : List Nat) : Quiet (pushEvent p e ts ids nbs) (.ok ()) := by
  intro c
  unfold pushEvent
  split
  · exact ⟨rfl, rfl, rfl⟩
  · split <;> exact ⟨rfl, rfl, rfl⟩

theorem Quiet.snap (p : Phase) (ts : List Tri) (ids nbs : List Nat) : Quiet (pushSnap p ts ids nbs) (.ok ()) := Quiet.event _ _ _ _ _

open Classical in
theorem Blind.event (p : Phase) (e : Event) (ts : List Tri) (ids nbs : List Nat) : Blind (pushEvent p e ts ids nbs) := by
  constructor
  · intro c
    unfold pushEvent
    split
    · rfl
    · split <;> rfl
  · intro c ⟨h1, h2⟩
    unfold pushEvent
    split
    · exact ⟨h1, h2⟩
    · split
      · refine ⟨?_, ?_⟩
        · rw [List.pairwise_append]
          refine ⟨h1, by simp, ?_⟩
          intro a ha b hb
          simp only [List.mem_singleton] at hb
          subst hb
          exact h2 a ha
        · intro s hs
          rcases List.mem_append.1 hs with hs | hs
          · exact h2 s hs
          · simp only [List.mem_singleton] at hs
            subst hs
            exact le_refl _
      · exact ⟨h1, h2⟩
  · intro c c' ⟨h1, h2, h3⟩
    have e' : pushEvent p e ts ids nbs c' =
        (.ok (), { c' with snaps := c'.snaps ++ [⟨c'.step, p, e, ids ++ nbs.filter (fun n => decide (n ≠ NONE)), ts⟩] }) := by
      unfold pushEvent
      rw [h1]
      rfl
    rw [e', h2]
    have key : ∀ s : Snap, s.phase = p → s.step = c.step →
        (Spec.Wanted c.cfg s ↔ (recordsPhase c.cfg.phases p = true ∧ recordsStep c.cfg.steps c.step = true)) := by
      intro s hs hs'
      rw [recordsPhase_iff, recordsStep_iff, ← hs, ← hs']
      rfl
    by_cases hp : recordsPhase c.cfg.phases p = true
    · by_cases hq : recordsStep c.cfg.steps c.step = true
      · have e1 : pushEvent p e ts ids nbs c =
            (.ok (), { c with snaps := c.snaps ++ [⟨c.step, p, e, ids ++ nbs.filter (fun n => decide (n ≠ NONE)), ts⟩] }) := by
          unfold pushEvent; simp [hp, hq]
        rw [e1]
        refine ⟨rfl, h1, rfl, ?_⟩
        simp only [List.filter_append, ← h3]
        rw [List.filter_cons_of_pos (by rw [decide_eq_true_eq, key _ rfl rfl]; exact ⟨hp, hq⟩)]
        rfl
      · have e1 : pushEvent p e ts ids nbs c = (.ok (), c) := by
          unfold pushEvent; simp [hp, hq]
        rw [e1]
        refine ⟨rfl, h1, rfl, ?_⟩
        simp only [List.filter_append, ← h3]
        rw [List.filter_cons_of_neg (by rw [decide_eq_true_eq, key _ rfl rfl]; exact fun h => hq h.2)]
        simp
    · have e1 : pushEvent p e ts ids nbs c = (.ok (), c) := by
        unfold pushEvent; simp [hp]
      rw [e1]
      refine ⟨rfl, h1, rfl, ?_⟩
      simp only [List.filter_append, ← h3]
      rw [List.filter_cons_of_neg (by rw [decide_eq_true_eq, key _ rfl rfl]; exact fun h => hp h.1)]
      simp

theorem Blind.snap (p : Phase) (ts : List Tri) (ids nbs : List Nat) : Blind (pushSnap p ts ids nbs) := Blind.event _ _ _ _ _

theorem Blind.advance : Blind advanceStep := by
  constructor
  · intro c; rfl
  · rintro c ⟨h1, h2⟩
    exact ⟨h1, fun s hs => (h2 s hs).trans (Nat.le_succ _)⟩
  · rintro c c' ⟨h1, h2, h3⟩
    refine ⟨?_, ?_⟩
    · unfold advanceStep
      rw [h1, h2]
      rfl
    · exact ⟨h1, by show c'.step + 1 = c.step + 1; rw [h2], h3⟩

theorem Res.bind_ok_self {α : Type} (y : Res α) : (y >>= fun r => Res.ok r) = y := by cases y <;> rfl

/-- Proof of `Blind` by following the structure of the code. -/
macro "blind" : tactic => `(tactic|
  repeat' first
    | exact Blind.lift _
    | exact Blind.pure _
    | exact Blind.event _ _ _ _ _
    | exact Blind.snap _ _ _ _
    | exact Blind.advance
    | assumption
    | refine Blind.bind ?_ fun _ => ?_
    | split)

variable {F : Type} [FloatOps F]

theorem split3D_quiet (ts : List Tri) (t1 p : Nat) : Quiet (split3D ts t1 p) (split3 ts t1 p) := by
  have := Quiet.bind (Quiet.lift (split3 ts t1 p)) fun r =>
    Quiet.bind (Quiet.event .splitTriangle (.split p) r.1 [t1, nextId ts, nextId ts + 1] []) fun _ => Quiet.pure r
  simp only [Res.ok_bind, Res.bind_ok_self] at this
  exact this

theorem split4D_quiet (ts : List Tri) (t1 : Nat) (ei : Fin 3) (e : Edge) (p : Nat) :
    Quiet (split4D ts t1 ei e p) (split4 ts t1 ei e p) := by
  have := Quiet.bind (Quiet.lift (getI ts t1)) fun a => Quiet.bind (Quiet.lift (split4 ts t1 ei e p)) fun r =>
    Quiet.bind (Quiet.event .splitQuad (.split p) r.1 [t1, a.n ei, nextId ts, nextId ts + 1] []) fun _ => Quiet.pure r
  simp only [Res.ok_bind, Res.bind_ok_self] at this
  have e1 : (getI ts t1 >>= fun _ => split4 ts t1 ei e p) = split4 ts t1 ei e p := by
    unfold split4
    cases h : getI ts t1 <;> rfl
  rw [e1] at this
  exact this

theorem checkAndSwapD_quiet (vs : List (Vtx F)) (p : Nat) (ts : List Tri) (a b : Nat) (st : List (Nat × Nat)) :
    Quiet (checkAndSwapD vs p ts a b st) (checkAndSwap vs p ts a b st) := by
  unfold checkAndSwapD checkAndSwap
  refine Quiet.bind (Quiet.lift _) fun t2 => Quiet.bind (Quiet.lift _) fun sw => ?_
  split
  · refine Quiet.bind (Quiet.lift _) fun t1 => Quiet.bind (Quiet.lift _) fun ts1 => Quiet.bind (Quiet.lift _) fun ts2 => ?_
    exact Quiet.bind (Quiet.snap _ _ _ _) fun _ => Quiet.pure _
  · exact Quiet.pure _

theorem restoreD_quiet (vs : List (Vtx F)) (p : Nat) : ∀ (fuel : Nat) (ts : List Tri) (st : List (Nat × Nat)),
    Quiet (restoreD vs p fuel ts st) (restore vs p fuel ts st)
  | 0, ts, [] => Quiet.pure _
  | _ + 1, ts, [] => Quiet.pure _
  | 0, ts, _ :: _ => Quiet.lift _
  | fuel + 1, ts, (a, b) :: st =>
    Quiet.bind (checkAndSwapD_quiet vs p ts a b st) fun r => restoreD_quiet vs p fuel r.1 r.2

theorem finishInsertD_quiet (vs : List (Vtx F)) (fuel vid : Nat) (m : Option (List Nat)) (r : List Tri × List (Nat × Nat)) :
    Quiet (finishInsertD vs fuel vid m r) (finishInsert vs fuel vid m r) :=
  Quiet.bind (restoreD_quiet _ _ _ _ _) fun _ => Quiet.bind (Quiet.lift _) fun _ => Quiet.pure _

theorem insertOnEdgeD_quiet (vs : List (Vtx F)) (fuel : Nat) (s : DT) (vid : Nat) (p : Vtx F) (t : Nat) (ei : Fin 3) (e : Edge) :
    Quiet (insertOnEdgeD vs fuel s vid p t ei e) (insertOnEdge vs fuel s vid p t ei e) := by
  have := Quiet.bind (Quiet.lift (if isFin e.dst then do
      let b ← getI vs e.dst
      pure (tooClose b p)
    else pure false : Res Bool)) (g := fun cd => if cd then .ok { s with merge := setMerge s.merge vid e.dst }
      else split4 s.ts t ei e vid >>= fun r => finishInsert vs fuel vid s.merge r)
      (f := fun cd => if cd then pure { s with merge := setMerge s.merge vid e.dst }
      else split4D s.ts t ei e vid >>= fun r => finishInsertD vs fuel vid s.merge r) (fun cd => by
    split
    · exact Quiet.pure _
    · exact Quiet.bind (split4D_quiet _ _ _ _ _) fun r => finishInsertD_quiet _ _ _ _ _)
  have e1 : insertOnEdge vs fuel s vid p t ei e = ((if isFin e.dst then do
      let b ← getI vs e.dst
      pure (tooClose b p)
    else pure false : Res Bool) >>= fun cd => if cd then .ok { s with merge := setMerge s.merge vid e.dst }
      else split4 s.ts t ei e vid >>= fun r => finishInsert vs fuel vid s.merge r) := by
    unfold insertOnEdge
    split
    · cases getI vs e.dst <;> rfl
    · rfl
  rw [e1]
  exact this

theorem insertVertexD_quiet (vs : List (Vtx F)) (fuel : Nat) (s : DT) (vid : Nat) :
    Quiet (insertVertexD vs fuel s vid) (insertVertex vs fuel s vid) := by
  refine Quiet.bind (Quiet.lift _) fun p => Quiet.bind (Quiet.lift _) fun pl => ?_
  cases pl with
  | notFound => exact Quiet.lift _
  | inside t => exact Quiet.bind (split3D_quiet _ _ _) fun r => finishInsertD_quiet _ _ _ _ _
  | onEdge t ei e =>
    dsimp only
    have := Quiet.bind (Quiet.lift (if isFin e.src then do
        let a ← getI vs e.src
        pure (tooClose a p)
      else pure false : Res Bool)) (g := fun cs => if cs then .ok { s with merge := setMerge s.merge vid e.src }
        else insertOnEdge vs fuel s vid p t ei e)
        (f := fun cs => if cs then pure { s with merge := setMerge s.merge vid e.src }
        else insertOnEdgeD vs fuel s vid p t ei e) (fun cs => by
      split
      · exact Quiet.pure _
      · exact insertOnEdgeD_quiet _ _ _ _ _ _ _ _)
    convert this using 1
    split
    · cases getI vs e.src <;> rfl
    · rfl

theorem swapQuadD_quiet (ts : List Tri) (v2t : List Nat) (d : EdgeData) (q : Quad) :
    Quiet (swapQuadD ts v2t d q) (swapQuad ts v2t d q) := by
  have := Quiet.bind (Quiet.lift (swapQuad ts v2t d q)) fun w =>
    Quiet.bind (Quiet.snap .constrainedSwap w.ts [d.f, d.t] [w.ttl, w.tfr]) fun _ => Quiet.pure w
  simp only [Res.ok_bind, Res.bind_ok_self] at this
  exact this

theorem removeStepD_quiet (vs : List (Vtx F)) (cv : EV F) (d : EdgeData) (s : RC) :
    Quiet (removeStepD vs cv d s) (removeStep vs cv d s) := by
  unfold removeStepD removeStep
  split
  · exact Quiet.lift _
  · refine Quiet.bind (Quiet.lift _) fun q => Quiet.bind (Quiet.lift _) fun r => ?_
    split
    · exact Quiet.pure _
    · refine Quiet.bind (swapQuadD_quiet _ _ _ _) fun w => Quiet.bind (Quiet.lift _) fun x => ?_
      split <;> exact Quiet.pure _

theorem removeCrossedD_quiet (vs : List (Vtx F)) (cv : EV F) : ∀ (fuel : Nat) (s : RC),
    Quiet (removeCrossedD vs cv fuel s) (removeCrossed vs cv fuel s)
  | 0, s => by
    unfold removeCrossedD removeCrossed
    cases s.isects
    · exact Quiet.pure _
    · exact Quiet.lift _
  | fuel + 1, s => by
    unfold removeCrossedD removeCrossed
    cases s.isects
    · exact Quiet.pure _
    · exact Quiet.bind (removeStepD_quiet _ _ _ _) fun s' => removeCrossedD_quiet vs cv fuel s'

theorem restoreStepCD_quiet (vs : List (Vtx F)) (ce : Edge) (d : EdgeData) (s : RS) :
    Quiet (restoreStepCD vs ce d s) (restoreStepC vs ce d s) := by
  unfold restoreStepCD restoreStepC
  split
  · exact Quiet.pure _
  · refine Quiet.bind (Quiet.lift _) fun q => Quiet.bind (Quiet.lift _) fun r => ?_
    split
    · exact Quiet.bind (swapQuadD_quiet _ _ _ _) fun w => Quiet.pure _
    · exact Quiet.pure _

theorem restoreCD_quiet (vs : List (Vtx F)) (ce : Edge) : ∀ (fuel : Nat) (s : RS),
    Quiet (restoreCD vs ce fuel s) (restoreC vs ce fuel s)
  | 0, s => by
    unfold restoreCD restoreC
    cases s.diags
    · exact Quiet.pure _
    · exact Quiet.lift _
  | fuel + 1, s => by
    unfold restoreCD restoreC
    cases s.diags
    · exact Quiet.pure _
    · exact Quiet.bind (restoreStepCD_quiet _ _ _ _) fun s' => restoreCD_quiet vs ce fuel s'

theorem applyOneD_quiet (vs : List (Vtx F)) (fuel : Nat) (merge : List Nat) (e : Edge) (s : AC) :
    Quiet (applyOneD vs fuel merge e s) (applyOne vs fuel merge e s) := by
  unfold applyOneD applyOne
  refine Quiet.bind (Quiet.lift _) fun a => Quiet.bind (Quiet.lift _) fun b => ?_
  split
  · exact Quiet.pure _
  split
  · exact Quiet.pure _
  unfold insertEdgeD insertEdge
  refine Quiet.bind (Quiet.lift _) fun a => Quiet.bind (Quiet.lift _) fun b => Quiet.bind (Quiet.lift _) fun is => ?_
  cases is with
  | nil => exact Quiet.pure _
  | cons d is =>
    exact Quiet.bind (removeCrossedD_quiet _ _ _ _) fun _ => Quiet.bind (restoreCD_quiet _ _ _ _) fun _ => Quiet.pure _

/-! ## The loops, with and without a forced end -/

/-- Number of iterations that a loop performs when it starts at step `s`. -/
def allowed (f : Option Nat) (s n : Nat) : Nat :=
  match f with
  | none => n
  | some k => min n (k - 1 - s)

theorem insertAllD_eq (vs : List (Vtx F)) (fuel : Nat) : ∀ (l : List Nat) (s : DT) (c : DCtx),
    (insertAllD vs fuel l s c).1 = insertAll vs fuel (l.take (allowed c.cfg.forceEnd c.step l.length)) s ∧
    (insertAllD vs fuel l s c).2.cfg = c.cfg ∧
    ((insertAllD vs fuel l s c).1 = .ok (match (insertAllD vs fuel l s c).1 with | .ok s' => s' | _ => s) →
      allowed c.cfg.forceEnd (insertAllD vs fuel l s c).2.step = allowed c.cfg.forceEnd (c.step + l.length))
  | [], s, c => by simp only [List.take_nil]; exact ⟨rfl, rfl, fun _ => rfl⟩
  | v :: l, s, c => by
    have e : insertAllD vs fuel (v :: l) s = (advanceStep >>= fun stop => if stop then pure s else
        (insertVertexD vs fuel s v >>= fun s' => insertAllD vs fuel l s')) := rfl
    rw [e, D.bind_def]
    by_cases hstop : forcedEnd c.cfg.forceEnd (c.step + 1) = true
    · have hadv : advanceStep c = (.ok true, { c with step := c.step + 1 }) := by
        unfold advanceStep; rw [hstop]
      rw [hadv]
      cases hf : c.cfg.forceEnd with
      | none => rw [hf] at hstop; simp [forcedEnd] at hstop
      | some k =>
        rw [hf] at hstop
        simp only [forcedEnd, ge_iff_le, decide_eq_true_eq] at hstop
        have ha : allowed (some k) c.step (v :: l).length = 0 := by simp only [allowed]; omega
        rw [ha]
        refine ⟨rfl, rfl, fun _ => ?_⟩
        funext n
        simp only [allowed, List.length_cons]
        show min n (k - 1 - (c.step + 1)) = _
        omega
    · have hadv : advanceStep c = (.ok false, { c with step := c.step + 1 }) := by
        unfold advanceStep; simp only [Bool.not_eq_true] at hstop; rw [hstop]
      rw [hadv]
      simp only [Bool.false_eq_true, if_false]
      rw [D.bind_def]
      obtain ⟨q1, q2, q3⟩ := insertVertexD_quiet vs fuel s v { c with step := c.step + 1 }
      rcases hx : insertVertexD vs fuel s v { c with step := c.step + 1 } with ⟨r, c'⟩
      rw [hx] at q1 q2 q3
      simp only at q1 q2 q3
      have ha : allowed c.cfg.forceEnd c.step (v :: l).length = allowed c.cfg.forceEnd (c.step + 1) l.length + 1 := by
        cases hf : c.cfg.forceEnd with
        | none => simp [allowed]
        | some k =>
          rw [hf] at hstop
          simp only [forcedEnd, ge_iff_le, decide_eq_true_eq, not_le] at hstop
          simp only [allowed, List.length_cons]; omega
      rw [ha, List.take_succ_cons]
      have ei : insertAll vs fuel (v :: l.take (allowed c.cfg.forceEnd (c.step + 1) l.length)) s =
          (insertVertex vs fuel s v >>= fun s' => insertAll vs fuel (l.take (allowed c.cfg.forceEnd (c.step + 1) l.length)) s') := rfl
      rw [ei, ← q1]
      cases r with
      | ok s' =>
        obtain ⟨h1, h2, h3⟩ := insertAllD_eq vs fuel l s' c'
        rw [q2, q3] at h1 h3
        refine ⟨h1, h2.trans q2, ?_⟩
        intro h
        have h' : (insertAllD vs fuel l s' c').1 = .ok (match (insertAllD vs fuel l s' c').1 with | .ok s'' => s'' | _ => s') := by
          simp only at h
          cases h0 : (insertAllD vs fuel l s' c').1 <;> rw [h0] at h <;> simp at h ⊢
        rw [show (c.step + (v :: l).length) = c.step + 1 + l.length by simp; omega]
        exact h3 h'
      | err e => exact ⟨rfl, q2, fun h => by simp at h⟩
      | panic => exact ⟨rfl, q2, fun h => by simp at h⟩
      | diverge => exact ⟨rfl, q2, fun h => by simp at h⟩

theorem applyLoopD_eq (vs : List (Vtx F)) (fuel : Nat) (merge : List Nat) : ∀ (l : List Edge) (s : AC) (c : DCtx),
    (applyLoopD vs fuel merge l s c).1 = applyLoop vs fuel merge (l.take (allowed c.cfg.forceEnd c.step l.length)) s ∧
    (applyLoopD vs fuel merge l s c).2.cfg = c.cfg
  | [], s, c => by simp only [List.take_nil]; exact ⟨rfl, rfl⟩
  | v :: l, s, c => by
    have e : applyLoopD vs fuel merge (v :: l) s = (advanceStep >>= fun stop => if stop then pure s else
        (applyOneD vs fuel merge v s >>= fun s' => applyLoopD vs fuel merge l s')) := rfl
    rw [e, D.bind_def]
    by_cases hstop : forcedEnd c.cfg.forceEnd (c.step + 1) = true
    · have hadv : advanceStep c = (.ok true, { c with step := c.step + 1 }) := by
        unfold advanceStep; rw [hstop]
      rw [hadv]
      cases hf : c.cfg.forceEnd with
      | none => rw [hf] at hstop; simp [forcedEnd] at hstop
      | some k =>
        rw [hf] at hstop
        simp only [forcedEnd, ge_iff_le, decide_eq_true_eq] at hstop
        have ha : allowed (some k) c.step (v :: l).length = 0 := by simp only [allowed]; omega
        rw [ha]
        exact ⟨rfl, rfl⟩
    · have hadv : advanceStep c = (.ok false, { c with step := c.step + 1 }) := by
        unfold advanceStep; simp only [Bool.not_eq_true] at hstop; rw [hstop]
      rw [hadv]
      simp only [Bool.false_eq_true, if_false]
      rw [D.bind_def]
      obtain ⟨q1, q2, q3⟩ := applyOneD_quiet vs fuel merge v s { c with step := c.step + 1 }
      rcases hx : applyOneD vs fuel merge v s { c with step := c.step + 1 } with ⟨r, c'⟩
      rw [hx] at q1 q2 q3
      simp only at q1 q2 q3
      have ha : allowed c.cfg.forceEnd c.step (v :: l).length = allowed c.cfg.forceEnd (c.step + 1) l.length + 1 := by
        cases hf : c.cfg.forceEnd with
        | none => simp [allowed]
        | some k =>
          rw [hf] at hstop
          simp only [forcedEnd, ge_iff_le, decide_eq_true_eq, not_le] at hstop
          simp only [allowed, List.length_cons]; omega
      rw [ha, List.take_succ_cons]
      have ei : applyLoop vs fuel merge (v :: l.take (allowed c.cfg.forceEnd (c.step + 1) l.length)) s =
          (applyOne vs fuel merge v s >>= fun s' => applyLoop vs fuel merge (l.take (allowed c.cfg.forceEnd (c.step + 1) l.length)) s') := rfl
      rw [ei, ← q1]
      cases r with
      | ok s' =>
        obtain ⟨h1, h2⟩ := applyLoopD_eq vs fuel merge l s' c'
        rw [q2, q3] at h1
        exact ⟨h1, h2.trans q2⟩
      | err e => exact ⟨rfl, q2⟩
      | panic => exact ⟨rfl, q2⟩
      | diverge => exact ⟨rfl, q2⟩

/-- The filter: the recorded triangles are beside the output, which is the same as without recording. -/
theorem exploreD_eq (S : List Edge) (ts : List Tri) : ∀ (fuel : Nat) (st : List Nat) (s : FloodD), s.dbg.map Tri.verts = s.out →
    (∀ r, exploreD S ts fuel st s = .ok r → explore S ts fuel st ⟨s.visited, s.out⟩ = .ok ⟨r.visited, r.out⟩ ∧ r.dbg.map Tri.verts = r.out) ∧
    (∀ e, exploreD S ts fuel st s = .err e → explore S ts fuel st ⟨s.visited, s.out⟩ = .err e) ∧
    (exploreD S ts fuel st s = .panic → explore S ts fuel st ⟨s.visited, s.out⟩ = .panic) ∧
    (exploreD S ts fuel st s = .diverge → explore S ts fuel st ⟨s.visited, s.out⟩ = .diverge)
  | 0, [], s, h => by simp [exploreD, explore, h]
  | _ + 1, [], s, h => by simp [exploreD, explore, h]
  | 0, _ :: _, s, h => by simp [exploreD, explore]
  | fuel + 1, n :: st, s, h => by
    unfold exploreD explore
    split
    · exact exploreD_eq S ts fuel st s h
    · cases getI s.visited n with
      | ok vis =>
        simp only [Res.ok_bind]
        split
        · exact exploreD_eq S ts fuel st s h
        · cases getI ts n with
          | ok t =>
            simp only [Res.ok_bind]
            refine exploreD_eq S ts fuel _ ⟨s.visited.set n true, emit t s.out, emitD t s.dbg⟩ ?_
            simp only [emit, emitD]
            split <;> simp [h]
          | err e => simp
          | panic => simp
          | diverge => simp
      | err e => simp
      | panic => simp
      | diverge => simp

theorem floodLoopD_eq (S : List Edge) (ts : List Tri) (fuel : Nat) : ∀ (l : List Tri) (i : Nat) (s : FloodD), s.dbg.map Tri.verts = s.out →
    (∀ r, floodLoopD S ts fuel l i s = .ok r → floodLoop S ts fuel l i ⟨s.visited, s.out⟩ = .ok ⟨r.visited, r.out⟩ ∧ r.dbg.map Tri.verts = r.out) ∧
    (∀ e, floodLoopD S ts fuel l i s = .err e → floodLoop S ts fuel l i ⟨s.visited, s.out⟩ = .err e) ∧
    (floodLoopD S ts fuel l i s = .panic → floodLoop S ts fuel l i ⟨s.visited, s.out⟩ = .panic) ∧
    (floodLoopD S ts fuel l i s = .diverge → floodLoop S ts fuel l i ⟨s.visited, s.out⟩ = .diverge)
  | [], i, s, h => by simp [floodLoopD, floodLoop, h]
  | t :: l, i, s, h => by
    unfold floodLoopD floodLoop
    cases getI s.visited i with
    | ok vis =>
      simp only [Res.ok_bind]
      split
      · have hh : (⟨s.visited.set i true, emit t s.out, emitD t s.dbg⟩ : FloodD).dbg.map Tri.verts =
            (⟨s.visited.set i true, emit t s.out, emitD t s.dbg⟩ : FloodD).out := by
          simp only [emit, emitD]
          split <;> simp [h]
        obtain ⟨h1, h2, h3, h4⟩ := exploreD_eq S ts fuel (pushUnconstrained S t []) _ hh
        cases hx : exploreD S ts fuel (pushUnconstrained S t []) ⟨s.visited.set i true, emit t s.out, emitD t s.dbg⟩ with
        | ok r =>
          obtain ⟨g1, g2⟩ := h1 r hx
          simp only [g1, Res.ok_bind]
          exact floodLoopD_eq S ts fuel l (i + 1) r g2
        | err e => simp [h2 e hx]
        | panic => simp [h3 hx]
        | diverge => simp [h4 hx]
      · exact floodLoopD_eq S ts fuel l (i + 1) s h
    | err e => simp
    | panic => simp
    | diverge => simp

theorem cdtFilterD_quiet (fuel : Nat) (ts : List Tri) (S : List Edge) : Quiet (cdtFilterD fuel ts S) (cdtFilter fuel ts S) := by
  have := Quiet.bind (Quiet.lift (floodLoopD S ts fuel ts 0 ⟨List.replicate ts.length false, [], []⟩)) fun s =>
    Quiet.bind (Quiet.snap .filterTriangles s.dbg [] []) fun _ => Quiet.pure s.out
  simp only [Res.ok_bind] at this
  suffices e : cdtFilter fuel ts S = (floodLoopD S ts fuel ts 0 ⟨List.replicate ts.length false, [], []⟩ >>= fun s => .ok s.out) by
    rw [e]; exact this
  obtain ⟨h1, h2, h3, h4⟩ := floodLoopD_eq S ts fuel ts 0 ⟨List.replicate ts.length false, [], []⟩ rfl
  unfold cdtFilter
  cases hx : floodLoopD S ts fuel ts 0 ⟨List.replicate ts.length false, [], []⟩ with
  | ok r => simp [(h1 r hx).1]
  | err e => simp [h2 e hx]
  | panic => simp [h3 hx]
  | diverge => simp [h4 hx]

/-! ## Blindness of all functions -/

theorem checkAndSwapD_blind (vs : List (Vtx F)) (p : Nat) (ts : List Tri) (a b : Nat) (st : List (Nat × Nat)) :
    Blind (checkAndSwapD vs p ts a b st) := by
  unfold checkAndSwapD; blind

theorem restoreD_blind (vs : List (Vtx F)) (p : Nat) : ∀ (fuel : Nat) (ts : List Tri) (st : List (Nat × Nat)), Blind (restoreD vs p fuel ts st)
  | 0, ts, [] => Blind.pure _
  | _ + 1, ts, [] => Blind.pure _
  | 0, ts, _ :: _ => Blind.lift _
  | fuel + 1, ts, (a, b) :: st => Blind.bind (checkAndSwapD_blind vs p ts a b st) fun r => restoreD_blind vs p fuel r.1 r.2

theorem insertVertexD_blind (vs : List (Vtx F)) (fuel : Nat) (s : DT) (vid : Nat) : Blind (insertVertexD vs fuel s vid) := by
  have hr := restoreD_blind vs vid fuel
  have hf : ∀ m r, Blind (finishInsertD vs fuel vid m r) := by
    intro m r
    unfold finishInsertD
    exact Blind.bind (hr _ _) fun _ => by blind
  have h3 : ∀ t, Blind (split3D s.ts t vid) := by intro t; unfold split3D; blind
  have h4 : ∀ t ei e, Blind (split4D s.ts t ei e vid) := by intro t ei e; unfold split4D; blind
  have he : ∀ p t ei e, Blind (insertOnEdgeD vs fuel s vid p t ei e) := by
    intro p t ei e
    unfold insertOnEdgeD
    refine Blind.bind (Blind.lift _) fun _ => ?_
    split
    · exact Blind.pure _
    · exact Blind.bind (h4 _ _ _) fun _ => hf _ _
  refine Blind.bind (Blind.lift _) fun p => Blind.bind (Blind.lift _) fun pl => ?_
  cases pl with
  | notFound => exact Blind.lift _
  | inside t => exact Blind.bind (h3 _) fun r => hf _ _
  | onEdge t ei e =>
    refine Blind.bind (Blind.lift _) fun cs => ?_
    split
    · exact Blind.pure _
    · exact he _ _ _ _

theorem insertAllD_blind (vs : List (Vtx F)) (fuel : Nat) : ∀ (l : List Nat) (s : DT), Blind (insertAllD vs fuel l s)
  | [], s => Blind.pure _
  | v :: l, s => by
    refine Blind.bind Blind.advance fun stop => ?_
    split
    · exact Blind.pure _
    · exact Blind.bind (insertVertexD_blind vs fuel s v) fun s' => insertAllD_blind vs fuel l s'

theorem wrapD_blind (fuel bins : Nat) (vs : List (Vtx F)) (m : Option (List Nat)) : Blind (wrapAndTriangulateD fuel bins vs m) := by
  refine Blind.bind (Blind.lift _) fun sorted => ?_
  cases sorted with
  | nil => exact Blind.lift _
  | cons first rest =>
    exact Blind.bind (Blind.lift _) fun tid => Blind.bind (Blind.snap _ _ _ _) fun _ => insertAllD_blind _ _ _ _

theorem swapQuadD_blind (ts : List Tri) (v2t : List Nat) (d : EdgeData) (q : Quad) : Blind (swapQuadD ts v2t d q) := by
  unfold swapQuadD; blind

theorem removeStepD_blind (vs : List (Vtx F)) (cv : EV F) (d : EdgeData) (s : RC) : Blind (removeStepD vs cv d s) := by
  have := fun q => swapQuadD_blind s.ts s.v2t d q
  unfold removeStepD
  split
  · exact Blind.lift _
  · refine Blind.bind (Blind.lift _) fun q => Blind.bind (Blind.lift _) fun r => ?_
    split
    · exact Blind.pure _
    · exact Blind.bind (this q) fun w => by blind

theorem removeCrossedD_blind (vs : List (Vtx F)) (cv : EV F) : ∀ (fuel : Nat) (s : RC), Blind (removeCrossedD vs cv fuel s)
  | 0, s => by
    unfold removeCrossedD
    cases s.isects
    · exact Blind.pure _
    · exact Blind.lift _
  | fuel + 1, s => by
    unfold removeCrossedD
    cases s.isects
    · exact Blind.pure _
    · exact Blind.bind (removeStepD_blind _ _ _ _) fun s' => removeCrossedD_blind vs cv fuel s'

theorem restoreCD_blind (vs : List (Vtx F)) (ce : Edge) : ∀ (fuel : Nat) (s : RS), Blind (restoreCD vs ce fuel s)
  | 0, s => by
    unfold restoreCD
    cases s.diags
    · exact Blind.pure _
    · exact Blind.lift _
  | fuel + 1, s => by
    unfold restoreCD
    cases s.diags
    · exact Blind.pure _
    · refine Blind.bind ?_ fun s' => restoreCD_blind vs ce fuel s'
      unfold restoreStepCD
      split
      · exact Blind.pure _
      · refine Blind.bind (Blind.lift _) fun q => Blind.bind (Blind.lift _) fun r => ?_
        split
        · exact Blind.bind (swapQuadD_blind _ _ _ _) fun w => Blind.pure _
        · exact Blind.pure _

theorem applyLoopD_blind (vs : List (Vtx F)) (fuel : Nat) (merge : List Nat) : ∀ (l : List Edge) (s : AC), Blind (applyLoopD vs fuel merge l s)
  | [], s => Blind.pure _
  | v :: l, s => by
    refine Blind.bind Blind.advance fun stop => ?_
    split
    · exact Blind.pure _
    refine Blind.bind ?_ fun s' => applyLoopD_blind vs fuel merge l s'
    unfold applyOneD
    refine Blind.bind (Blind.lift _) fun a => Blind.bind (Blind.lift _) fun b => ?_
    split
    · exact Blind.pure _
    split
    · exact Blind.pure _
    unfold insertEdgeD
    refine Blind.bind (Blind.lift _) fun a => Blind.bind (Blind.lift _) fun b => Blind.bind (Blind.lift _) fun is => ?_
    cases is with
    | nil => exact Blind.pure _
    | cons d is =>
      exact Blind.bind (removeCrossedD_blind _ _ _ _) fun _ => Blind.bind (restoreCD_blind _ _ _ _) fun _ => Blind.pure _

theorem cdtFilterD_blind (fuel : Nat) (ts : List Tri) (S : List Edge) : Blind (cdtFilterD fuel ts S) := by
  unfold cdtFilterD; blind

/-- The body of `triangulation2dD`. -/
theorem dt_blind (fuel : Nat) (bins : Nat → Nat) (vs : List (Vtx F)) : Blind (do
    let s ← wrapAndTriangulateD fuel (bins vs.length) (normalizeVerts vs) none
    pushSnap .filterTriangles (s.ts.filter Tri.isFinite) [] []
    pure (filterSeq s.ts) : D (List Out)) :=
  Blind.bind (wrapD_blind _ _ _ _) fun _ => Blind.bind (Blind.snap _ _ _ _) fun _ => Blind.pure _

theorem cdt_blind (fuel : Nat) (bins : Nat → Nat) (vs : List (Vtx F)) (es : List Edge) : Blind (do
    let nv := normalizeVerts vs
    let s ← wrapAndTriangulateD fuel (bins vs.length) nv (some ((List.range vs.length).map toId))
    pushSnap .beforeConstraints s.ts [] []
    let r ← applyConstraintsD nv fuel s.ts es (s.merge.getD [])
    pushSnap .afterConstraints r.ts [] []
    cdtFilterD fuel r.ts r.S : D (List Out)) :=
  Blind.bind (wrapD_blind _ _ _ _) fun _ => Blind.bind (Blind.snap _ _ _ _) fun _ =>
    Blind.bind (Blind.bind (Blind.lift _) fun _ => applyLoopD_blind _ _ _ _ _) fun _ =>
      Blind.bind (Blind.snap _ _ _ _) fun _ => cdtFilterD_blind _ _ _

theorem recorded_new (cfg : DebugCfg) : Recorded (.new cfg) (.new (Spec.recordAll cfg)) := ⟨rfl, rfl, rfl⟩
theorem sorted_new (cfg : DebugCfg) : StepsSorted (.new cfg) := ⟨List.Pairwise.nil, by simp [DCtx.new]⟩

open Classical in
/-- **C37**, recording: the snapshots are exactly those asked for by the configuration, among the snapshots of the same run that
records everything; their steps do not decrease. -/
theorem C37_recorded (fuel : Nat) (bins : Nat → Nat) (vs : List (Vtx F)) (es : List Edge) (cfg : DebugCfg) :
    (triangulation2dD fuel bins vs cfg).2.snaps =
      (triangulation2dD fuel bins vs (Spec.recordAll cfg)).2.snaps.filter (fun s => decide (Spec.Wanted cfg s)) ∧
    (constrained2dD fuel bins vs es cfg).2.snaps =
      (constrained2dD fuel bins vs es (Spec.recordAll cfg)).2.snaps.filter (fun s => decide (Spec.Wanted cfg s)) ∧
    (triangulation2dD fuel bins vs cfg).2.snaps.Pairwise (fun a b => a.step ≤ b.step) ∧
    (constrained2dD fuel bins vs es cfg).2.snaps.Pairwise (fun a b => a.step ≤ b.step) := by
  unfold triangulation2dD constrained2dD
  split
  · exact ⟨rfl, rfl, List.Pairwise.nil, List.Pairwise.nil⟩
  · have hd := dt_blind fuel bins vs
    have hc := cdt_blind fuel bins vs es
    have h1 := (hd.par _ _ (recorded_new cfg)).2.2.2
    have h2 := (hc.par _ _ (recorded_new cfg)).2.2.2
    rw [hd.cfg] at h1
    rw [hc.cfg] at h2
    exact ⟨h1, h2, (hd.sorted _ (sorted_new cfg)).1, (hc.sorted _ (sorted_new cfg)).1⟩

/-! ## The complete runs -/

theorem lastId_initial (first : Nat) : lastId (initialTriangles first) = .ok 3 := by
  have hB := IdCfg.big
  refine lastId_ok (ts := initialTriangles first) (by simp [initialTriangles]) ?_
  show 4 ≤ NONE
  unfold NONE
  omega

/-- `wrap_and_triangulate_2d_normalized_vertices` on the part of the insertion order allowed by a forced end. -/
theorem wrapD_eq (fuel bins : Nat) (vs : List (Vtx F)) (m : Option (List Nat)) (cfg : DebugCfg) :
    (wrapAndTriangulateD fuel bins vs m (.new cfg)).1 = (do
      let sorted ← binSort bins vs
      match sorted with
      | [] => .panic
      | first :: rest => insertAll vs fuel (rest.take (allowed cfg.forceEnd 0 rest.length)) ⟨initialTriangles first, 3, m⟩) ∧
    (wrapAndTriangulateD fuel bins vs m (.new cfg)).2.cfg = cfg ∧
    ∀ s, (wrapAndTriangulateD fuel bins vs m (.new cfg)).1 = .ok s → ∀ first rest, binSort bins vs = .ok (first :: rest) →
      allowed cfg.forceEnd (wrapAndTriangulateD fuel bins vs m (.new cfg)).2.step = allowed cfg.forceEnd rest.length := by
  have e : wrapAndTriangulateD fuel bins vs m = (liftD (binSort bins vs) >>= fun sorted => match sorted with
    | [] => liftD .panic
    | first :: rest => (liftD (lastId (initialTriangles first)) >>= fun tid =>
        pushSnap .firstVertexInsertion (initialTriangles first) [0] [] >>= fun _ =>
        insertAllD vs fuel rest ⟨initialTriangles first, tid, m⟩)) := rfl
  rw [e, D.bind_def]
  cases hb : binSort bins vs with
  | err e => simp [liftD, DCtx.new]
  | panic => simp [liftD, DCtx.new]
  | diverge => simp [liftD, DCtx.new]
  | ok sorted =>
    cases sorted with
    | nil => simp [liftD, DCtx.new]
    | cons first rest =>
      have hl := lastId_initial first
      simp only [liftD, D.bind_def, Res.ok_bind, hl]
      obtain ⟨q1, q2, q3⟩ := Quiet.snap .firstVertexInsertion (initialTriangles first) [0] [] (.new cfg)
      rcases hx : pushSnap .firstVertexInsertion (initialTriangles first) [0] [] (.new cfg) with ⟨r, c⟩
      rw [hx] at q1 q2 q3
      simp only at q1 q2 q3
      subst q1
      simp only
      obtain ⟨h1, h2, h3⟩ := insertAllD_eq vs fuel rest ⟨initialTriangles first, 3, m⟩ c
      have q2' : c.cfg = cfg := q2
      have q3' : c.step = 0 := q3
      rw [q2', q3'] at h1 h3
      refine ⟨h1, h2.trans q2, ?_⟩
      intro s hs first' rest' hb'
      cases hb'
      rw [Nat.zero_add] at h3
      apply h3
      rw [hs]

/-- `triangulation_from_2d_vertices` on the part of the insertion order allowed by a forced end. -/
theorem dtD_eq (fuel : Nat) (bins : Nat → Nat) (vs : List (Vtx F)) (cfg : DebugCfg) :
    (triangulation2dD fuel bins vs cfg).1 = if vs.length < 3 then .ok [] else (do
      let sorted ← binSort (bins vs.length) (normalizeVerts vs)
      match sorted with
      | [] => .panic
      | first :: rest => do
        let s ← insertAll (normalizeVerts vs) fuel (rest.take (allowed cfg.forceEnd 0 rest.length)) ⟨initialTriangles first, 3, none⟩
        .ok (filterSeq s.ts)) := by
  unfold triangulation2dD
  split
  · rfl
  · obtain ⟨h1, -, -⟩ := wrapD_eq fuel (bins vs.length) (normalizeVerts vs) none cfg
    rw [D.bind_def]
    rcases hx : wrapAndTriangulateD fuel (bins vs.length) (normalizeVerts vs) none (.new cfg) with ⟨r, c⟩
    rw [hx] at h1
    simp only at h1
    cases hb : binSort (bins vs.length) (normalizeVerts vs) with
    | ok sorted =>
      rw [hb, Res.ok_bind] at h1
      rw [Res.ok_bind]
      cases sorted with
      | nil => simp only at h1; subst h1; rfl
      | cons first rest =>
        simp only at h1 ⊢
        rw [← h1]
        cases r with
        | ok s =>
          have q := Quiet.bind (Quiet.snap .filterTriangles (s.ts.filter Tri.isFinite) [] []) fun _ => Quiet.pure (filterSeq s.ts)
          exact (q c).1
        | err e => rfl
        | panic => rfl
        | diverge => rfl
    | err e => rw [hb] at h1; simp only [Res.err_bind] at h1; subst h1; rfl
    | panic => rw [hb] at h1; simp only [Res.panic_bind] at h1; subst h1; rfl
    | diverge => rw [hb] at h1; simp only [Res.diverge_bind] at h1; subst h1; rfl

/-- `constrained_triangulation_from_2d_vertices` on the parts of the insertion order and of the constraints allowed by a forced end. -/
theorem cdtD_eq (fuel : Nat) (bins : Nat → Nat) (vs : List (Vtx F)) (es : List Edge) (cfg : DebugCfg) :
    (constrained2dD fuel bins vs es cfg).1 = if vs.length < 3 then .ok [] else (do
      let sorted ← binSort (bins vs.length) (normalizeVerts vs)
      match sorted with
      | [] => .panic
      | first :: rest => do
        let s ← insertAll (normalizeVerts vs) fuel (rest.take (allowed cfg.forceEnd 0 rest.length))
          ⟨initialTriangles first, 3, some ((List.range vs.length).map toId)⟩
        let r ← applyConstraints (normalizeVerts vs) fuel s.ts (es.take (allowed cfg.forceEnd rest.length es.length)) (s.merge.getD [])
        cdtFilter fuel r.ts r.S) := by
  unfold constrained2dD
  split
  · rfl
  · obtain ⟨h1, h2, h3⟩ := wrapD_eq fuel (bins vs.length) (normalizeVerts vs) (some ((List.range vs.length).map toId)) cfg
    simp only [D.bind_def]
    rcases hx : wrapAndTriangulateD fuel (bins vs.length) (normalizeVerts vs) (some ((List.range vs.length).map toId)) (.new cfg) with ⟨r, c⟩
    rw [hx] at h1 h2 h3
    simp only at h1 h2 h3
    cases hb : binSort (bins vs.length) (normalizeVerts vs) with
    | ok sorted =>
      rw [hb, Res.ok_bind] at h1
      rw [Res.ok_bind]
      cases sorted with
      | nil => simp only at h1; subst h1; rfl
      | cons first rest =>
        simp only at h1 ⊢
        rw [← h1]
        cases r with
        | ok s =>
          have h3 := h3 s rfl first rest hb
          simp only [Res.ok_bind]
          obtain ⟨q1, q2, q3⟩ := Quiet.snap .beforeConstraints s.ts [] [] c
          rcases hy : pushSnap .beforeConstraints s.ts [] [] c with ⟨r', c'⟩
          rw [hy] at q1 q2 q3
          simp only at q1 q2 q3
          subst q1
          simp only
          have ea : applyConstraintsD (normalizeVerts vs) fuel s.ts es (s.merge.getD []) c' =
              (liftD (buildV2t s.ts 0 (List.replicate (normalizeVerts vs).length 0)) >>= fun v2t =>
                applyLoopD (normalizeVerts vs) fuel (s.merge.getD []) es ⟨s.ts, v2t, []⟩) c' := rfl
          rw [ea, D.bind_def]
          unfold applyConstraints
          cases buildV2t s.ts 0 (List.replicate (normalizeVerts vs).length 0) with
          | ok v2t =>
            simp only [liftD, Res.ok_bind]
            obtain ⟨g1, g2⟩ := applyLoopD_eq (normalizeVerts vs) fuel (s.merge.getD []) es ⟨s.ts, v2t, []⟩ c'
            rw [q2, q3, h2, h3] at g1
            rw [← g1]
            rcases hz : applyLoopD (normalizeVerts vs) fuel (s.merge.getD []) es ⟨s.ts, v2t, []⟩ c' with ⟨r'', c''⟩
            cases r'' with
            | ok w =>
              simp only [Res.ok_bind]
              exact ((Quiet.bind (Quiet.snap .afterConstraints w.ts [] []) fun _ => cdtFilterD_quiet fuel w.ts w.S) c'').1
            | err e => rfl
            | panic => rfl
            | diverge => rfl
          | err e => rfl
          | panic => rfl
          | diverge => rfl
        | err e => rfl
        | panic => rfl
        | diverge => rfl
    | err e => rw [hb] at h1; simp only [Res.err_bind] at h1; subst h1; rfl
    | panic => rw [hb] at h1; simp only [Res.panic_bind] at h1; subst h1; rfl
    | diverge => rw [hb] at h1; simp only [Res.diverge_bind] at h1; subst h1; rfl

/-- **C37**, transparency: without a forced end, recording does not change the outcome. -/
theorem C37_transparent (fuel : Nat) (bins : Nat → Nat) (vs : List (Vtx F)) (es : List Edge) (cfg : DebugCfg) (h : cfg.forceEnd = none) :
    (triangulation2dD fuel bins vs cfg).1 = triangulation2d fuel bins vs ∧
    (constrained2dD fuel bins vs es cfg).1 = constrained2d fuel bins vs es := by
  rw [dtD_eq, cdtD_eq, h]
  simp only [allowed, List.take_length]
  unfold triangulation2d constrained2d constrainedMesh wrapAndTriangulate
  constructor
  · split
    · rfl
    · cases hb : binSort (bins vs.length) (normalizeVerts vs) with
      | ok sorted =>
        cases sorted with
        | nil => simp [hb]
        | cons first rest => simp [hb, lastId_initial]
      | err e => simp [hb]
      | panic => simp [hb]
      | diverge => simp [hb]
  · split
    · rfl
    · cases hb : binSort (bins vs.length) (normalizeVerts vs) with
      | ok sorted =>
        cases sorted with
        | nil => simp [hb]
        | cons first rest =>
          simp only [hb, lastId_initial, Res.ok_bind]
          cases insertAll (normalizeVerts vs) fuel rest ⟨initialTriangles first, 3, some ((List.range vs.length).map toId)⟩ <;> rfl
      | err e => simp [hb]
      | panic => simp [hb]
      | diverge => simp [hb]

/-- **C38**: with a forced end at step `k` exactly the vertices of the insertion steps before `k` are inserted (the first vertex
has step 0 and is inserted whatever `k` is), and the triangles of that mesh are returned. -/
theorem C38_prefix (fuel : Nat) (bins : Nat → Nat) (vs : List (Vtx F)) (cfg : DebugCfg) (k : Nat) (h : cfg.forceEnd = some k)
    (hn : 3 ≤ vs.length) (first : Nat) (rest : List Nat) (hb : binSort (bins vs.length) (normalizeVerts vs) = .ok (first :: rest)) :
    (first :: rest).take (max 1 k) = first :: rest.take (k - 1) ∧
      (triangulation2dD fuel bins vs cfg).1 = (do
        let s ← insertAll (normalizeVerts vs) fuel (rest.take (k - 1)) ⟨initialTriangles first, 3, none⟩
        .ok (filterSeq s.ts)) := by
  have hk : max 1 k = (k - 1) + 1 := by omega
  refine ⟨by rw [hk, List.take_succ_cons], ?_⟩
  rw [dtD_eq, if_neg (by omega), hb, h, Res.ok_bind]
  simp only [allowed, Nat.sub_zero]
  rw [List.take_eq_take_iff.2 (show min (min rest.length (k - 1)) rest.length = min (k - 1) rest.length by omega)]

/-- With a constrained triangulation: the vertices of the steps before `k` are inserted, then the constraints whose step (counted
after all vertices) is before `k`. When the forced end comes before all vertices are inserted, the result is empty. -/
theorem C38_constrained (fuel : Nat) (bins : Nat → Nat) (vs : List (Vtx F)) (es : List Edge) (cfg : DebugCfg) (k : Nat)
    (h : cfg.forceEnd = some k) (hn : 3 ≤ vs.length) (first : Nat) (rest : List Nat)
    (hb : binSort (bins vs.length) (normalizeVerts vs) = .ok (first :: rest)) :
    (constrained2dD fuel bins vs es cfg).1 = (do
        let s ← insertAll (normalizeVerts vs) fuel (rest.take (k - 1)) ⟨initialTriangles first, 3, some ((List.range vs.length).map toId)⟩
        let r ← applyConstraints (normalizeVerts vs) fuel s.ts (es.take (k - 1 - rest.length)) (s.merge.getD [])
        cdtFilter fuel r.ts r.S) ∧
    (k ≤ rest.length + 1 → ∀ out, (constrained2dD fuel bins vs es cfg).1 = .ok out → out = []) := by
  have e : (constrained2dD fuel bins vs es cfg).1 = (do
        let s ← insertAll (normalizeVerts vs) fuel (rest.take (k - 1)) ⟨initialTriangles first, 3, some ((List.range vs.length).map toId)⟩
        let r ← applyConstraints (normalizeVerts vs) fuel s.ts (es.take (k - 1 - rest.length)) (s.merge.getD [])
        cdtFilter fuel r.ts r.S) := by
    rw [cdtD_eq, if_neg (by omega), hb, h, Res.ok_bind]
    simp only [allowed, Nat.sub_zero]
    rw [List.take_eq_take_iff.2 (show min (min rest.length (k - 1)) rest.length = min (k - 1) rest.length by omega),
      List.take_eq_take_iff.2 (show min (min es.length (k - 1 - rest.length)) es.length = min (k - 1 - rest.length) es.length by omega)]
  refine ⟨e, fun hk out ho => ?_⟩
  rw [e] at ho
  simp only [Res.bind_eq_ok] at ho
  obtain ⟨s, -, r, hr, ho⟩ := ho
  rw [show k - 1 - rest.length = 0 by omega, List.take_zero] at hr
  simp only [applyConstraints, applyLoop, Res.bind_eq_ok, Res.ok.injEq] at hr
  obtain ⟨v2t, -, rfl⟩ := hr
  -- without constraints nothing is explored
  simp only [cdtFilter, Res.bind_eq_ok, Res.ok.injEq] at ho
  obtain ⟨f, hf, rfl⟩ := ho
  have key : ∀ (l : List Tri) (i : Nat) (f0 f1 : Flood), floodLoop [] s.ts fuel l i f0 = .ok f1 → f1.out = f0.out := by
    intro l
    induction l with
    | nil => intro i f0 f1 hh; simp only [floodLoop, Res.ok.injEq] at hh; rw [hh]
    | cons t l ih =>
      intro i f0 f1 hh
      simp only [floodLoop, Res.bind_eq_ok] at hh
      obtain ⟨vis, -, hh⟩ := hh
      rw [if_neg (by simp [hasConstrained])] at hh
      exact ih _ _ _ hh
  exact key _ _ _ _ hf

end

section
variable {K : Type} [Field K] [LinearOrder K] [IsStrictOrderedRing K] [ExactParams K] [IdCfg]

/-- **C38**, validity: in exact arithmetic the mesh at a forced end is valid: adjacent triangles refer to each other, all triangles
are clockwise, and their vertices are among those inserted. -/
theorem C38_valid (fuel : Nat) (bins : Nat → Nat) (vs : List (Vtx K)) (hg : Good fuel bins vs) (cfg : DebugCfg) (k : Nat)
    (h : cfg.forceEnd = some k) (hn : 3 ≤ vs.length) (first : Nat) (rest : List Nat)
    (hb : binSort (bins vs.length) (normalizeVerts vs) = .ok (first :: rest)) (out : List Out)
    (ho : (triangulation2dD fuel bins vs cfg).1 = .ok out) :
    ∃ ts : List Tri, out = (ts.filter Tri.isFinite).map Tri.verts ∧ Spec.Adjacency ts ∧
      (∀ t ∈ ts, FarClockwise (normalizeVerts vs) t.v1 t.v2 t.v3) ∧
      (∀ t ∈ ts, ∀ v, v = t.v1 ∨ v = t.v2 ∨ v = t.v3 → v ∈ (first :: rest).take (max 1 k) ∨ (INF0 ≤ v ∧ v ≤ INF3)) := by
  obtain ⟨h1, h2⟩ := C38_prefix fuel bins vs cfg k h hn first rest hb
  rw [h2] at ho
  simp only [Res.bind_eq_ok, Res.ok.injEq] at ho
  obtain ⟨s, hs, rfl⟩ := ho
  obtain ⟨g1, g2, g3⟩ := C33_adjacency_partial fuel bins vs hg first rest hb (k - 1) s hs
  refine ⟨s.ts, filterSeq_eq_map _, g1, g2, ?_⟩
  rw [h1]
  exact g3

end

end CDT

namespace CDT
open Witness
local instance debugCfg : IdCfg := u32Cfg

/-- A square with a point inside: recording of the diagonal swaps from step 3 on, and two forced ends. -/
example : (triangulation2dD 100 defaultBins (pts [(0,0),(0,5),(5,5),(5,0),(2,3)]) { phases := .only .restoreSwap, steps := .starting 3 }).2.snaps.map
      (fun s => (s.step, s.changed)) = [(3, [0, 7, 6, 9]), (4, [3, 9, 8, 11]), (4, [11, 2, 5, 10])] ∧
    (triangulation2dD 100 defaultBins (pts [(0,0),(0,5),(5,5),(5,0),(2,3)]) { forceEnd := some 4 }).1 = .ok [(2, 3, 4), (1, 2, 4)] ∧
    (constrained2dD 100 defaultBins (pts [(0,0),(0,5),(5,5),(5,0),(2,3)]) [⟨0,1⟩,⟨1,2⟩,⟨2,3⟩,⟨3,0⟩,⟨1,3⟩] { forceEnd := some 7 }).1 =
      .ok [(1, 2, 4), (0, 1, 4), (0, 4, 3), (2, 3, 4)] := by decide +kernel

end CDT

import Verif.Proofs.Tell

/-!
# In which order the phases are recorded

Rules for following which snapshots are recorded, and in which order. No law of arithmetic is used.
-/

set_option linter.unusedSectionVars false
set_option linter.unusedSimpArgs false
set_option linter.unusedVariables false

namespace CDT

namespace Spec

/-- The snapshots `l` are recorded by going through the items `is`, one step of the debug context per item, the first one at step
`k + 1`; each item records snapshots as `P` says, and the work may end early. -/
inductive Paced {ι : Type} (P : ι → Nat → List Snap → Prop) : Nat → List ι → List Snap → Prop
  | stop (k : Nat) (is : List ι) : Paced P k is []
  | next (k : Nat) (i : ι) (is : List ι) (b l : List Snap) : P i (k + 1) b → Paced P (k + 1) is l → Paced P k (i :: is) (b ++ l)

/-- What the insertion of vertex `v` at step `k` records: nothing when the vertex is merged, otherwise the split, and then the
swaps of diagonals that follow it. -/
def Insertion (v k : Nat) (l : List Snap) : Prop :=
  l = [] ∨ ∃ s r, l = s :: r ∧ (s.phase = .splitTriangle ∨ s.phase = .splitQuad) ∧ s.event = .split v ∧ s.step = k ∧
    ∀ x ∈ r, x.phase = .restoreSwap ∧ x.event = .snapshot ∧ x.step = k

/-- What the insertion of a constraint at step `k` records: swaps of diagonals. -/
def Swaps (_e : Edge) (k : Nat) (l : List Snap) : Prop := ∀ x ∈ l, x.phase = .constrainedSwap ∧ x.event = .snapshot ∧ x.step = k

end Spec

section
variable [IdCfg]
variable {α β : Type}

/-- Did it succeed? -/
def Res.succeeded : Res α → Bool
  | .ok _ => true
  | _ => false

/-- `x`, started at step `k` and recording everything, adds the snapshots `l` and ends at step `k'` such that `R k b k' l`, where
`b` tells whether it succeeded. -/
def Story (x : D α) (R : Nat → Bool → Nat → List Snap → Prop) : Prop :=
  ∀ c, RecordsAll c → (x c).2.cfg = c.cfg ∧ ∃ l, (x c).2.snaps = c.snaps ++ l ∧ R c.step (x c).1.succeeded (x c).2.step l

variable {R S T : Nat → Bool → Nat → List Snap → Prop}

theorem Story.mono {x : D α} (h : Story x R) (hm : ∀ k b k' l, R k b k' l → T k b k' l) : Story x T := by
  intro c hc
  obtain ⟨h1, l, h2, h3⟩ := h c hc
  exact ⟨h1, l, h2, hm _ _ _ _ h3⟩

theorem Story.bind {x : D α} {f : α → D β} (h : Story x R) (hf : ∀ a, Story (f a) S)
    (hok : ∀ k b k' k'' l l', R k true k' l → S k' b k'' l' → T k b k'' (l ++ l'))
    (hno : ∀ k k' l, R k false k' l → T k false k' l) : Story (x >>= f) T := by
  intro c hc
  have h1 := h c hc
  rw [D.bind_def]
  rcases hx : x c with ⟨r, c'⟩
  rw [hx] at h1
  obtain ⟨h1, l, h2, h3⟩ := h1
  cases r with
  | ok a =>
    obtain ⟨g1, l', g2, g3⟩ := hf a c' (by unfold RecordsAll at hc ⊢; rw [h1]; exact hc)
    exact ⟨g1.trans h1, l ++ l', by simp only at h2 ⊢; rw [g2, h2, List.append_assoc], hok _ _ _ _ _ _ h3 g3⟩
  | err e => exact ⟨h1, l, h2, hno _ _ _ h3⟩
  | panic => exact ⟨h1, l, h2, hno _ _ _ h3⟩
  | diverge => exact ⟨h1, l, h2, hno _ _ _ h3⟩

theorem Story.pure {a : α} (h : ∀ k, T k true k []) : Story (Pure.pure a : D α) T :=
  fun c _ => ⟨rfl, [], by simp [Pure.pure], h _⟩

theorem Story.last {y : Res α} (h : ∀ k b, T k b k []) : Story (liftD y) T :=
  fun c _ => ⟨rfl, [], by simp [liftD], h _ _⟩

theorem Story.fail {y : Res α} (hy : y.succeeded = false) (h : ∀ k, T k false k []) : Story (liftD y) T :=
  fun c _ => ⟨rfl, [], by simp [liftD], by simp only [liftD]; rw [hy]; exact h _⟩

theorem Story.lift {y : Res α} {f : α → D β} (hf : ∀ a, y = .ok a → Story (f a) T) (hno : ∀ k, T k false k []) :
    Story (liftD y >>= f) T := by
  intro c hc
  rw [D.bind_def]
  cases y with
  | ok a => exact hf a rfl c hc
  | err e => exact ⟨rfl, [], by simp [liftD], hno _⟩
  | panic => exact ⟨rfl, [], by simp [liftD], hno _⟩
  | diverge => exact ⟨rfl, [], by simp [liftD], hno _⟩

theorem Story.event (p : Phase) (e : Event) (ts : List Tri) (ids nbs : List Nat) :
    Story (pushEvent p e ts ids nbs) (fun k b k' l => b = true ∧ k' = k ∧ ∃ ch, l = [⟨k, p, e, ch, ts⟩]) := by
  intro c hc
  rw [pushEvent_all hc]
  exact ⟨rfl, _, rfl, rfl, rfl, _, rfl⟩

theorem Story.advance {f : Bool → D β} (hf : ∀ b, Story (f b) S) (hs : ∀ k b k' l, S (k + 1) b k' l → T k b k' l) :
    Story (advanceStep >>= f) T := by
  intro c hc
  rw [D.bind_def]
  obtain ⟨h1, l, h2, h3⟩ := hf (forcedEnd c.cfg.forceEnd (c.step + 1)) { c with step := c.step + 1 } hc
  exact ⟨h1, l, h2, hs _ _ _ _ h3⟩

/-- Only plain snapshots of one phase, at one step. -/
def OnlyPhase (p : Phase) (k : Nat) (_ : Bool) (k' : Nat) (l : List Snap) : Prop :=
  k' = k ∧ ∀ x ∈ l, x.phase = p ∧ x.event = .snapshot ∧ x.step = k

theorem OnlyPhase.nil (p : Phase) (k : Nat) (b : Bool) : OnlyPhase p k b k [] := ⟨rfl, by simp⟩

theorem OnlyPhase.append {p : Phase} {k k' k'' : Nat} {b b' : Bool} {l l' : List Snap} (h : OnlyPhase p k b k' l)
    (h' : OnlyPhase p k' b' k'' l') : OnlyPhase p k b' k'' (l ++ l') := by
  obtain ⟨rfl, h⟩ := h
  obtain ⟨rfl, h'⟩ := h'
  refine ⟨rfl, fun x hx => ?_⟩
  rcases List.mem_append.1 hx with hx | hx
  · exact h x hx
  · exact h' x hx

theorem only_bind {p : Phase} {x : D α} {f : α → D β} (h : Story x (OnlyPhase p)) (hf : ∀ a, Story (f a) (OnlyPhase p)) :
    Story (x >>= f) (OnlyPhase p) :=
  Story.bind h hf (fun _ _ _ _ _ _ h h' => h.append h') (fun _ _ _ h => h)

theorem only_lift {p : Phase} (y : Res α) : Story (liftD y) (OnlyPhase p) := Story.last fun k b => OnlyPhase.nil p k b

theorem only_pure {p : Phase} (a : α) : Story (Pure.pure a : D α) (OnlyPhase p) := Story.pure fun k => OnlyPhase.nil p k _

theorem only_snap (p : Phase) (ts : List Tri) (ids nbs : List Nat) : Story (pushSnap p ts ids nbs) (OnlyPhase p) := by
  refine (Story.event p .snapshot ts ids nbs).mono ?_
  rintro k b k' l ⟨-, rfl, ch, rfl⟩
  exact ⟨rfl, by simp⟩

/-- Uses the rules for plain snapshots of one phase. -/
macro "only_phase" : tactic => `(tactic|
  repeat' first
    | exact only_lift _
    | exact only_pure _
    | exact only_snap _ _ _ _
    | assumption
    | refine only_bind ?_ fun _ => ?_
    | split)

variable {F : Type} [FloatOps F]

theorem checkAndSwapD_only (vs : List (Vtx F)) (p : Nat) (ts : List Tri) (a b : Nat) (st : List (Nat × Nat)) :
    Story (checkAndSwapD vs p ts a b st) (OnlyPhase .restoreSwap) := by
  unfold checkAndSwapD; only_phase

theorem restoreD_only (vs : List (Vtx F)) (p : Nat) : ∀ (fuel : Nat) (ts : List Tri) (st : List (Nat × Nat)),
    Story (restoreD vs p fuel ts st) (OnlyPhase .restoreSwap)
  | 0, ts, [] => only_pure _
  | _ + 1, ts, [] => only_pure _
  | 0, ts, _ :: _ => only_lift _
  | fuel + 1, ts, (a, b) :: st => only_bind (checkAndSwapD_only vs p ts a b st) fun r => restoreD_only vs p fuel r.1 r.2

theorem finishInsertD_only (vs : List (Vtx F)) (fuel vid : Nat) (m : Option (List Nat)) (r : List Tri × List (Nat × Nat)) :
    Story (finishInsertD vs fuel vid m r) (OnlyPhase .restoreSwap) :=
  only_bind (restoreD_only _ _ _ _ _) fun _ => by only_phase

/-- Records a split on success, and nothing otherwise. -/
def SplitOnce (v k : Nat) (b : Bool) (k' : Nat) (l : List Snap) : Prop :=
  k' = k ∧ ((b = false ∧ l = []) ∨ ∃ s, l = [s] ∧ (s.phase = .splitTriangle ∨ s.phase = .splitQuad) ∧ s.event = .split v ∧ s.step = k)

theorem split3D_once (ts : List Tri) (t v : Nat) : Story (split3D ts t v) (SplitOnce v) := by
  refine Story.lift (fun r hr => ?_) (fun k => ⟨rfl, .inl ⟨rfl, rfl⟩⟩)
  refine Story.bind (Story.event _ _ _ _ _) (fun _ => Story.pure (T := fun k b k' l => b = true ∧ k' = k ∧ l = []) fun k => ⟨rfl, rfl, rfl⟩) ?_ ?_
  · rintro k b k' k'' l l' ⟨-, rfl, ch, rfl⟩ ⟨rfl, rfl, rfl⟩
    exact ⟨rfl, .inr ⟨_, rfl, .inl rfl, rfl, rfl⟩⟩
  · rintro k k' l ⟨h, -⟩
    simp at h

theorem split4D_once (ts : List Tri) (t : Nat) (ei : Fin 3) (e : Edge) (v : Nat) : Story (split4D ts t ei e v) (SplitOnce v) := by
  refine Story.lift (fun a _ => Story.lift (fun r hr => ?_) (fun k => ⟨rfl, .inl ⟨rfl, rfl⟩⟩)) (fun k => ⟨rfl, .inl ⟨rfl, rfl⟩⟩)
  refine Story.bind (Story.event _ _ _ _ _) (fun _ => Story.pure (T := fun k b k' l => b = true ∧ k' = k ∧ l = []) fun k => ⟨rfl, rfl, rfl⟩) ?_ ?_
  · rintro k b k' k'' l l' ⟨-, rfl, ch, rfl⟩ ⟨rfl, rfl, rfl⟩
    exact ⟨rfl, .inr ⟨_, rfl, .inr rfl, rfl, rfl⟩⟩
  · rintro k k' l ⟨h, -⟩
    simp at h

/-- One insertion, at one step. -/
def OneInsertion (v k : Nat) (_ : Bool) (k' : Nat) (l : List Snap) : Prop := k' = k ∧ Spec.Insertion v k l

theorem OneInsertion.nil (v k : Nat) (b : Bool) : OneInsertion v k b k [] := ⟨rfl, .inl rfl⟩

theorem split_then {v : Nat} {x : D α} {f : α → D β} (h : Story x (SplitOnce v)) (hf : ∀ a, Story (f a) (OnlyPhase .restoreSwap)) :
    Story (x >>= f) (OneInsertion v) := by
  refine Story.bind h hf ?_ ?_
  · rintro k b k' k'' l l' ⟨rfl, h⟩ ⟨rfl, h'⟩
    rcases h with ⟨h, -⟩ | ⟨s, rfl, h1, h2, h3⟩
    · simp at h
    · exact ⟨rfl, .inr ⟨s, l', rfl, h1, h2, h3, h'⟩⟩
  · rintro k k' l ⟨rfl, h⟩
    rcases h with ⟨-, rfl⟩ | ⟨s, rfl, h1, h2, h3⟩
    · exact OneInsertion.nil _ _ _
    · exact ⟨rfl, .inr ⟨s, [], rfl, h1, h2, h3, by simp⟩⟩

theorem insertVertexD_story (vs : List (Vtx F)) (fuel : Nat) (s : DT) (v : Nat) :
    Story (insertVertexD vs fuel s v) (OneInsertion v) := by
  have nil := fun k => OneInsertion.nil v k false
  have he : ∀ p t ei e, Story (insertOnEdgeD vs fuel s v p t ei e) (OneInsertion v) := by
    intro p t ei e
    unfold insertOnEdgeD
    refine Story.lift (fun _ _ => ?_) nil
    split
    · exact Story.pure fun k => OneInsertion.nil v k _
    · exact split_then (split4D_once _ _ _ _ _) fun _ => finishInsertD_only _ _ _ _ _
  refine Story.lift (fun p _ => Story.lift (fun pl _ => ?_) nil) nil
  cases pl with
  | notFound => exact Story.last fun k b => OneInsertion.nil v k b
  | inside t => exact split_then (split3D_once _ _ _) fun _ => finishInsertD_only _ _ _ _ _
  | onEdge t ei e =>
    refine Story.lift (fun _ _ => ?_) nil
    split
    · exact Story.pure fun k => OneInsertion.nil v k _
    · exact he _ _ _ _

theorem insertAllD_story (vs : List (Vtx F)) (fuel : Nat) : ∀ (l : List Nat) (s : DT),
    Story (insertAllD vs fuel l s) (fun k _ k' x => k ≤ k' ∧ Spec.Paced Spec.Insertion k l x)
  | [], s => Story.pure fun k => ⟨le_rfl, .stop _ _⟩
  | v :: l, s => by
    refine Story.advance (S := fun k _ k' x => k ≤ k' ∧ (x = [] ∨ ∃ b y, x = b ++ y ∧ Spec.Insertion v k b ∧ Spec.Paced Spec.Insertion k l y)) ?_ ?_
    · intro b
      split
      · exact Story.pure fun k => ⟨le_rfl, .inl rfl⟩
      · refine Story.bind (insertVertexD_story vs fuel s v) (fun s' => insertAllD_story vs fuel l s') ?_ ?_
        · rintro k b k' k'' x y ⟨rfl, h⟩ ⟨h1, h2⟩
          exact ⟨h1, .inr ⟨x, y, rfl, h, h2⟩⟩
        · rintro k k' x ⟨rfl, h⟩
          exact ⟨le_rfl, .inr ⟨x, [], by simp, h, .stop _ _⟩⟩
    · rintro k b k' x ⟨h1, h2⟩
      refine ⟨by omega, ?_⟩
      rcases h2 with rfl | ⟨b, y, rfl, h, h'⟩
      · exact .stop _ _
      · exact .next _ _ _ _ _ h h'

/-- The snapshots of the insertion of all vertices, with the given order. -/
def InsertedAll (o : Res (List Nat)) (k : Nat) (b : Bool) (k' : Nat) (l : List Snap) : Prop :=
  k ≤ k' ∧ ((b = false ∧ l = []) ∨ ∃ first rest s x, o = .ok (first :: rest) ∧ l = s :: x ∧ s.phase = .firstVertexInsertion ∧
    s.event = .snapshot ∧ s.step = k ∧ s.ts = initialTriangles first ∧ Spec.Paced Spec.Insertion k rest x)

theorem wrapD_story (fuel bins : Nat) (vs : List (Vtx F)) (m : Option (List Nat)) :
    Story (wrapAndTriangulateD fuel bins vs m) (InsertedAll (binSort bins vs)) := by
  have nil : ∀ k, InsertedAll (binSort bins vs) k false k [] := fun k => ⟨le_rfl, .inl ⟨rfl, rfl⟩⟩
  refine Story.lift (fun sorted hs => ?_) nil
  cases sorted with
  | nil => exact Story.fail rfl nil
  | cons first rest =>
    refine Story.lift (fun tid _ => ?_) nil
    refine Story.bind (Story.event _ _ _ _ _) (fun _ => insertAllD_story vs fuel rest _) ?_ ?_
    · rintro k b k' k'' l l' ⟨-, rfl, ch, rfl⟩ ⟨h1, h2⟩
      exact ⟨h1, .inr ⟨first, rest, _, l', hs, rfl, rfl, rfl, rfl, rfl, h2⟩⟩
    · rintro k k' l ⟨h, -⟩
      simp at h

theorem swapQuadD_only (ts : List Tri) (v2t : List Nat) (d : EdgeData) (q : Quad) :
    Story (swapQuadD ts v2t d q) (OnlyPhase .constrainedSwap) := by
  unfold swapQuadD; only_phase

theorem removeStepD_only (vs : List (Vtx F)) (cv : EV F) (d : EdgeData) (s : RC) :
    Story (removeStepD vs cv d s) (OnlyPhase .constrainedSwap) := by
  unfold removeStepD
  split
  · exact only_lift _
  · refine only_bind (only_lift _) fun q => only_bind (only_lift _) fun r => ?_
    split
    · exact only_pure _
    · exact only_bind (swapQuadD_only _ _ _ _) fun w => by only_phase

theorem removeCrossedD_only (vs : List (Vtx F)) (cv : EV F) : ∀ (fuel : Nat) (s : RC),
    Story (removeCrossedD vs cv fuel s) (OnlyPhase .constrainedSwap)
  | 0, s => by
    unfold removeCrossedD
    cases s.isects
    · exact only_pure _
    · exact only_lift _
  | fuel + 1, s => by
    unfold removeCrossedD
    cases s.isects
    · exact only_pure _
    · exact only_bind (removeStepD_only _ _ _ _) fun s' => removeCrossedD_only vs cv fuel s'

theorem restoreCD_only (vs : List (Vtx F)) (ce : Edge) : ∀ (fuel : Nat) (s : RS),
    Story (restoreCD vs ce fuel s) (OnlyPhase .constrainedSwap)
  | 0, s => by
    unfold restoreCD
    cases s.diags
    · exact only_pure _
    · exact only_lift _
  | fuel + 1, s => by
    unfold restoreCD
    cases s.diags
    · exact only_pure _
    · refine only_bind ?_ fun s' => restoreCD_only vs ce fuel s'
      unfold restoreStepCD
      split
      · exact only_pure _
      · refine only_bind (only_lift _) fun q => only_bind (only_lift _) fun r => ?_
        split
        · exact only_bind (swapQuadD_only _ _ _ _) fun w => only_pure _
        · exact only_pure _

theorem applyOneD_only (vs : List (Vtx F)) (fuel : Nat) (merge : List Nat) (e : Edge) (s : AC) :
    Story (applyOneD vs fuel merge e s) (OnlyPhase .constrainedSwap) := by
  unfold applyOneD
  refine only_bind (only_lift _) fun a => only_bind (only_lift _) fun b => ?_
  split
  · exact only_pure _
  split
  · exact only_pure _
  unfold insertEdgeD
  refine only_bind (only_lift _) fun a => only_bind (only_lift _) fun b => only_bind (only_lift _) fun is => ?_
  cases is with
  | nil => exact only_pure _
  | cons d is =>
    exact only_bind (removeCrossedD_only _ _ _ _) fun _ => only_bind (restoreCD_only _ _ _ _) fun _ => only_pure _

theorem applyLoopD_story (vs : List (Vtx F)) (fuel : Nat) (merge : List Nat) : ∀ (l : List Edge) (s : AC),
    Story (applyLoopD vs fuel merge l s) (fun k _ k' x => k ≤ k' ∧ Spec.Paced Spec.Swaps k l x)
  | [], s => Story.pure fun k => ⟨le_rfl, .stop _ _⟩
  | e :: l, s => by
    refine Story.advance (S := fun k _ k' x => k ≤ k' ∧ (x = [] ∨ ∃ b y, x = b ++ y ∧ Spec.Swaps e k b ∧ Spec.Paced Spec.Swaps k l y)) ?_ ?_
    · intro b
      split
      · exact Story.pure fun k => ⟨le_rfl, .inl rfl⟩
      · refine Story.bind (applyOneD_only vs fuel merge e s) (fun s' => applyLoopD_story vs fuel merge l s') ?_ ?_
        · rintro k b k' k'' x y ⟨rfl, h⟩ ⟨h1, h2⟩
          exact ⟨h1, .inr ⟨x, y, rfl, h, h2⟩⟩
        · rintro k k' x ⟨rfl, h⟩
          exact ⟨le_rfl, .inr ⟨x, [], by simp, h, .stop _ _⟩⟩
    · rintro k b k' x ⟨h1, h2⟩
      refine ⟨by omega, ?_⟩
      rcases h2 with rfl | ⟨b, y, rfl, h, h'⟩
      · exact .stop _ _
      · exact .next _ _ _ _ _ h h'

theorem applyConstraintsD_story (vs : List (Vtx F)) (fuel : Nat) (ts : List Tri) (es : List Edge) (merge : List Nat) :
    Story (applyConstraintsD vs fuel ts es merge) (fun k _ k' x => k ≤ k' ∧ Spec.Paced Spec.Swaps k es x) :=
  Story.lift (fun _ _ => applyLoopD_story _ _ _ _ _) fun k => ⟨le_rfl, .stop _ _⟩

/-- One plain snapshot of the phase `p` on success, and nothing otherwise. -/
def Mark (p : Phase) (k : Nat) (b : Bool) (k' : Nat) (l : List Snap) : Prop :=
  k' = k ∧ ((b = false ∧ l = []) ∨ b = true ∧ ∃ s, l = [s] ∧ s.phase = p ∧ s.event = .snapshot ∧ s.step = k)

theorem snap_mark (p : Phase) (ts : List Tri) (ids nbs : List Nat) : Story (pushSnap p ts ids nbs) (Mark p) := by
  refine (Story.event p .snapshot ts ids nbs).mono ?_
  rintro k b k' l ⟨hb, rfl, ch, rfl⟩
  exact ⟨rfl, .inr ⟨hb, _, rfl, rfl, rfl, rfl⟩⟩

theorem snap_pure (p : Phase) (ts : List Tri) (ids nbs : List Nat) (a : α) :
    Story (do pushSnap p ts ids nbs; Pure.pure a : D α) (Mark p) := by
  refine Story.bind (snap_mark p ts ids nbs) (fun _ => Story.pure (T := fun k b k' l => b = true ∧ k' = k ∧ l = []) fun k => ⟨rfl, rfl, rfl⟩) ?_ ?_
  · rintro k b k' k'' l l' ⟨rfl, h⟩ ⟨rfl, rfl, rfl⟩
    rcases h with ⟨h, -⟩ | ⟨-, h⟩
    · simp at h
    · exact ⟨rfl, .inr ⟨rfl, by simpa using h⟩⟩
  · rintro k k' l ⟨rfl, h⟩
    exact ⟨rfl, h⟩

theorem cdtFilterD_story (fuel : Nat) (ts : List Tri) (S : List Edge) : Story (cdtFilterD fuel ts S) (Mark .filterTriangles) :=
  Story.lift (fun _ _ => snap_pure _ _ _ _ _) fun k => ⟨rfl, .inl ⟨rfl, rfl⟩⟩

/-! ## Consequences of the specification -/

theorem paced_insertion_phase {k : Nat} {is : List Nat} {l : List Snap} (h : Spec.Paced Spec.Insertion k is l) :
    ∀ s ∈ l, s.phase = .splitTriangle ∨ s.phase = .splitQuad ∨ s.phase = .restoreSwap := by
  induction h with
  | stop => simp
  | next k v is b l hb _ ih =>
    intro s hs
    rcases List.mem_append.1 hs with hs | hs
    · rcases hb with rfl | ⟨s0, r, rfl, h1, -, -, h2⟩
      · simp at hs
      · rcases List.mem_cons.1 hs with rfl | hs
        · rcases h1 with h | h
          · exact .inl h
          · exact .inr (.inl h)
        · exact .inr (.inr (h2 s hs).1)
    · exact ih s hs

theorem paced_swaps_phase {k : Nat} {is : List Edge} {l : List Snap} (h : Spec.Paced Spec.Swaps k is l) :
    ∀ s ∈ l, s.phase = .constrainedSwap := by
  induction h with
  | stop => simp
  | next k v is b l hb _ ih =>
    intro s hs
    rcases List.mem_append.1 hs with hs | hs
    · exact (hb s hs).1
    · exact ih s hs

end

end CDT

import Verif.Proofs.Shows
import Verif.Props.Story

/-!
# C91: every recorded snapshot is a triangulation
-/

set_option linter.unusedSectionVars false
set_option linter.unusedSimpArgs false
set_option linter.unusedVariables false

namespace CDT
open Plane

section
variable {K : Type} [Field K] [LinearOrder K] [IsStrictOrderedRing K] [FloorRing K] [ExactParams K] [IdCfg]

/-! ## Specification -/

/-- Triangles, bounded and unbounded, that fill the plane around the vertices `vs`. -/
structure Spec.FillsPlane (vs : List (Vtx K)) (ts : List Tri) : Prop where
  /-- Neighbors agree on their common edge. -/
  adj : Spec.Adjacency ts
  /-- All triangles are clockwise. -/
  cw : ∀ t ∈ ts, FarClockwise vs t.v1 t.v2 t.v3
  /-- A point in general position is in exactly one of them. -/
  tile : ∀ q, Generic vs (List.range vs.length) q → ∃! i : Nat, ∃ t : Tri, ts[i]? = some t ∧ FarInTriangle vs t.v1 t.v2 t.v3 q

/-- A snapshot shows triangles that fill the plane; after the filter, bounded triangles among such. -/
def Spec.SnapFills (vs : List (Vtx K)) (s : Snap) : Prop :=
  (s.phase ≠ .filterTriangles → Spec.FillsPlane vs s.ts) ∧
  (s.phase = .filterTriangles → ∃ ts, Spec.FillsPlane vs ts ∧ ∀ t ∈ s.ts, t ∈ ts ∧ t.v1 < vs.length ∧ t.v2 < vs.length ∧ t.v3 < vs.length)

/-! ## Proof -/

variable {vs : List (Vtx K)} {fuel : Nat} {bins : Nat → Nat}

theorem Reach.fills (h : Good fuel bins vs) {ts : List Tri} (hr : Reach (normalizeVerts vs) ts) : Spec.FillsPlane vs ts := by
  obtain ⟨first, hf, hst, hok⟩ := hr
  have hsc := h.scale
  have hni := h.ids_inf
  have hl : (normalizeVerts vs).length = vs.length := by rw [normalizeVerts_eq]; simp
  have hv := steps_valid hst (initial_valid hf hni)
  have lt : ∀ t ∈ ts, ∀ j, t.v j < INF0 → t.v j < vs.length := by
    intro t ht j hj
    rcases hok t ht j with h' | h'
    · rwa [hl] at h'
    · omega
  refine ⟨adjacency_of hv, fun t ht => ?_, fun q hq => ?_⟩
  · obtain ⟨i, hi⟩ := List.mem_iff_getElem?.1 ht
    exact farClockwise_input hsc (lt t ht 0) (lt t ht 1) (lt t ht 2) (hv.pos _ _ hi)
  · have hgv : GenV (normalizeVerts vs) ts (HP.ofVtx (toNorm vs q)) := by
      refine genV_of_generic (hq.norm hsc) hni (fun v hv => by rw [hl]; simpa using hv) fun t ht j => ?_
      refine (hok t ht j).imp (fun h => ?_) id
      rw [hl] at h
      simpa using h
    have hT := tiled_steps hst (initial_valid hf hni) (tiled_initial hf hni)
    have hg := hgv.gen hv rfl
    have key : ∀ (i : Nat) (t : Tri), ts[i]? = some t →
        (FarInTriangle vs t.v1 t.v2 t.v3 q ↔ FarInTriangle (normalizeVerts vs) t.v1 t.v2 t.v3 (toNorm vs q)) :=
      fun i t ht => far_norm hsc (lt t (List.mem_of_getElem? ht)) fun j => hg i _ _ _ ⟨t, ht, has_k t j⟩
    obtain ⟨i, h1, h2⟩ := hT _ rfl hgv
    obtain ⟨t, ht, h'⟩ := (far_iff_inAt hg i).2 h1
    refine ⟨i, ⟨t, ht, (key i t ht).2 h'⟩, ?_⟩
    rintro j ⟨t, ht, h'⟩
    exact h2 j ((far_iff_inAt hg j).1 ⟨t, ht, (key j t ht).1 h'⟩)

theorem Good1.fills (h : Good fuel bins vs) {s : Snap} (hs : Good1 (normalizeVerts vs) s) : Spec.SnapFills vs s := by
  refine ⟨fun hp => (hs.1 hp).fills h, fun hp => ?_⟩
  obtain ⟨ts, h1, h2⟩ := hs.2 hp
  refine ⟨ts, h1.fills h, fun t ht => ⟨(h2 t ht).1, ?_⟩⟩
  obtain ⟨first, hf, hst, hok⟩ := h1
  have hl : (normalizeVerts vs).length = vs.length := by rw [normalizeVerts_eq]; simp
  have hk := hok t (h2 t ht).1
  have hfin := (h2 t ht).2
  simp only [Tri.isFinite, Bool.and_eq_true, isFin_iff] at hfin
  obtain ⟨⟨f1, f2⟩, f3⟩ := hfin
  rw [← hl]
  exact ⟨(hk 0).fin f1, (hk 1).fin f2, (hk 2).fin f3⟩

theorem good1_filtered {nv : List (Vtx K)} {ts us : List Tri} (h : Reach nv ts) (hu : ∀ t ∈ us, t ∈ ts ∧ t.isFinite = true) (k : Nat)
    (e : Event) (ch : List Nat) : Good1 nv ⟨k, .filterTriangles, e, ch, us⟩ :=
  ⟨fun h => absurd rfl h, fun _ => ⟨ts, h, hu⟩⟩

/-- The triangles when the constraints, or the filter, start. -/
theorem wrapD_reach (h : Good fuel bins vs) {m : Option (List Nat)} (hm : MergeInit vs.length m) (cfg : DebugCfg) {s : DT}
    (hs : (wrapAndTriangulateD fuel (bins vs.length) (normalizeVerts vs) m (.new cfg)).1 = .ok s) : Reach (normalizeVerts vs) s.ts := by
  have hl : (normalizeVerts vs).length = vs.length := by rw [normalizeVerts_eq]; simp
  rw [(wrapD_eq fuel (bins vs.length) (normalizeVerts vs) m cfg).1, Res.bind_eq_ok] at hs
  obtain ⟨sorted, hb, hs⟩ := hs
  cases sorted with
  | nil => simp at hs
  | cons first rest =>
    obtain ⟨ins, hI, hf, -, hst⟩ := h.prefix_run hb hm _ hs
    exact ⟨first, by rw [hl]; exact hf, hst, hI.ok⟩

/-- **C91**, unconstrained. -/
theorem C91_dt (h : Good fuel bins vs) (cfg : DebugCfg) :
    ∀ s ∈ (triangulation2dD fuel bins vs cfg).2.snaps, Spec.SnapFills vs s := by
  intro s hs
  unfold triangulation2dD at hs
  split at hs
  · simp [DCtx.new] at hs
  refine Good1.fills h ?_
  rw [D.bind_def] at hs
  have h1 := wrapD_shows h (mergeInit_none _) (.new cfg) (by simp [DCtx.new])
  have h2 := fun r => wrapD_reach (s := r) h (mergeInit_none _) cfg
  rcases hx : wrapAndTriangulateD fuel (bins vs.length) (normalizeVerts vs) none (.new cfg) with ⟨r, c⟩
  rw [hx] at hs h1 h2
  cases r with
  | err e => exact h1 s hs
  | panic => exact h1 s hs
  | diverge => exact h1 s hs
  | ok r =>
    have : Shows (Good1 (normalizeVerts vs)) (pushSnap .filterTriangles (r.ts.filter Tri.isFinite) [] [] >>= fun _ =>
        (pure (filterSeq r.ts) : D (List Out))) :=
      Shows.event_then (fun k ch => good1_filtered (h2 r rfl) (fun t ht => by simpa using ht) _ _ _) .pure
    exact this c h1 s hs

/-- What the constraint loop records and leaves. -/
theorem applyD_shows (h : Good fuel bins vs) (cfg : DebugCfg) (es : List Edge) {s : DT} {c : DCtx}
    (hx : wrapAndTriangulateD fuel (bins vs.length) (normalizeVerts vs) (some ((List.range vs.length).map toId)) (.new cfg) = (.ok s, c))
    {c' : DCtx} (hcfg : c'.cfg = c.cfg) (hstep : c'.step = c.step) (hc' : ∀ x ∈ c'.snaps, Good1 (normalizeVerts vs) x) :
    (∀ x ∈ (applyConstraintsD (normalizeVerts vs) fuel s.ts es (s.merge.getD []) c').2.snaps, Good1 (normalizeVerts vs) x) ∧
    ∀ r, (applyConstraintsD (normalizeVerts vs) fuel s.ts es (s.merge.getD []) c').1 = .ok r → Reach (normalizeVerts vs) r.ts := by
  have hl : (normalizeVerts vs).length = vs.length := by rw [normalizeVerts_eq]; simp
  have hmi : MergeInit vs.length (some ((List.range vs.length).map toId)) := mergeInit_range _ (by have := h.ids; omega)
  have hr := wrapD_reach (s := s) h hmi cfg (by rw [hx])
  obtain ⟨w1, w2, w3⟩ := wrapD_eq fuel (bins vs.length) (normalizeVerts vs) (some ((List.range vs.length).map toId)) cfg
  rw [hx] at w1 w2 w3
  simp only at w1 w2 w3
  symm at w1
  rw [Res.bind_eq_ok] at w1
  obtain ⟨sorted, hb, w1⟩ := w1
  cases sorted with
  | nil => simp at w1
  | cons first rest =>
    have w3 := w3 s rfl first rest hb
    simp only at w1
    by_cases hfull : allowed cfg.forceEnd 0 rest.length = rest.length
    · rw [hfull, List.take_length] at w1
      have hw : wrapAndTriangulate fuel (bins vs.length) (normalizeVerts vs) (some ((List.range vs.length).map toId)) = .ok s := by
        unfold wrapAndTriangulate
        rw [hb, Res.ok_bind]
        simp only [lastId_initial, Res.ok_bind]
        exact w1
      obtain ⟨v2t, hv, hA, -, hM, -⟩ := h.start hw
      have hM' : MergeOcc s.ts (s.merge.getD []) := fun v x hvx => (hM v x hvx).1
      have e : applyConstraintsD (normalizeVerts vs) fuel s.ts es (s.merge.getD []) c' =
          applyLoopD (normalizeVerts vs) fuel (s.merge.getD []) es ⟨s.ts, v2t, []⟩ c' := by
        unfold applyConstraintsD
        rw [D.bind_def, hv]
        rfl
      rw [e]
      refine ⟨applyLoopD_shows h.unit h.ids_inf hM' hr es _ hA c' hc', fun r hr' => ?_⟩
      rw [(applyLoopD_eq (normalizeVerts vs) fuel (s.merge.getD []) es ⟨s.ts, v2t, []⟩ c').1] at hr'
      have := (applyLoop_inv h.unit h.ids_inf hM' hA hr').1
      exact hr.step this.steps this.m.ok
    · -- the insertions were stopped, and so is the loop over the constraints
      have hstop : forcedEnd c'.cfg.forceEnd (c'.step + 1) = true := by
        rw [hcfg, w2, hstep]
        have := congrFun w3 1
        cases hfe : cfg.forceEnd with
        | none => rw [hfe] at hfull; simp [allowed] at hfull
        | some k =>
          rw [hfe] at this hfull
          simp only [allowed] at this hfull
          simp only [forcedEnd, decide_eq_true_eq]
          omega
      have hloop : ∀ st : AC, (applyLoopD (normalizeVerts vs) fuel (s.merge.getD []) es st c').1 = .ok st ∧
          (applyLoopD (normalizeVerts vs) fuel (s.merge.getD []) es st c').2.snaps = c'.snaps := by
        intro st
        cases es with
        | nil => exact ⟨rfl, rfl⟩
        | cons e es =>
          have e' : applyLoopD (normalizeVerts vs) fuel (s.merge.getD []) (e :: es) st = (advanceStep >>= fun stop => if stop then pure st else
            (applyOneD (normalizeVerts vs) fuel (s.merge.getD []) e st >>= fun s' =>
              applyLoopD (normalizeVerts vs) fuel (s.merge.getD []) es s')) := rfl
          have hadv : advanceStep c' = (.ok true, { c' with step := c'.step + 1 }) := by
            unfold advanceStep; rw [hstop]
          rw [e', D.bind_def, hadv]
          exact ⟨rfl, rfl⟩
      unfold applyConstraintsD
      rw [D.bind_def]
      cases hv : buildV2t s.ts 0 (List.replicate (normalizeVerts vs).length 0) with
      | ok v2t =>
        obtain ⟨g1, g2⟩ := hloop ⟨s.ts, v2t, []⟩
        refine ⟨?_, fun r hr' => ?_⟩
        · show ∀ x ∈ (applyLoopD (normalizeVerts vs) fuel (s.merge.getD []) es ⟨s.ts, v2t, []⟩ c').2.snaps, _
          rw [g2]; exact hc'
        · have hr' : (applyLoopD (normalizeVerts vs) fuel (s.merge.getD []) es ⟨s.ts, v2t, []⟩ c').1 = .ok r := hr'
          rw [g1] at hr'
          cases hr'
          exact hr
      | err e => exact ⟨hc', fun r hr' => by simp [liftD] at hr'⟩
      | panic => exact ⟨hc', fun r hr' => by simp [liftD] at hr'⟩
      | diverge => exact ⟨hc', fun r hr' => by simp [liftD] at hr'⟩

/-- **C91**: every snapshot recorded in a run on separated vertices, for any constraints, any configuration of the debug context
and any outcome, shows triangles that fill the plane; the snapshot of the filter shows bounded triangles among such. -/
theorem C91_cdt (h : Good fuel bins vs) (es : List Edge) (cfg : DebugCfg) :
    ∀ s ∈ (constrained2dD fuel bins vs es cfg).2.snaps, Spec.SnapFills vs s := by
  intro x hs
  unfold constrained2dD at hs
  split at hs
  · simp [DCtx.new] at hs
  refine Good1.fills h ?_
  have hmi : MergeInit vs.length (some ((List.range vs.length).map toId)) := mergeInit_range _ (by have := h.ids; omega)
  simp only [D.bind_def] at hs
  have h1 := wrapD_shows h hmi (.new cfg) (by simp [DCtx.new])
  have h2 := fun r => wrapD_reach (s := r) h hmi cfg
  rcases hx : wrapAndTriangulateD fuel (bins vs.length) (normalizeVerts vs) (some ((List.range vs.length).map toId)) (.new cfg) with ⟨r, c⟩
  rw [hx] at hs h1 h2
  cases r with
  | err e => exact h1 x hs
  | panic => exact h1 x hs
  | diverge => exact h1 x hs
  | ok s =>
    simp only at hs
    have hR := h2 s rfl
    obtain ⟨q1, q2, q3⟩ := Quiet.snap .beforeConstraints s.ts [] [] c
    have p1 : ∀ x ∈ (pushSnap .beforeConstraints s.ts [] [] c).2.snaps, Good1 (normalizeVerts vs) x :=
      Shows.event (fun k ch => Good1.of hR _ _ _ _ (by simp)) c h1
    rcases hy : pushSnap .beforeConstraints s.ts [] [] c with ⟨r', c'⟩
    rw [hy] at q1 q2 q3 p1 hs
    simp only at q1 q2 q3 p1
    subst q1
    simp only at hs
    obtain ⟨a1, a2⟩ := applyD_shows h cfg es hx q2 q3 p1
    rcases hz : applyConstraintsD (normalizeVerts vs) fuel s.ts es (s.merge.getD []) c' with ⟨r'', c''⟩
    rw [hz] at a1 a2 hs
    cases r'' with
    | err e => exact a1 x hs
    | panic => exact a1 x hs
    | diverge => exact a1 x hs
    | ok w =>
      simp only at hs
      have hW := a2 w rfl
      have : Shows (Good1 (normalizeVerts vs)) (pushSnap .afterConstraints w.ts [] [] >>= fun _ => cdtFilterD fuel w.ts w.S) := by
        refine Shows.event_then (fun k ch => Good1.of hW _ _ _ _ (by simp)) ?_
        unfold cdtFilterD
        refine Shows.lift fun f hf => Shows.event_then (fun k ch => ?_) .pure
        exact good1_filtered hW (floodLoopD_mem w.S w.ts fuel w.ts 0 ⟨List.replicate w.ts.length false, [], []⟩ (fun _ h => h) (by simp) f hf) _ _ _
      exact this c'' a1 x hs

end

/-! ## Example -/

section
local instance snapValidCfg : IdCfg := u32Cfg

/-- `C91_cdt` on a run with swaps in both phases. -/
example : (∀ s ∈ (constrained2dD 100 Witness.defaultBins samplePts [⟨0, 5⟩] {}).2.snaps, Spec.SnapFills samplePts s) ∧
    ((constrained2dD 100 Witness.defaultBins samplePts [⟨0, 5⟩] {}).2.snaps.map (·.phase)).count .constrainedSwap = 3 ∧
    ((constrained2dD 100 Witness.defaultBins samplePts [⟨0, 5⟩] {}).2.snaps.map (·.phase)).count .restoreSwap = 1 :=
  ⟨C91_cdt sample_good _ _, by decide +kernel, by decide +kernel⟩


end

end CDT

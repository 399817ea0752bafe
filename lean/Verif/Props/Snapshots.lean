import Verif.Proofs.Tell

/-!
# C84, C85: the recorded snapshots

Nothing is assumed about the arithmetic, about the outcome of the run, or about the debug configuration.
-/

set_option linter.unusedSectionVars false
set_option linter.unusedVariables false

namespace CDT

section
variable {F : Type} [FloatOps F] [IdCfg]

theorem Log.new (n : Nat) (ts : List Tri) (cfg : DebugCfg) : Log n ts (.new cfg) :=
  ⟨by simp [DCtx.new], fun _ => List.isChain_nil, by simp [DCtx.new]⟩

theorem dtD_log (fuel : Nat) (bins : Nat → Nat) (vs : List (Vtx F)) (cfg : DebugCfg) (hn : 2 * vs.length + 2 ≤ NONE) :
    (∃ ts, Log vs.length ts (triangulation2dD fuel bins vs cfg).2) ∧
    ∀ out, (triangulation2dD fuel bins vs cfg).1 = .ok out → ∃ ts, Log vs.length ts (triangulation2dD fuel bins vs cfg).2 ∧
      ts.map Tri.verts = out := by
  unfold triangulation2dD
  split
  · refine ⟨⟨[], Log.new _ _ _⟩, fun out ho => ⟨[], Log.new _ _ _, ?_⟩⟩
    simpa using ho
  · have hlen : (normalizeVerts vs).length = vs.length := Rounded.normalizeVerts_length' vs
    obtain ⟨h1, h2⟩ := wrapD_tells (vs := normalizeVerts vs) fuel (bins vs.length) none (by rw [hlen]; exact hn) (c := .new cfg) rfl
    rw [hlen] at h1 h2
    rw [D.bind_def]
    rcases hx : wrapAndTriangulateD fuel (bins vs.length) (normalizeVerts vs) none (.new cfg) with ⟨r, c⟩
    rw [hx] at h1 h2
    cases r with
    | ok s =>
      obtain ⟨l, hs, -⟩ := h2 s rfl
      refine Tells.event (n := vs.length) (ts := s.ts) (R := fun out ts => ts.map Tri.verts = out) (fun k => hs.filtered ?_)
        (fun k => ⟨fun h => absurd rfl h, fun h => absurd rfl h, fun _ t ht => (List.mem_filter.1 ht).1⟩) (Tells.pure ?_) c l
      · intro t ht
        exact List.mem_filter.1 ht
      · exact (filterSeq_eq_map s.ts).symm
    | err e => exact ⟨h1, fun _ h => by simp at h⟩
    | panic => exact ⟨h1, fun _ h => by simp at h⟩
    | diverge => exact ⟨h1, fun _ h => by simp at h⟩

theorem cdtD_log (fuel : Nat) (bins : Nat → Nat) (vs : List (Vtx F)) (es : List Edge) (cfg : DebugCfg) (hn : 2 * vs.length + 2 ≤ NONE) :
    (∃ ts, Log vs.length ts (constrained2dD fuel bins vs es cfg).2) ∧
    ∀ out, (constrained2dD fuel bins vs es cfg).1 = .ok out → ∃ ts, Log vs.length ts (constrained2dD fuel bins vs es cfg).2 ∧
      ts.map Tri.verts = out := by
  unfold constrained2dD
  split
  · refine ⟨⟨[], Log.new _ _ _⟩, fun out ho => ⟨[], Log.new _ _ _, ?_⟩⟩
    simpa using ho
  · have hlen : (normalizeVerts vs).length = vs.length := Rounded.normalizeVerts_length' vs
    have hinf : (normalizeVerts vs).length ≤ INF0 := by
      have := IdCfg.big
      rw [hlen]; unfold INF0; unfold NONE at hn; omega
    obtain ⟨h1, h2⟩ := wrapD_tells (vs := normalizeVerts vs) fuel (bins vs.length) (some ((List.range vs.length).map toId))
      (by rw [hlen]; exact hn) (c := .new cfg) rfl
    dsimp only
    rw [D.bind_def]
    rcases hx : wrapAndTriangulateD fuel (bins vs.length) (normalizeVerts vs) (some ((List.range vs.length).map toId)) (.new cfg) with ⟨r, c⟩
    rw [hx] at h1 h2
    cases r with
    | ok s =>
      obtain ⟨l, hs, hle⟩ := h2 s rfl
      have key : Tells (normalizeVerts vs).length s.ts (pushSnap .beforeConstraints s.ts [] [] >>= fun _ =>
          applyConstraintsD (normalizeVerts vs) fuel s.ts es (s.merge.getD []) >>= fun r =>
          pushSnap .afterConstraints r.ts [] [] >>= fun _ => cdtFilterD fuel r.ts r.S) (fun out ts => ts.map Tri.verts = out) := by
        refine Tells.event (fun k => hs.snap (by simp) (by simp) (by simp)) (fun k => Delta.of_eq (by simp)) ?_
        refine Tells.bind (Q := fun r ts => ts = r.ts ∧ Sane (normalizeVerts vs).length r.ts) ?_ ?_
        · unfold applyConstraintsD
          refine Tells.lift fun v2t hv => ?_
          have hne : 0 < s.ts.length := List.length_pos_iff.2 hs.ne
          obtain ⟨v2t', hv', hv1, hv2⟩ := buildV2t_ids (n := (normalizeVerts vs).length) hle s.ts hs.vert 0
            (List.replicate (normalizeVerts vs).length 0) (by omega) (by simp) (by intro k hk; simp only [List.mem_replicate] at hk; omega)
          rw [hv] at hv'
          cases hv'
          exact applyLoopD_tells hinf fuel es (s := ⟨s.ts, v2t, []⟩) ⟨hs.vert, hs.nbr, hv2, hv1, hle⟩ hs
        · rintro r _ ⟨rfl, hr⟩
          exact Tells.event (fun k => hr.snap (by simp) (by simp) (by simp)) (fun k => Delta.of_eq (by simp)) (cdtFilterD_tells hr fuel r.S)
      rw [← hlen]
      exact key c l
    | err e => rw [← hlen]; exact ⟨h1, fun _ h => by simp at h⟩
    | panic => rw [← hlen]; exact ⟨h1, fun _ h => by simp at h⟩
    | diverge => rw [← hlen]; exact ⟨h1, fun _ h => by simp at h⟩

/-- **C84**: every recorded snapshot refers only to things that exist, whatever the arithmetic, the configuration and the outcome. -/
theorem C84_snapshots (fuel : Nat) (bins : Nat → Nat) (vs : List (Vtx F)) (es : List Edge) (cfg : DebugCfg) (hn : 2 * vs.length + 2 ≤ NONE) :
    (∀ s ∈ (triangulation2dD fuel bins vs cfg).2.snaps, Spec.SnapOk vs.length s) ∧
    ∀ s ∈ (constrained2dD fuel bins vs es cfg).2.snaps, Spec.SnapOk vs.length s := by
  obtain ⟨⟨_, l⟩, -⟩ := dtD_log fuel bins vs cfg hn
  obtain ⟨⟨_, l'⟩, -⟩ := cdtD_log fuel bins vs es cfg hn
  exact ⟨l.ok, l'.ok⟩

/-- **C85**: when everything is recorded, a triangle that a snapshot does not report as changed is the same in the snapshot before
it (after a split: has the same vertices), and the filter only removes triangles. -/
theorem C85_changed (fuel : Nat) (bins : Nat → Nat) (vs : List (Vtx F)) (es : List Edge) (cfg : DebugCfg) (hn : 2 * vs.length + 2 ≤ NONE)
    (h1 : cfg.phases = .all) (h2 : cfg.steps = .all) :
    ((triangulation2dD fuel bins vs cfg).2.snaps.IsChain fun a b => Spec.Delta a.ts b) ∧
    (constrained2dD fuel bins vs es cfg).2.snaps.IsChain fun a b => Spec.Delta a.ts b := by
  obtain ⟨⟨_, l⟩, -⟩ := dtD_log fuel bins vs cfg hn
  obtain ⟨⟨_, l'⟩, -⟩ := cdtD_log fuel bins vs es cfg hn
  by_cases h3 : vs.length < 3
  · unfold triangulation2dD constrained2dD
    rw [if_pos h3, if_pos h3]
    exact ⟨List.isChain_nil, List.isChain_nil⟩
  · have c1 : RecordsAll (triangulation2dD fuel bins vs cfg).2 := by
      have := (dt_blind fuel bins vs).cfg (.new cfg)
      unfold triangulation2dD RecordsAll
      rw [if_neg h3, this]
      exact ⟨h1, h2⟩
    have c2 : RecordsAll (constrained2dD fuel bins vs es cfg).2 := by
      have := (cdt_blind fuel bins vs es).cfg (.new cfg)
      unfold constrained2dD RecordsAll
      rw [if_neg h3, this]
      exact ⟨h1, h2⟩
    exact ⟨l.chain c1, l'.chain c2⟩

theorem D.bind_ok {α β : Type} {x : D α} {f : α → D β} {c c' : DCtx} {b : β} (h : (x >>= f) c = (.ok b, c')) :
    ∃ a c1, x c = (.ok a, c1) ∧ f a c1 = (.ok b, c') := by
  rw [D.bind_def] at h
  rcases hx : x c with ⟨r, c1⟩
  rw [hx] at h
  cases r with
  | ok a => exact ⟨a, c1, rfl, h⟩
  | err e => simp at h
  | panic => simp at h
  | diverge => simp at h

/-- A computation that ends with the snapshot of the filter. -/
theorem ends_filter {c c' : DCtx} {ts : List Tri} {o out : List Out}
    (h : (pushSnap .filterTriangles ts [] [] >>= fun _ => pure o : D (List Out)) c = (.ok out, c')) (ha : RecordsAll c') :
    ∃ s, c'.snaps.getLast? = some s ∧ s.phase = .filterTriangles := by
  obtain ⟨u, c1, h1, h2⟩ := D.bind_ok h
  have e : c1 = c' := by
    have : ((.ok o, c1) : Res (List Out) × DCtx) = (.ok out, c') := h2
    exact (Prod.mk.injEq _ _ _ _ ▸ this).2
  subst e
  have hcfg : c1.cfg = c.cfg := by
    have := (Quiet.snap .filterTriangles ts [] [] c).2.1
    rw [h1] at this
    exact this
  have hac : RecordsAll c := by unfold RecordsAll at ha ⊢; rw [← hcfg]; exact ha
  have := pushEvent_all hac .filterTriangles .snapshot ts [] []
  unfold pushSnap at h1
  rw [h1] at this
  simp only [Prod.mk.injEq, true_and] at this
  rw [this]
  exact ⟨_, by rw [List.getLast?_append]; rfl, rfl⟩

/-- **C84**, the end: when everything is recorded, the last snapshot of a successful run is that of the filter, and shows the
output. -/
theorem C84_last (fuel : Nat) (bins : Nat → Nat) (vs : List (Vtx F)) (es : List Edge) (cfg : DebugCfg) (hn : 2 * vs.length + 2 ≤ NONE)
    (h1 : cfg.phases = .all) (h2 : cfg.steps = .all) (h3 : 3 ≤ vs.length) (out : List Out) :
    ((triangulation2dD fuel bins vs cfg).1 = .ok out →
      ∃ s, (triangulation2dD fuel bins vs cfg).2.snaps.getLast? = some s ∧ s.phase = .filterTriangles ∧ s.ts.map Tri.verts = out) ∧
    ((constrained2dD fuel bins vs es cfg).1 = .ok out →
      ∃ s, (constrained2dD fuel bins vs es cfg).2.snaps.getLast? = some s ∧ s.phase = .filterTriangles ∧ s.ts.map Tri.verts = out) := by
  have c1 : RecordsAll (triangulation2dD fuel bins vs cfg).2 := by
    have := (dt_blind fuel bins vs).cfg (.new cfg)
    unfold triangulation2dD RecordsAll
    rw [if_neg (by omega), this]
    exact ⟨h1, h2⟩
  have c2 : RecordsAll (constrained2dD fuel bins vs es cfg).2 := by
    have := (cdt_blind fuel bins vs es).cfg (.new cfg)
    unfold constrained2dD RecordsAll
    rw [if_neg (by omega), this]
    exact ⟨h1, h2⟩
  constructor
  · intro ho
    obtain ⟨ts, l, e⟩ := (dtD_log fuel bins vs cfg hn).2 out ho
    have hs : ∃ s, (triangulation2dD fuel bins vs cfg).2.snaps.getLast? = some s ∧ s.phase = .filterTriangles := by
      rcases hx : triangulation2dD fuel bins vs cfg with ⟨r, c'⟩
      rw [hx] at ho c1
      simp only at ho
      subst ho
      unfold triangulation2dD at hx
      rw [if_neg (by omega)] at hx
      obtain ⟨s, c, -, h⟩ := D.bind_ok hx
      exact ends_filter h c1
    obtain ⟨s, hs, hp⟩ := hs
    exact ⟨s, hs, hp, by rw [l.last c1 s hs]; exact e⟩
  · intro ho
    obtain ⟨ts, l, e⟩ := (cdtD_log fuel bins vs es cfg hn).2 out ho
    have hs : ∃ s, (constrained2dD fuel bins vs es cfg).2.snaps.getLast? = some s ∧ s.phase = .filterTriangles := by
      rcases hx : constrained2dD fuel bins vs es cfg with ⟨r, c'⟩
      rw [hx] at ho c2
      simp only at ho
      subst ho
      unfold constrained2dD at hx
      rw [if_neg (by omega)] at hx
      obtain ⟨s, c, -, h⟩ := D.bind_ok hx
      obtain ⟨_, c, -, h⟩ := D.bind_ok h
      obtain ⟨r, c, -, h⟩ := D.bind_ok h
      obtain ⟨_, c, -, h⟩ := D.bind_ok h
      obtain ⟨f, c, -, h⟩ := D.bind_ok h
      exact ends_filter h c2
    obtain ⟨s, hs, hp⟩ := hs
    exact ⟨s, hs, hp, by rw [l.last c2 s hs]; exact e⟩

end

section
open Witness
local instance snapshotsCfg : IdCfg := u32Cfg

/-- The neighbors of the snapshot of the filter are not adjusted: they are the indices that the triangles had before. -/
theorem C84_filter_neighbors_refuted :
    ∃ s ∈ (triangulation2dD 100 defaultBins (fpts [(0,0),(4,0),(1,3)]) {}).2.snaps, s.phase = .filterTriangles ∧
      ∃ t ∈ s.ts, t.n 0 ≠ NONE ∧ s.ts.length ≤ t.n 0 := by decide +kernel

/-- The triangles beside the ones that are split get other neighbors and are not reported. -/
theorem C85_split_neighbors_refuted :
    ∃ a ∈ (triangulation2dD 100 defaultBins (fpts [(0,0),(4,0),(1,3)]) {}).2.snaps,
    ∃ b ∈ (triangulation2dD 100 defaultBins (fpts [(0,0),(4,0),(1,3)]) {}).2.snaps,
      a.step + 1 = b.step ∧ a.phase = .firstVertexInsertion ∧ b.phase = .splitTriangle ∧
      ∃ i ∈ [0, 1, 2, 3], i ∉ b.changed ∧ b.ts[i]? ≠ a.ts[i]? := by decide +kernel

/-- A constrained run that records snapshots of all kinds but `RegisterCrossedEdges`, which the code never records. -/
example : ((constrained2dD 200 defaultBins (fpts [(0,0),(0,6),(6,6),(6,0),(2,3),(3,1),(3,3),(4,2)]) [⟨0,1⟩,⟨1,2⟩,⟨2,3⟩,⟨3,0⟩,⟨1,7⟩] {}).2.snaps.map
    (·.phase)).dedup.length = 8 := by decide +kernel

end
end CDT

import Verif.Proofs.Story
import Verif.Props.Snapshots
import Verif.Proofs.BinSort

/-!
# C89: the recorded snapshots follow the course of the algorithm
-/

set_option linter.unusedSectionVars false
set_option linter.unusedSimpArgs false
set_option linter.unusedVariables false

namespace CDT

section
variable [IdCfg]
variable {F : Type} [FloatOps F]

/-- The snapshots of a Delaunay triangulation, at any outcome. -/
theorem dtD_story (fuel : Nat) (bins : Nat → Nat) (vs : List (Vtx F)) : Story (do
    let s ← wrapAndTriangulateD fuel (bins vs.length) (normalizeVerts vs) none
    pushSnap .filterTriangles (s.ts.filter Tri.isFinite) [] []
    pure (filterSeq s.ts) : D (List Out))
    (fun k b k' l => (b = false ∧ ∀ s ∈ l, s.phase ≠ .filterTriangles) ∨
      b = true ∧ ∃ first rest s x f, binSort (bins vs.length) (normalizeVerts vs) = .ok (first :: rest) ∧ l = s :: (x ++ [f]) ∧
        s.phase = .firstVertexInsertion ∧ s.event = .snapshot ∧ s.step = k ∧ s.ts = initialTriangles first ∧
        Spec.Paced Spec.Insertion k rest x ∧ f.phase = .filterTriangles ∧ f.event = .snapshot) := by
  refine Story.bind (wrapD_story _ _ _ _) (fun s => snap_pure _ _ _ _ _) ?_ ?_
  · rintro k b k' k'' l l' ⟨-, h⟩ ⟨-, h'⟩
    rcases h with ⟨h, -⟩ | ⟨first, rest, s, x, h1, rfl, h2, h3, h4, h5, h6⟩
    · simp at h
    rcases h' with ⟨rfl, rfl⟩ | ⟨rfl, f, rfl, g1, g2, g3⟩
    · refine .inl ⟨rfl, fun y hy => ?_⟩
      rw [List.append_nil] at hy
      rcases List.mem_cons.1 hy with rfl | hy
      · rw [h2]; decide
      · rcases paced_insertion_phase h6 y hy with h | h | h <;> rw [h] <;> decide
    · exact .inr ⟨rfl, first, rest, s, x, f, h1, rfl, h2, h3, h4, h5, h6, g1, g2⟩
  · rintro k k' l ⟨-, h⟩
    refine .inl ⟨rfl, fun y hy => ?_⟩
    rcases h with ⟨-, rfl⟩ | ⟨first, rest, s, x, h1, rfl, h2, h3, h4, h5, h6⟩
    · simp at hy
    · rcases List.mem_cons.1 hy with rfl | hy
      · rw [h2]; decide
      · rcases paced_insertion_phase h6 y hy with h | h | h <;> rw [h] <;> decide

/-- The snapshots after the insertion of the vertices, in a constrained triangulation. -/
def AfterVertices (es : List Edge) (k : Nat) (b : Bool) (_ : Nat) (l : List Snap) : Prop :=
  (b = false ∧ ∀ s ∈ l, s.phase ≠ .filterTriangles) ∨
    b = true ∧ ∃ s x a f, l = s :: (x ++ [a, f]) ∧ s.phase = .beforeConstraints ∧ s.event = .snapshot ∧ s.step = k ∧
      Spec.Paced Spec.Swaps k es x ∧ a.phase = .afterConstraints ∧ a.event = .snapshot ∧ f.phase = .filterTriangles ∧
      f.event = .snapshot ∧ f.step = a.step

theorem afterVertices_story (nv : List (Vtx F)) (fuel : Nat) (ts : List Tri) (es : List Edge) (m : List Nat) : Story (do
    pushSnap .beforeConstraints ts [] []
    let r ← applyConstraintsD nv fuel ts es m
    pushSnap .afterConstraints r.ts [] []
    cdtFilterD fuel r.ts r.S : D (List Out)) (AfterVertices es) := by
  have h2 : ∀ (ts : List Tri) (S : List Edge), Story (do pushSnap .afterConstraints ts [] []; cdtFilterD fuel ts S : D (List Out))
      (fun k b k' l => (b = false ∧ ∀ s ∈ l, s.phase ≠ .filterTriangles) ∨ b = true ∧ ∃ a f, l = [a, f] ∧ a.phase = .afterConstraints ∧
        a.event = .snapshot ∧ f.phase = .filterTriangles ∧ f.event = .snapshot ∧ f.step = a.step) := by
    intro ts S
    refine Story.bind (snap_mark _ _ _ _) (fun _ => cdtFilterD_story fuel ts S) ?_ ?_
    · rintro k b k' k'' l l' ⟨rfl, h⟩ ⟨-, h'⟩
      rcases h with ⟨h, -⟩ | ⟨-, a, rfl, a1, a2, a3⟩
      · simp at h
      rcases h' with ⟨rfl, rfl⟩ | ⟨rfl, f, rfl, f1, f2, f3⟩
      · exact .inl ⟨rfl, by simp [a1]⟩
      · exact .inr ⟨rfl, a, f, rfl, a1, a2, f1, f2, by rw [f3, a3]⟩
    · rintro k k' l ⟨-, h⟩
      rcases h with ⟨-, rfl⟩ | ⟨h, -⟩
      · exact .inl ⟨rfl, by simp⟩
      · simp at h
  refine Story.bind (snap_mark _ _ _ _) (fun _ => Story.bind (applyConstraintsD_story nv fuel ts es m) (fun r => h2 r.ts r.S)
    (T := fun k b k' l => (b = false ∧ ∀ s ∈ l, s.phase ≠ .filterTriangles) ∨ b = true ∧ ∃ x a f, l = x ++ [a, f] ∧
      Spec.Paced Spec.Swaps k es x ∧ a.phase = .afterConstraints ∧
        a.event = .snapshot ∧ f.phase = .filterTriangles ∧ f.event = .snapshot ∧ f.step = a.step) ?_ ?_) ?_ ?_
  · rintro k b k' k'' l l' ⟨-, h⟩ h'
    rcases h' with ⟨rfl, h'⟩ | ⟨rfl, a, f, rfl, a1, a2, f1, f2, f3⟩
    · refine .inl ⟨rfl, fun y hy => ?_⟩
      rcases List.mem_append.1 hy with hy | hy
      · rw [paced_swaps_phase h y hy]; decide
      · exact h' y hy
    · exact .inr ⟨rfl, l, a, f, rfl, h, a1, a2, f1, f2, f3⟩
  · rintro k k' l ⟨-, h⟩
    refine .inl ⟨rfl, fun y hy => ?_⟩
    rw [paced_swaps_phase h y hy]; decide
  · rintro k b k' k'' l l' ⟨rfl, h⟩ h'
    rcases h with ⟨h, -⟩ | ⟨-, s, rfl, s1, s2, s3⟩
    · simp at h
    rcases h' with ⟨rfl, h'⟩ | ⟨rfl, x, a, f, rfl, h1, a1, a2, f1, f2, f3⟩
    · refine .inl ⟨rfl, fun y hy => ?_⟩
      rcases List.mem_append.1 hy with hy | hy
      · simp only [List.mem_singleton] at hy
        rw [hy, s1]; decide
      · exact h' y hy
    · exact .inr ⟨rfl, s, x, a, f, rfl, s1, s2, s3, h1, a1, a2, f1, f2, f3⟩
  · rintro k k' l ⟨-, h⟩
    rcases h with ⟨-, rfl⟩ | ⟨h, -⟩
    · exact .inl ⟨rfl, by simp⟩
    · simp at h

/-- The snapshots of a constrained triangulation, at any outcome. -/
theorem cdtD_story (fuel : Nat) (bins : Nat → Nat) (vs : List (Vtx F)) (es : List Edge) : Story (do
    let nv := normalizeVerts vs
    let s ← wrapAndTriangulateD fuel (bins vs.length) nv (some ((List.range vs.length).map toId))
    pushSnap .beforeConstraints s.ts [] []
    let r ← applyConstraintsD nv fuel s.ts es (s.merge.getD [])
    pushSnap .afterConstraints r.ts [] []
    cdtFilterD fuel r.ts r.S : D (List Out))
    (fun k b k' l => (b = false ∧ ∀ s ∈ l, s.phase ≠ .filterTriangles) ∨
      b = true ∧ ∃ first rest s x s' y a f, binSort (bins vs.length) (normalizeVerts vs) = .ok (first :: rest) ∧
        l = s :: (x ++ s' :: (y ++ [a, f])) ∧
        s.phase = .firstVertexInsertion ∧ s.event = .snapshot ∧ s.step = k ∧ s.ts = initialTriangles first ∧
        Spec.Paced Spec.Insertion k rest x ∧
        s'.phase = .beforeConstraints ∧ s'.event = .snapshot ∧ Spec.Paced Spec.Swaps s'.step es y ∧
        a.phase = .afterConstraints ∧ a.event = .snapshot ∧ f.phase = .filterTriangles ∧ f.event = .snapshot ∧ f.step = a.step) := by
  refine Story.bind (wrapD_story _ _ _ _) (fun s => afterVertices_story _ _ _ _ _) ?_ ?_
  · rintro k b k' k'' l l' ⟨-, h⟩ h'
    rcases h with ⟨h, -⟩ | ⟨first, rest, s, x, h1, rfl, h2, h3, h4, h5, h6⟩
    · simp at h
    rcases h' with ⟨rfl, h'⟩ | ⟨rfl, s', y, a, f, rfl, g1, g2, rfl, g4, a1, a2, f1, f2, f3⟩
    · refine .inl ⟨rfl, fun y hy => ?_⟩
      rcases List.mem_append.1 hy with hy | hy
      · rcases List.mem_cons.1 hy with rfl | hy
        · rw [h2]; decide
        · rcases paced_insertion_phase h6 y hy with h | h | h <;> rw [h] <;> decide
      · exact h' y hy
    · exact .inr ⟨rfl, first, rest, s, x, s', y, a, f, h1, rfl, h2, h3, h4, h5, h6, g1, g2, g4, a1, a2, f1, f2, f3⟩
  · rintro k k' l ⟨-, h⟩
    refine .inl ⟨rfl, fun y hy => ?_⟩
    rcases h with ⟨-, rfl⟩ | ⟨first, rest, s, x, h1, rfl, h2, h3, h4, h5, h6⟩
    · simp at hy
    · rcases List.mem_cons.1 hy with rfl | hy
      · rw [h2]; decide
      · rcases paced_insertion_phase h6 y hy with h | h | h <;> rw [h] <;> decide

/-- **C89**, Delaunay: a successful run that records everything records the insertion of the first vertex of the processing order at
step 0; then, for each further vertex in that order and one step per vertex, nothing or its split followed by swaps; then the
filter. -/
theorem C89_dt_course (fuel : Nat) (bins : Nat → Nat) (vs : List (Vtx F)) (cfg : DebugCfg) (h1 : cfg.phases = .all)
    (h2 : cfg.steps = .all) (hn : 3 ≤ vs.length) (out : List Out) (ho : (triangulation2dD fuel bins vs cfg).1 = .ok out) :
    ∃ first rest s x f, binSort (bins vs.length) (normalizeVerts vs) = .ok (first :: rest) ∧
      (triangulation2dD fuel bins vs cfg).2.snaps = s :: (x ++ [f]) ∧
      s.phase = .firstVertexInsertion ∧ s.event = .snapshot ∧ s.step = 0 ∧ s.ts = initialTriangles first ∧
      Spec.Paced Spec.Insertion 0 rest x ∧ f.phase = .filterTriangles ∧ f.event = .snapshot := by
  obtain ⟨-, l, e, h⟩ := dtD_story fuel bins vs (.new cfg) ⟨h1, h2⟩
  unfold triangulation2dD at ho ⊢
  rw [if_neg (by omega)] at ho ⊢
  rw [ho] at h
  rw [e]
  rcases h with ⟨h, -⟩ | ⟨-, h⟩
  · simp [Res.succeeded] at h
  · simpa [DCtx.new] using h

/-- **C89**, constrained: the same for the vertices; then a snapshot before the constraints; then, for each constraint in the order
given and one step per constraint, swaps; then a snapshot after the constraints and one of the filter. -/
theorem C89_cdt_course (fuel : Nat) (bins : Nat → Nat) (vs : List (Vtx F)) (es : List Edge) (cfg : DebugCfg) (h1 : cfg.phases = .all)
    (h2 : cfg.steps = .all) (hn : 3 ≤ vs.length) (out : List Out) (ho : (constrained2dD fuel bins vs es cfg).1 = .ok out) :
    ∃ first rest s x s' y a f, binSort (bins vs.length) (normalizeVerts vs) = .ok (first :: rest) ∧
      (constrained2dD fuel bins vs es cfg).2.snaps = s :: (x ++ s' :: (y ++ [a, f])) ∧
      s.phase = .firstVertexInsertion ∧ s.event = .snapshot ∧ s.step = 0 ∧ s.ts = initialTriangles first ∧
      Spec.Paced Spec.Insertion 0 rest x ∧
      s'.phase = .beforeConstraints ∧ s'.event = .snapshot ∧ Spec.Paced Spec.Swaps s'.step es y ∧
      a.phase = .afterConstraints ∧ a.event = .snapshot ∧ f.phase = .filterTriangles ∧ f.event = .snapshot ∧ f.step = a.step := by
  obtain ⟨-, l, e, h⟩ := cdtD_story fuel bins vs es (.new cfg) ⟨h1, h2⟩
  unfold constrained2dD at ho ⊢
  rw [if_neg (by omega)] at ho ⊢
  rw [ho] at h
  rw [e]
  rcases h with ⟨h, -⟩ | ⟨-, h⟩
  · simp [Res.succeeded] at h
  · simpa [DCtx.new] using h

/-- **C89**: a run that fails records no snapshot of the filter, whatever the configuration. -/
theorem C89_failed (fuel : Nat) (bins : Nat → Nat) (vs : List (Vtx F)) (es : List Edge) (cfg : DebugCfg) :
    ((∀ out, (triangulation2dD fuel bins vs cfg).1 ≠ .ok out) →
      ∀ s ∈ (triangulation2dD fuel bins vs cfg).2.snaps, s.phase ≠ .filterTriangles) ∧
    ((∀ out, (constrained2dD fuel bins vs es cfg).1 ≠ .ok out) →
      ∀ s ∈ (constrained2dD fuel bins vs es cfg).2.snaps, s.phase ≠ .filterTriangles) := by
  have hno : ∀ {r : Res (List Out)}, (∀ out, r ≠ .ok out) → r.succeeded = false := by
    intro r hr
    cases r with
    | ok a => exact absurd rfl (hr a)
    | _ => rfl
  constructor
  · intro h s hs
    have e1 := (C37_recorded fuel bins vs es cfg).1
    rw [e1] at hs
    have hs := (List.mem_filter.1 hs).1
    by_cases hn : vs.length < 3
    · exact absurd (by unfold triangulation2dD; rw [if_pos hn]) (h [])
    obtain ⟨-, l, e, g⟩ := dtD_story fuel bins vs (.new (Spec.recordAll cfg)) ⟨rfl, rfl⟩
    have hp := ((dt_blind fuel bins vs).par _ _ (recorded_new cfg)).1
    unfold triangulation2dD at h hs
    rw [if_neg hn] at h hs
    rw [e] at hs
    rw [← hp, hno h] at g
    rcases g with ⟨-, g⟩ | ⟨g, -⟩
    · exact g s (by simpa [DCtx.new] using hs)
    · simp at g
  · intro h s hs
    have e1 := (C37_recorded fuel bins vs es cfg).2.1
    rw [e1] at hs
    have hs := (List.mem_filter.1 hs).1
    by_cases hn : vs.length < 3
    · exact absurd (by unfold constrained2dD; rw [if_pos hn]) (h [])
    obtain ⟨-, l, e, g⟩ := cdtD_story fuel bins vs es (.new (Spec.recordAll cfg)) ⟨rfl, rfl⟩
    have hp := ((cdt_blind fuel bins vs es).par _ _ (recorded_new cfg)).1
    unfold constrained2dD at h hs
    rw [if_neg hn] at h hs
    rw [e] at hs
    rw [← hp, hno h] at g
    rcases g with ⟨-, g⟩ | ⟨g, -⟩
    · exact g s (by simpa [DCtx.new] using hs)
    · simp at g

/-! ## Corollaries -/

/-- The vertex that a snapshot splits. -/
def Spec.splitOf (s : Snap) : Option Nat :=
  match s.event with
  | .split v => some v
  | .snapshot => none

theorem insertion_splits {v k : Nat} {b : List Snap} (h : Spec.Insertion v k b) : (b.filterMap Spec.splitOf).Sublist [v] := by
  rcases h with rfl | ⟨s, r, rfl, -, h1, -, h2⟩
  · simp
  · have : r.filterMap Spec.splitOf = [] := by
      rw [List.filterMap_eq_nil_iff]
      intro x hx
      simp [Spec.splitOf, (h2 x hx).2.1]
    rw [List.filterMap_cons_some (b := v) (by simp [Spec.splitOf, h1]), this]

theorem paced_splits {k : Nat} {is : List Nat} {l : List Snap} (h : Spec.Paced Spec.Insertion k is l) :
    (l.filterMap Spec.splitOf).Sublist is := by
  induction h with
  | stop => simp
  | next k v is b l hb _ ih =>
    rw [List.filterMap_append]
    exact (insertion_splits hb).append ih

theorem paced_swaps_splits {k : Nat} {is : List Edge} {l : List Snap} (h : Spec.Paced Spec.Swaps k is l) :
    l.filterMap Spec.splitOf = [] := by
  induction h with
  | stop => rfl
  | next k v is b l hb _ ih =>
    rw [List.filterMap_append, ih, List.append_nil, List.filterMap_eq_nil_iff]
    intro x hx
    simp [Spec.splitOf, (hb x hx).2.1]

theorem splitOf_snapshot {s : Snap} (h : s.event = .snapshot) : Spec.splitOf s = none := by simp [Spec.splitOf, h]

/-- **C89**: whatever is recorded, the vertices that the snapshots report as split follow the processing order; in particular no
vertex is reported twice, and the first vertex never is. -/
theorem C89_split_once (fuel : Nat) (bins : Nat → Nat) (vs : List (Vtx F)) (es : List Edge) (cfg : DebugCfg) (hn : 3 ≤ vs.length)
    (hc : vs.length ≤ IdCfg.maxId + 1) (out : List Out) :
    ((triangulation2dD fuel bins vs cfg).1 = .ok out → ∃ first rest, binSort (bins vs.length) (normalizeVerts vs) = .ok (first :: rest) ∧
      ((triangulation2dD fuel bins vs cfg).2.snaps.filterMap Spec.splitOf).Sublist rest ∧
      (first :: (triangulation2dD fuel bins vs cfg).2.snaps.filterMap Spec.splitOf).Nodup) ∧
    ((constrained2dD fuel bins vs es cfg).1 = .ok out → ∃ first rest, binSort (bins vs.length) (normalizeVerts vs) = .ok (first :: rest) ∧
      ((constrained2dD fuel bins vs es cfg).2.snaps.filterMap Spec.splitOf).Sublist rest ∧
      (first :: (constrained2dD fuel bins vs es cfg).2.snaps.filterMap Spec.splitOf).Nodup) := by
  have nd : ∀ {first rest}, binSort (bins vs.length) (normalizeVerts vs) = .ok (first :: rest) → (first :: rest).Nodup := by
    intro first rest h
    have hl := normalizeVerts_length vs
    exact ((binSort_perm (by rw [hl]; exact hc) h).nodup_iff).2 List.nodup_range
  have dok : (triangulation2dD fuel bins vs cfg).1 = (triangulation2dD fuel bins vs (Spec.recordAll cfg)).1 := by
    unfold triangulation2dD
    rw [if_neg (by omega), if_neg (by omega)]
    exact ((dt_blind fuel bins vs).par _ _ (recorded_new cfg)).1
  have cok : (constrained2dD fuel bins vs es cfg).1 = (constrained2dD fuel bins vs es (Spec.recordAll cfg)).1 := by
    unfold constrained2dD
    rw [if_neg (by omega), if_neg (by omega)]
    exact ((cdt_blind fuel bins vs es).par _ _ (recorded_new cfg)).1
  constructor
  · intro ho
    rw [dok] at ho
    obtain ⟨first, rest, s, x, f, hb, e, s1, s2, s3, s4, hp, f1, f2⟩ := C89_dt_course fuel bins vs _ rfl rfl hn out ho
    have hs : ((triangulation2dD fuel bins vs cfg).2.snaps.filterMap Spec.splitOf).Sublist rest := by
      rw [(C37_recorded fuel bins vs es cfg).1]
      refine (List.filter_sublist.filterMap Spec.splitOf).trans ?_
      rw [e, List.filterMap_cons_none (splitOf_snapshot s2), List.filterMap_append, List.filterMap_cons_none (splitOf_snapshot f2),
        List.filterMap_nil, List.append_nil]
      exact paced_splits hp
    exact ⟨first, rest, hb, hs, (nd hb).sublist (hs.cons_cons first)⟩
  · intro ho
    rw [cok] at ho
    obtain ⟨first, rest, s, x, s', y, a, f, hb, e, s1, s2, s3, s4, hp, t1, t2, hq, a1, a2, f1, f2, -⟩ :=
      C89_cdt_course fuel bins vs es _ rfl rfl hn out ho
    have hs : ((constrained2dD fuel bins vs es cfg).2.snaps.filterMap Spec.splitOf).Sublist rest := by
      rw [(C37_recorded fuel bins vs es cfg).2.1]
      refine (List.filter_sublist.filterMap Spec.splitOf).trans ?_
      rw [e, List.filterMap_cons_none (splitOf_snapshot s2), List.filterMap_append, List.filterMap_cons_none (splitOf_snapshot t2),
        List.filterMap_append, List.filterMap_cons_none (splitOf_snapshot a2), List.filterMap_cons_none (splitOf_snapshot f2),
        List.filterMap_nil, List.append_nil, paced_swaps_splits hq, List.append_nil]
      exact paced_splits hp
    exact ⟨first, rest, hb, hs, (nd hb).sublist (hs.cons_cons first)⟩

open Classical in
/-- **C89**, the configurations of the example programs: recording only the filter gives one snapshot, holding the result; recording
the phases before and after the constraints and the filter gives three, in this order, the last one holding the result. -/
theorem C89_configurations (fuel : Nat) (bins : Nat → Nat) (vs : List (Vtx F)) (es : List Edge) (hn : 3 ≤ vs.length)
    (hc : 2 * vs.length + 2 ≤ NONE) (out : List Out) :
    ((constrained2dD fuel bins vs es { phases := .only .filterTriangles }).1 = .ok out →
      ∃ s, (constrained2dD fuel bins vs es { phases := .only .filterTriangles }).2.snaps = [s] ∧ s.phase = .filterTriangles ∧
        s.ts.map Tri.verts = out) ∧
    ((constrained2dD fuel bins vs es { phases := .inAny [.beforeConstraints, .afterConstraints, .filterTriangles] }).1 = .ok out →
      ∃ a b s, (constrained2dD fuel bins vs es { phases := .inAny [.beforeConstraints, .afterConstraints, .filterTriangles] }).2.snaps =
        [a, b, s] ∧ a.phase = .beforeConstraints ∧ b.phase = .afterConstraints ∧ s.phase = .filterTriangles ∧
        s.ts.map Tri.verts = out) := by
  have cok : ∀ cfg : DebugCfg, (constrained2dD fuel bins vs es cfg).1 = (constrained2dD fuel bins vs es (Spec.recordAll cfg)).1 := by
    intro cfg
    unfold constrained2dD
    rw [if_neg (by omega), if_neg (by omega)]
    exact ((cdt_blind fuel bins vs es).par _ _ (recorded_new cfg)).1
  have key : ∀ cfg : DebugCfg, (constrained2dD fuel bins vs es cfg).1 = .ok out → ∃ s x s' y a f,
      (constrained2dD fuel bins vs es cfg).2.snaps = (s :: (x ++ s' :: (y ++ [a, f]))).filter (fun s => decide (Spec.Wanted cfg s)) ∧
      s.phase = .firstVertexInsertion ∧ (∀ z ∈ x, z.phase = .splitTriangle ∨ z.phase = .splitQuad ∨ z.phase = .restoreSwap) ∧
      s'.phase = .beforeConstraints ∧ (∀ z ∈ y, z.phase = .constrainedSwap) ∧ a.phase = .afterConstraints ∧ f.phase = .filterTriangles ∧
      f.ts.map Tri.verts = out := by
    intro cfg ho
    rw [cok] at ho
    obtain ⟨first, rest, s, x, s', y, a, f, hb, e, s1, s2, s3, s4, hp, t1, t2, hq, a1, a2, f1, f2, -⟩ :=
      C89_cdt_course fuel bins vs es _ rfl rfl hn out ho
    obtain ⟨z, hz, -, hv⟩ := (C84_last fuel bins vs es (Spec.recordAll cfg) hc rfl rfl hn out).2 ho
    rw [e] at hz
    have hl : (s :: (x ++ s' :: (y ++ [a, f]))).getLast? = some f := by
      rw [show s :: (x ++ s' :: (y ++ [a, f])) = (s :: (x ++ s' :: (y ++ [a]))) ++ [f] by simp, List.getLast?_concat]
    rw [hl, Option.some.injEq] at hz
    subst hz
    refine ⟨s, x, s', y, a, f, ?_, s1, paced_insertion_phase hp, t1, paced_swaps_phase hq, a1, f1, hv⟩
    rw [(C37_recorded fuel bins vs es cfg).2.1, e]
  constructor
  · intro ho
    obtain ⟨s, x, s', y, a, f, e, h1, h2, h3, h4, h5, h6, h7⟩ := key _ ho
    refine ⟨f, ?_, h6, h7⟩
    have w : ∀ z : Snap, Spec.Wanted { phases := .only .filterTriangles } z ↔ z.phase = .filterTriangles := by
      intro z
      simp [Spec.Wanted, Spec.phaseWanted, Spec.stepWanted, eq_comm]
    rw [e]
    simp only [w]
    have hx : x.filter (fun s => decide (s.phase = Phase.filterTriangles)) = [] := by
      rw [List.filter_eq_nil_iff]
      intro z hz
      rcases h2 z hz with h | h | h <;> simp [h]
    have hy : y.filter (fun s => decide (s.phase = Phase.filterTriangles)) = [] := by
      rw [List.filter_eq_nil_iff]
      intro z hz
      simp [h4 z hz]
    simp [List.filter_cons, List.filter_append, hx, hy, h1, h3, h5, h6]
  · intro ho
    obtain ⟨s, x, s', y, a, f, e, h1, h2, h3, h4, h5, h6, h7⟩ := key _ ho
    refine ⟨s', a, f, ?_, h3, h5, h6, h7⟩
    have w : ∀ z : Snap, Spec.Wanted { phases := .inAny [.beforeConstraints, .afterConstraints, .filterTriangles] } z ↔
        (z.phase = .beforeConstraints ∨ z.phase = .afterConstraints ∨ z.phase = .filterTriangles) := by
      intro z
      simp [Spec.Wanted, Spec.phaseWanted, Spec.stepWanted]
    rw [e]
    simp only [w]
    have hx : x.filter (fun z => decide (z.phase = Phase.beforeConstraints ∨ z.phase = .afterConstraints ∨ z.phase = .filterTriangles)) = [] := by
      rw [List.filter_eq_nil_iff]
      intro z hz
      rcases h2 z hz with h | h | h <;> simp [h]
    have hy : y.filter (fun z => decide (z.phase = Phase.beforeConstraints ∨ z.phase = .afterConstraints ∨ z.phase = .filterTriangles)) = [] := by
      rw [List.filter_eq_nil_iff]
      intro z hz
      simp [h4 z hz]
    simp only [List.filter_cons, List.filter_append, List.filter_nil, hx, hy]
    simp [h1, h3, h5, h6]

/-- **C89**: fewer than three vertices record nothing, whatever is asked for. -/
theorem C89_few (fuel : Nat) (bins : Nat → Nat) (vs : List (Vtx F)) (es : List Edge) (cfg : DebugCfg) (hn : vs.length < 3) :
    (triangulation2dD fuel bins vs cfg).2.snaps = [] ∧ (constrained2dD fuel bins vs es cfg).2.snaps = [] := by
  unfold triangulation2dD constrained2dD
  rw [if_pos hn, if_pos hn]
  exact ⟨rfl, rfl⟩

end

section
open Witness
local instance storyCfg : IdCfg := u32Cfg

/-- The phases of a run with a vertex on an edge, with swaps of both kinds. -/
example : ((constrained2dD 200 defaultBins (fpts [(0,0),(0,6),(6,6),(6,0),(2,3),(3,1),(3,3),(4,2)]) [⟨0,1⟩,⟨1,2⟩,⟨2,3⟩,⟨3,0⟩,⟨1,7⟩] {}).2.snaps.filterMap
    Spec.splitOf).length = 7 := by decide +kernel

/-- A vertex that is merged is not split: of the last three vertices only two are. -/
example : ((triangulation2dD 100 defaultBins (fpts [(0,0),(4,0),(1,3),(0,0)]) {}).2.snaps.filterMap Spec.splitOf).length = 2 := by
  decide +kernel

/-- A run that fails, with the snapshots recorded until then. -/
example : (constrained2dD 200 defaultBins (fpts [(0,0),(4,0),(1,3)]) [⟨0,9⟩] {}).1 = .panic ∧
    (constrained2dD 200 defaultBins (fpts [(0,0),(4,0),(1,3)]) [⟨0,9⟩] {}).2.snaps.length = 5 := by decide +kernel

/-- The configurations of the example programs. -/
example : ((constrained2dD 200 defaultBins (fpts [(0,0),(4,0),(1,3)]) [⟨0,1⟩,⟨1,2⟩,⟨2,0⟩] { phases := .only .filterTriangles }).2.snaps.map (·.phase)) =
    [.filterTriangles] := by decide +kernel

end
end CDT

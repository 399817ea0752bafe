import Verif.Proofs.GenericC
import Verif.Props.Grid

/-! # C58: both entry points build the same mesh first -/

set_option linter.unusedSectionVars false

namespace CDT

variable {F : Type} [FloatOps F] [IdCfg]

/-- The merge table of the code, `(0..vertices.len() as VertexId).collect()`, is the one of `constrainedMesh`. -/
theorem mergeTable_eq {n : Nat} (hn : n ≤ IdCfg.maxId) : List.range (toId n) = (List.range n).map toId := by
  have h : ∀ k ≤ n, toId k = k := fun k hk => Nat.mod_eq_of_lt (by omega)
  rw [h n le_rfl]
  conv_lhs => rw [← List.map_id (List.range n)]
  exact List.map_congr_left fun k hk => (h k (List.mem_range.1 hk).le).symm

/-- The result without the merge table. -/
def eraseMerge (r : Res DT) : Res (List Tri × Nat) := r >>= fun s => .ok (s.ts, s.tid)

theorem eraseMerge_bind {α : Type} (r : Res α) (f : α → Res DT) : eraseMerge (r >>= f) = r >>= fun x => eraseMerge (f x) := by
  cases r <;> rfl

theorem finishInsert_erase (vs : List (Vtx F)) (fuel vid : Nat) (m m' : Option (List Nat)) (r : List Tri × List (Nat × Nat)) :
    eraseMerge (finishInsert vs fuel vid m r) = eraseMerge (finishInsert vs fuel vid m' r) := by
  unfold finishInsert
  simp only [eraseMerge_bind]
  rfl

theorem erase_congr {α : Type} (r : Res α) {f g : α → Res DT} (h : ∀ x, eraseMerge (f x) = eraseMerge (g x)) :
    eraseMerge (r >>= f) = eraseMerge (r >>= g) := by
  rw [eraseMerge_bind, eraseMerge_bind]
  congr 1; funext x; exact h x

theorem insertOnEdge_erase (vs : List (Vtx F)) (fuel vid : Nat) (ts : List Tri) (tid : Nat) (m m' : Option (List Nat)) (p : Vtx F)
    (t : Nat) (ei : Fin 3) (e : Edge) :
    eraseMerge (insertOnEdge vs fuel ⟨ts, tid, m⟩ vid p t ei e) = eraseMerge (insertOnEdge vs fuel ⟨ts, tid, m'⟩ vid p t ei e) := by
  unfold insertOnEdge
  have key : ∀ c : Bool, eraseMerge (if c = true then Res.ok { ts := ts, tid := tid, merge := setMerge m vid e.dst } else do
        let r ← split4 ts t ei e vid
        finishInsert vs fuel vid m r) =
      eraseMerge (if c = true then Res.ok { ts := ts, tid := tid, merge := setMerge m' vid e.dst } else do
        let r ← split4 ts t ei e vid
        finishInsert vs fuel vid m' r) := by
    intro c
    cases c with
    | true => rfl
    | false => exact erase_congr _ fun r => finishInsert_erase ..
  split
  · exact erase_congr _ fun a => erase_congr _ key
  · exact erase_congr _ key

theorem insertVertex_erase (vs : List (Vtx F)) (fuel vid : Nat) (ts : List Tri) (tid : Nat) (m m' : Option (List Nat)) :
    eraseMerge (insertVertex vs fuel ⟨ts, tid, m⟩ vid) = eraseMerge (insertVertex vs fuel ⟨ts, tid, m'⟩ vid) := by
  unfold insertVertex
  refine erase_congr _ fun p => erase_congr _ fun pl => ?_
  cases pl with
  | notFound => rfl
  | inside t => exact erase_congr _ fun r => finishInsert_erase ..
  | onEdge t ei e =>
    have key : ∀ c : Bool, eraseMerge (if c = true then Res.ok { ts := ts, tid := tid, merge := setMerge m vid e.src } else
          insertOnEdge vs fuel ⟨ts, tid, m⟩ vid p t ei e) =
        eraseMerge (if c = true then Res.ok { ts := ts, tid := tid, merge := setMerge m' vid e.src } else
          insertOnEdge vs fuel ⟨ts, tid, m'⟩ vid p t ei e) := by
      intro c
      cases c with
      | true => rfl
      | false => exact insertOnEdge_erase ..
    simp only
    split
    · exact erase_congr _ fun a => erase_congr _ key
    · exact erase_congr _ key

theorem insertAll_erase (vs : List (Vtx F)) (fuel : Nat) (l : List Nat) : ∀ (ts : List Tri) (tid : Nat) (m m' : Option (List Nat)),
    eraseMerge (insertAll vs fuel l ⟨ts, tid, m⟩) = eraseMerge (insertAll vs fuel l ⟨ts, tid, m'⟩) := by
  induction l with
  | nil => intros; rfl
  | cons v l ih =>
    intro ts tid m m'
    have h := insertVertex_erase vs fuel v ts tid m m'
    simp only [insertAll]
    generalize insertVertex vs fuel ⟨ts, tid, m⟩ v = r at *
    generalize insertVertex vs fuel ⟨ts, tid, m'⟩ v = r' at *
    cases r <;> cases r' <;> simp only [eraseMerge, Res.ok_bind] at h <;> first
      | (obtain ⟨h1, h2⟩ := Prod.mk.inj (Res.ok.inj h)
         rename_i s s'
         obtain ⟨a, b, c⟩ := s
         obtain ⟨a', b', c'⟩ := s'
         simp only at h1 h2
         subst h1; subst h2
         exact ih a b c c')
      | (cases h; rfl)
      | cases h

/-- **C58** (any arithmetic): the mesh does not depend on the merge table that is recorded along the way, and failures are
the same as well. -/
theorem C58_same_mesh (fuel bins : Nat) (vs : List (Vtx F)) (m m' : Option (List Nat)) :
    eraseMerge (wrapAndTriangulate fuel bins vs m) = eraseMerge (wrapAndTriangulate fuel bins vs m') := by
  unfold wrapAndTriangulate
  simp only [eraseMerge_bind]
  congr 1; funext l
  cases l with
  | nil => rfl
  | cons first rest =>
    simp only [eraseMerge_bind]
    congr 1; funext tid
    exact insertAll_erase ..

theorem erase_ok {fuel bins : Nat} {vs : List (Vtx F)} {m m' : Option (List Nat)} {s : DT}
    (h : wrapAndTriangulate fuel bins vs m = .ok s) : ∃ s', wrapAndTriangulate fuel bins vs m' = .ok s' ∧ s'.ts = s.ts ∧ s'.tid = s.tid := by
  have := C58_same_mesh fuel bins vs m m'
  rw [h] at this
  cases hw : wrapAndTriangulate fuel bins vs m' with
  | ok s' =>
    rw [hw] at this
    obtain ⟨h1, h2⟩ := Prod.mk.inj (Res.ok.inj this)
    exact ⟨s', rfl, h1.symm, h2.symm⟩
  | err e => rw [hw] at this; cases this
  | panic => rw [hw] at this; cases this
  | diverge => rw [hw] at this; cases this

/-- **C58** (any arithmetic): without constraints the mesh of the constrained entry point is the one whose real triangles
the unconstrained entry point returns. -/
theorem C58_no_constraints (fuel : Nat) (bins : Nat → Nat) (vs : List (Vtx F)) (h3 : 3 ≤ vs.length) (r : AC)
    (hr : constrainedMesh fuel bins vs [] = .ok r) : triangulation2d fuel bins vs = .ok (filterSeq r.ts) := by
  obtain ⟨s, hs, h⟩ := constrainedMesh_ok hr
  obtain ⟨v2t, _, h⟩ := applyConstraints_ok h
  simp [applyLoop] at h; subst h
  obtain ⟨s', hs', e, -⟩ := erase_ok (m' := none) hs
  unfold triangulation2d
  rw [if_neg (by omega)]
  simp only [hs', Res.ok_bind, e]

/-- **C58** (any arithmetic): if the constrained run succeeds, whatever the constraints, then so does the unconstrained
run; its failures are those of the constrained run. -/
theorem C58_failures (fuel : Nat) (bins : Nat → Nat) (vs : List (Vtx F)) (es : List Edge) :
    (∀ out, constrained2d fuel bins vs es = .ok out → ∃ out', triangulation2d fuel bins vs = .ok out') ∧
    (∀ e, triangulation2d fuel bins vs = .err e → constrained2d fuel bins vs es = .err e) ∧
    (triangulation2d fuel bins vs = .panic → constrained2d fuel bins vs es = .panic) ∧
    (triangulation2d fuel bins vs = .diverge → constrained2d fuel bins vs es = .diverge) := by
  unfold constrained2d triangulation2d
  by_cases h3 : vs.length < 3
  · simp [h3]
  simp only [if_neg h3, constrainedMesh]
  have := C58_same_mesh fuel (bins vs.length) (normalizeVerts vs) (some ((List.range vs.length).map toId)) none
  generalize wrapAndTriangulate fuel (bins vs.length) (normalizeVerts vs) (some ((List.range vs.length).map toId)) = a at *
  generalize wrapAndTriangulate fuel (bins vs.length) (normalizeVerts vs) none = b at *
  cases a <;> cases b <;> simp_all [eraseMerge, Bind.bind, Res.bind]

end CDT

namespace CDT

section Example
local instance mergeCfg : IdCfg := u32Cfg

/-- Two vertices of the unit square are given twice. The run with the table succeeds, and it merges. -/
def mergeGrid : List (Int × Int) := [(0,0),(1,0),(0,0),(1,1),(0,1),(1,1)]

/-- The triangles of the mesh of the constrained run, and the table it keeps. -/
def mergeRun (vs : List (Vtx F64)) : Option (List (Nat × Nat × Nat) × Bool) :=
  match constrainedMesh 400 (fun _ => 1) vs [], wrapAndTriangulate 400 1 (normalizeVerts vs) (some ((List.range vs.length).map toId)) with
  | .ok r, .ok s => some (filterSeq r.ts, s.merge != some ((List.range vs.length).map toId))
  | _, _ => none

/-- The hypothesis of `C58_no_constraints` holds, and the table changes during the run. -/
example : mergeRun (flPts binary64 mergeGrid) = some ([(1, 2, 5), (2, 4, 5)], true) := by
  decide +kernel

end Example

end CDT

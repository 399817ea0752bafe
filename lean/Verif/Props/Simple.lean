import Verif.Proofs.Generic
import Verif.Witness.Upstream

/-! # C01, C12, C13 (any arithmetic), C20, C40 -/

set_option linter.unusedSectionVars false
set_option linter.unusedSimpArgs false
set_option linter.unusedVariables false

namespace CDT
open FloatOps

variable {F : Type} [FloatOps F] [IdCfg]

/-! ## C01 -/

/-- **C01**, `triangulation_from_2d_vertices` -/
theorem C01_triangulation2d (fuel : Nat) (bins : Nat → Nat) (vs : List (Vtx F)) (h : vs.length ≤ 2) :
    triangulation2d fuel bins vs = .ok [] := by
  unfold triangulation2d; rw [if_pos (by omega)]

/-- **C01**, `constrained_triangulation_from_2d_vertices`: any edge list, even with edges that are out of
bounds. -/
theorem C01_constrained2d (fuel : Nat) (bins : Nat → Nat) (vs : List (Vtx F)) (es : List Edge)
    (h : vs.length ≤ 2) : constrained2d fuel bins vs es = .ok [] := by
  unfold constrained2d; rw [if_pos (by omega)]

/-- **C01**, `triangulation_from_3d_planar_vertices` -/
theorem C01_triangulation3d (fuel : Nat) (bins : Nat → Nat) (vs : List (Vtx3 F)) (n : Vtx3 F)
    (h : vs.length ≤ 2) : triangulation3d fuel bins vs n = .ok [] := by
  unfold triangulation3d; rw [if_pos (by omega)]

/-- **C01**, `constrained_triangulation_from_3d_planar_vertices` -/
theorem C01_constrained3d (fuel : Nat) (bins : Nat → Nat) (vs : List (Vtx3 F)) (n : Vtx3 F)
    (es : List Edge) (h : vs.length ≤ 2) : constrained3d fuel bins vs n es = .ok [] := by
  unfold constrained3d; rw [if_pos (by omega)]

/-- **C01**, parallel filtering -/
theorem C01_triangulation2dPar (fuel : Nat) (bins : Nat → Nat) (th : Nat) (sp : Split)
    (vs : List (Vtx F)) (h : vs.length ≤ 2) : triangulation2dPar fuel bins th sp vs = .ok [] := by
  unfold triangulation2dPar; rw [if_pos (by omega)]

/-- Non-vacuity: two vertices and an out-of-bounds edge. With three vertices the result differs. -/
example : (Witness.pts [(0,0),(1,0)]).length ≤ 2 ∧
    (letI := u32Cfg; triangulation2d 9 Witness.defaultBins (Witness.pts [(0,0),(0,1),(1,0)])) ≠ .ok [] := by
  decide +kernel

/-! ## C12 -/

theorem filterSeq_eq (ts : List Tri) :
    filterSeq ts = ts.filterMap fun t => if t.isFinite then some t.verts else none := by
  induction ts with
  | nil => rfl
  | cons t ts ih =>
    simp only [filterSeq, List.filterMap_cons]
    split <;> simp_all

theorem filterPar_eq (sp : Split) (ts : List Tri) :
    filterPar sp ts = ts.filterMap fun t => if t.isFinite then some t.verts else none := by
  induction sp generalizing ts with
  | leaf => rfl
  | node k l r ihl ihr =>
    simp only [filterPar, ihl, ihr]
    rw [← List.filterMap_append, List.take_append_drop]

/-- **C12** on a triangle buffer: any threshold, any splitting of the work. -/
theorem C12_filter (threshold : Nat) (sp : Split) (ts : List Tri) :
    filterMulti threshold sp ts = filterSeq ts := by
  unfold filterMulti
  split
  · rw [filterPar_eq, filterSeq_eq]
  · rfl

/-- **C12** on the entry point: the returned list (including order), the error or the panic are the
same with and without the feature. -/
theorem C12_parallel_eq_sequential (fuel : Nat) (bins : Nat → Nat) (threshold : Nat) (sp : Split)
    (vs : List (Vtx F)) :
    triangulation2dPar fuel bins threshold sp vs = triangulation2d fuel bins vs := by
  unfold triangulation2dPar triangulation2d
  simp only [C12_filter]

/-- **C12**: what the filter keeps: exactly the triangles without an infinite vertex, in buffer
order. -/
theorem C12_filter_spec (threshold : Nat) (sp : Split) (ts : List Tri) :
    filterMulti threshold sp ts =
      (ts.filter fun t => decide (t.v1 < INF0 ∧ t.v2 < INF0 ∧ t.v3 < INF0)).map
        fun t => (t.v1, t.v2, t.v3) := by
  rw [C12_filter]
  induction ts with
  | nil => rfl
  | cons t ts ih =>
    simp only [filterSeq, List.filter_cons, Tri.isFinite, isFin, ih]
    by_cases h : t.v1 < INF0 ∧ t.v2 < INF0 ∧ t.v3 < INF0
    · simp [h, Tri.verts]
    · rw [if_neg (by simpa [and_assoc] using h), if_neg (by simpa using h)]

example : (letI := u32Cfg; filterMulti 1 (.node 1 .leaf (.node 1 .leaf .leaf))
    [⟨0, 1, 2, 1, 1, 1⟩, ⟨0, 1, INF0, 1, 1, 1⟩, ⟨2, 1, 0, 1, 1, 1⟩]) = [(0, 1, 2), (2, 1, 0)] := by
  decide +kernel

/-! ## C13 -/

/-- **C13**, any arithmetic: whenever the sort does not panic the insertion order is a permutation of
all vertex ids. -/
theorem C13_binSort_perm (bins : Nat) (vs : List (Vtx F)) (hn : vs.length ≤ IdCfg.maxId + 1)
    (out : List Nat) (h : binSort bins vs = .ok out) : out.Perm (List.range vs.length) :=
  binSort_perm hn h

/-- **C13**, any arithmetic: the only panic is a vertex whose computed bin does not exist. -/
theorem C13_binSort_ok (bins : Nat) (vs : List (Vtx F)) (hn : vs.length ≤ IdCfg.maxId + 1)
    (hb : ∀ v ∈ vs, ∃ b, binIndex bins v = .ok b ∧ b < bins * bins) :
    ∃ out, binSort bins vs = .ok out ∧ out.Perm (List.range vs.length) := by
  obtain ⟨r, hr⟩ := countBins_ok (bins := bins) (vs := vs)
    (cnt := List.replicate (bins * bins) 0) (by simpa using hb)
  exact binSort_of_bins hn hr

/-- **C13** boundary: a configuration without any bin makes the sort panic on every non-empty input. -/
theorem C13_zero_bins_panics (v : Vtx F) (vs : List (Vtx F)) :
    binSort 0 (v :: vs) = .panic := by
  unfold binSort
  simp only [countBins]
  unfold binIndex binIndexPos
  split
  · simp [getI]
  · simp

/-! ## C20 -/

/-- **C20** -/
theorem C20_validate (vs : List (Vtx F)) :
    validateVertices vs = true ↔
      ∀ v ∈ vs, isNan v.x = false ∧ isNan v.y = false ∧ isFinite v.x = true ∧ isFinite v.y = true := by
  induction vs with
  | nil => simp [validateVertices]
  | cons v vs ih =>
    simp only [validateVertices, List.mem_cons, forall_eq_or_imp]
    split
    · rename_i h
      simp only [Bool.false_eq_true, false_iff]
      rintro ⟨⟨h1, h2, h3, h4⟩, _⟩
      simp_all
    · rename_i h
      rw [ih]
      simp only [Bool.or_eq_true, Bool.not_eq_true', Bool.and_eq_false_iff, not_or, not_and,
        Bool.not_eq_true] at h
      simp_all

example : validateVertices (Witness.fpts [(0,0),(1,2)]) = true ∧
    validateVertices (Witness.fpts [(0,0)] ++ [⟨.nan, .fin 0⟩]) = false := by decide +kernel

/-! ## C40 -/

/-- `k` iterations of the placement walk from `(prev, cur)` lead to `(prev', cur')`. -/
inductive WalkN (vs : List (Vtx F)) (p : Vtx F) (ts : List Tri) :
    Nat → Nat × Nat → Nat × Nat → Prop
  | refl (c : Nat × Nat) : WalkN vs p ts 0 c c
  | step {k : Nat} {prev cur prev' cur' : Nat} {c : Nat × Nat} (hne : cur ≠ NONE)
      (h : findStep vs p ts prev cur = .ok (.go prev' cur'))
      (hr : WalkN vs p ts k (prev', cur') c) : WalkN vs p ts (k + 1) (prev, cur) c

theorem findLoop_walk (vs : List (Vtx F)) (p : Vtx F) (ts : List Tri) (n prev cur : Nat) :
    findLoop vs p ts n prev cur ≠ .diverge ∧
    ∀ pl, findLoop vs p ts n prev cur = .ok pl →
      (pl = .notFound ∧ (∃ c, WalkN vs p ts n (prev, cur) c)) ∨
      (∃ k prev' cur', k < n ∧ WalkN vs p ts k (prev, cur) (prev', cur') ∧
        ((cur' = NONE ∧ pl = .notFound) ∨
          (cur' ≠ NONE ∧ findStep vs p ts prev' cur' = .ok (.found pl)))) := by
  have hstep : ∀ prev cur, findStep vs p ts prev cur ≠ .diverge := by
    intro prev cur
    unfold findStep
    refine Res.bind_ne_diverge (getI_ne_diverge _ _) fun t _ => ?_
    refine Res.bind_ne_diverge (by unfold collectInfTri; dsimp only; generalize (_ ++ _ : List (Fin 3)) = l; split <;> simp) fun l _ => ?_
    have hil : ∀ x, infLocal x ≠ .diverge := by
      intro x; unfold infLocal; split
      · simp
      · split <;> simp
    split
    · refine Res.bind_ne_diverge (getI_ne_diverge _ _) fun a _ => ?_
      refine Res.bind_ne_diverge (getI_ne_diverge _ _) fun b _ => ?_
      refine Res.bind_ne_diverge (getI_ne_diverge _ _) fun c _ => ?_
      repeat' split
      all_goals simp
    · unfold placement1
      refine Res.bind_ne_diverge (getI_ne_diverge _ _) fun a _ => ?_
      refine Res.bind_ne_diverge (getI_ne_diverge _ _) fun b _ => ?_
      simp only
      split
      · simp
      · refine Res.bind_ne_diverge (hil _) fun k _ => ?_
        repeat' split
        all_goals simp
    · unfold placement2
      refine Res.bind_ne_diverge (by unfold oppVertFromEdge; split <;> simp) fun a _ => ?_
      refine Res.bind_ne_diverge (getI_ne_diverge _ _) fun b _ => ?_
      refine Res.bind_ne_diverge (hil _) fun k _ => ?_
      simp only
      split
      · simp
      · refine Res.bind_ne_diverge (hil _) fun k _ => ?_
        repeat' split
        all_goals simp
  induction n generalizing prev cur with
  | zero =>
    refine ⟨by simp [findLoop], ?_⟩
    intro pl h
    simp [findLoop] at h
    exact .inl ⟨h.symm, _, .refl _⟩
  | succ n ih =>
    simp only [findLoop]
    by_cases hc : cur = NONE
    · rw [if_pos hc]
      refine ⟨by simp, ?_⟩
      intro pl h
      simp at h
      exact .inr ⟨0, prev, cur, by omega, .refl _, .inl ⟨hc, h.symm⟩⟩
    · rw [if_neg hc]
      constructor
      · refine Res.bind_ne_diverge (hstep _ _) fun w _ => ?_
        split
        · simp
        · exact (ih _ _).1
      · intro pl h
        rw [Res.bind_eq_ok] at h
        obtain ⟨w, hw, h⟩ := h
        split at h
        · simp at h; subst h
          exact .inr ⟨0, prev, cur, by omega, .refl _, .inr ⟨hc, hw⟩⟩
        · rcases (ih _ _).2 pl h with ⟨e, c, hk⟩ | ⟨k, p', c', hk, hw', hr⟩
          · exact .inl ⟨e, c, .step hc hw hk⟩
          · exact .inr ⟨k + 1, p', c', by omega, .step hc hw hw', hr⟩

/-- **C40**, the walk that locates a vertex: for any mesh (even with corrupted neighbor data), any
predicates and any start, the search ends, and a placement is reported after fewer than
`triangles.len()` moves; `NotFound` is reported only after `triangles.len()` moves or when the
walk leaves the mesh. -/
theorem C40_placement_walk (vs : List (Vtx F)) (p : Vtx F) (start : Nat) (ts : List Tri) :
    findPlacement vs p start ts ≠ .diverge ∧
    ∀ pl, findPlacement vs p start ts = .ok pl →
      (pl = .notFound ∧ (∃ c, WalkN vs p ts ts.length (start, start) c)) ∨
      (∃ k prev' cur', k < ts.length ∧ WalkN vs p ts k (start, start) (prev', cur') ∧
        ((cur' = NONE ∧ pl = .notFound) ∨
          (cur' ≠ NONE ∧ findStep vs p ts prev' cur' = .ok (.found pl)))) :=
  findLoop_walk vs p ts ts.length start start

theorem infLocal_ne_diverge (x : Nat) : infLocal x ≠ .diverge := by
  unfold infLocal; split
  · simp
  · split <;> simp

theorem edgeIsect_ne_diverge (vs : List (Vtx F)) (e : Edge) (cv : EV F) :
    edgeIsect vs e cv ≠ .diverge := by
  unfold edgeIsect
  split
  · split
    · simp
    · exact Res.bind_ne_diverge (infLocal_ne_diverge _) fun _ _ =>
        Res.bind_ne_diverge (getI_ne_diverge _ _) fun _ _ => by simp
  · split
    · exact Res.bind_ne_diverge (infLocal_ne_diverge _) fun _ _ =>
        Res.bind_ne_diverge (getI_ne_diverge _ _) fun _ _ => by simp
    · exact Res.bind_ne_diverge (getI_ne_diverge _ _) fun _ _ =>
        Res.bind_ne_diverge (getI_ne_diverge _ _) fun _ _ => by simp

theorem loopAround_ne_diverge (vs : List (Vtx F)) (ts : List Tri) (start : Nat) (ce : Edge) (cv : EV F)
    (next : Fin 3 → Fin 3) (n i tid : Nat) :
    loopAround vs ts start ce cv next n i tid ≠ .diverge := by
  induction n generalizing i tid with
  | zero => simp [loopAround]
  | succ n ih =>
    simp only [loopAround]
    split
    · simp
    · refine Res.bind_ne_diverge (getI_ne_diverge _ _) fun t _ => ?_
      split
      · simp
      · refine Res.bind_ne_diverge (edgeIsect_ne_diverge _ _ _) fun r _ => ?_
        split
        · split <;> simp
        · split
          · simp
          · exact ih _ _

/-- `k` moves of the circling around `ce.src` lead from `tid` to `tid'`; no triangle on the way has
the target vertex or a crossed edge. -/
inductive CircN (vs : List (Vtx F)) (ts : List Tri) (ce : Edge) (cv : EV F) (next : Fin 3 → Fin 3) :
    Nat → Nat → Nat → Prop
  | refl (t : Nat) : CircN vs ts ce cv next 0 t t
  | step {k tid tid' : Nat} {t : Tri} (ht : ts[tid]? = some t) (hv : t.hasVert ce.dst = false)
      (hx : ∃ r, edgeIsect vs (t.edge (oppEdgeIdx (t.vertexIndex ce.src))) cv = .ok r ∧
        r ≠ .crossing)
      (hn : t.n (next (t.vertexIndex ce.src)) ≠ NONE)
      (hr : CircN vs ts ce cv next k (t.n (next (t.vertexIndex ce.src))) tid') :
      CircN vs ts ce cv next (k + 1) tid tid'

/-- **C40**, circling around a vertex: an edge is reported after fewer than `triangles.len()` moves, and
it belongs to the triangle reached. -/
theorem C40_circling_steps (vs : List (Vtx F)) (ts : List Tri) (start : Nat) (ce : Edge) (cv : EV F)
    (next : Fin 3 → Fin 3) (n i tid : Nat) (d : EdgeData)
    (h : loopAround vs ts start ce cv next n i tid = .ok (.isect d)) :
    ∃ k, k < n ∧ CircN vs ts ce cv next k tid d.f := by
  induction n generalizing i tid with
  | zero => simp [loopAround] at h
  | succ n ih =>
    simp only [loopAround] at h
    split at h
    · simp at h
    · rw [Res.bind_eq_ok] at h
      obtain ⟨t, ht, h⟩ := h
      rw [getI_eq_ok] at ht
      split at h
      · simp at h
      · rename_i hv
        rw [Res.bind_eq_ok] at h
        obtain ⟨r, hr, h⟩ := h
        split at h
        · split at h
          · simp at h
          · simp at h; subst h; exact ⟨0, by omega, .refl _⟩
        · rename_i hx
          split at h
          · simp at h
          · rename_i hn
            obtain ⟨k, hk, hc⟩ := ih _ _ h
            exact ⟨k + 1, by omega, .step ht (by simpa using hv) ⟨r, hr, hx⟩ hn hc⟩

/-- **C40**, circling around a vertex: bounded for any mesh and any predicates. -/
theorem C40_circling (vs : List (Vtx F)) (ts : List Tri) (ce : Edge) (cv : EV F) (start : Nat) :
    searchFirst vs ts ce cv start ≠ .diverge := by
  unfold searchFirst
  refine Res.bind_ne_diverge (loopAround_ne_diverge _ _ _ _ _ _ _ _ _) fun r _ => ?_
  split
  · simp
  · simp
  · exact Res.bind_ne_diverge (getI_ne_diverge _ _) fun t _ => loopAround_ne_diverge _ _ _ _ _ _ _ _ _

theorem nextCandidate_ne_diverge (vs : List (Vtx F)) (cv : EV F) (t : Tri) (e : Edge) (i : Fin 3) :
    nextCandidate vs cv t e i ≠ .diverge := by
  unfold nextCandidate
  split
  · simp
  · exact Res.bind_ne_diverge (edgeIsect_ne_diverge _ _ _) fun _ _ => by simp

theorem nextIsect_ne_diverge (vs : List (Vtx F)) (cv : EV F) (t : Tri) (tid : Nat) (e : Edge) :
    nextIsect vs cv t tid e ≠ .diverge := by
  unfold nextIsect
  refine Res.bind_ne_diverge (nextCandidate_ne_diverge _ _ _ _ _) fun b _ => ?_
  split
  · simp
  refine Res.bind_ne_diverge (nextCandidate_ne_diverge _ _ _ _ _) fun b _ => ?_
  split
  · simp
  refine Res.bind_ne_diverge (nextCandidate_ne_diverge _ _ _ _ _) fun b _ => ?_
  split <;> simp

theorem registerLoop_bounded (vs : List (Vtx F)) (ts : List Tri) (ce : Edge) (cv : EV F) (n : Nat)
    (d : EdgeData) : registerLoop vs ts ce cv n d ≠ .diverge ∧
      ∀ l, registerLoop vs ts ce cv n d = .ok l → l.length ≤ n := by
  induction n generalizing d with
  | zero =>
    refine ⟨by simp [registerLoop], ?_⟩
    intro l h; simp [registerLoop] at h; subst h; simp
  | succ n ih =>
    simp only [registerLoop]
    constructor
    · refine Res.bind_ne_diverge (getI_ne_diverge _ _) fun t _ => ?_
      split
      · simp
      · refine Res.bind_ne_diverge (nextIsect_ne_diverge _ _ _ _ _) fun r _ => ?_
        split
        · exact Res.bind_ne_diverge (ih _).1 fun _ _ => by simp
        · simp
    · intro l h
      rw [Res.bind_eq_ok] at h
      obtain ⟨t, _, h⟩ := h
      split at h
      · simp at h; subst h; simp
      · rw [Res.bind_eq_ok] at h
        obtain ⟨r, _, h⟩ := h
        split at h
        · rw [Res.bind_eq_ok] at h
          obtain ⟨rest, hr, h⟩ := h
          simp at h; subst h
          have := (ih _).2 rest hr
          simp; omega
        · simp at h

/-- **C40**, the walk along a constrained edge: bounded for any mesh and any predicates, and at most
one edge more than there are triangles is registered. -/
theorem C40_edge_walk (vs : List (Vtx F)) (ts : List Tri) (ce : Edge) (cv : EV F) (v2t : List Nat) :
    registerEdges vs ts ce cv v2t ≠ .diverge ∧
      ∀ l, registerEdges vs ts ce cv v2t = .ok l → l.length ≤ ts.length + 1 := by
  unfold registerEdges
  constructor
  · refine Res.bind_ne_diverge (getI_ne_diverge _ _) fun t _ => ?_
    refine Res.bind_ne_diverge (C40_circling _ _ _ _ _) fun r _ => ?_
    split
    · simp
    · simp
    · exact Res.bind_ne_diverge (registerLoop_bounded _ _ _ _ _ _).1 fun _ _ => by simp
  · intro l h
    rw [Res.bind_eq_ok] at h
    obtain ⟨t, _, h⟩ := h
    rw [Res.bind_eq_ok] at h
    obtain ⟨r, _, h⟩ := h
    split at h
    · simp at h; subst h; simp
    · simp at h
    · rw [Res.bind_eq_ok] at h
      obtain ⟨rest, hr, h⟩ := h
      have := (registerLoop_bounded _ _ _ _ _ _).2 rest hr
      simp at h; subst h; simp; omega

/-- Non-vacuity of `C40`: a corrupted mesh whose two triangles send the walk back and forth; the
search still ends (with `NotFound`). -/
example : (letI := u32Cfg; findPlacement (Witness.pts [(0,0),(0,1),(1,0)]) ⟨5,5⟩ 0
    [⟨0,1,2,1,1,1⟩, ⟨0,1,2,2,2,2⟩, ⟨0,1,2,0,0,0⟩]) = .ok .notFound := by decide +kernel

end CDT

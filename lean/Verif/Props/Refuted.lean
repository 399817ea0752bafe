import Verif.Props.Accept
import Verif.Proofs.Fuel

/-!
# Claims that are false for the code, with witnesses

Each theorem exhibits an input on which the claimed property fails. The runs are evaluated by the kernel, in exact
rational arithmetic and, with the same result, with IEEE `f64` (`Model/SoftFloat.lean`).
-/

set_option linter.unusedSectionVars false

namespace CDT
open Plane Witness
local instance : IdCfg := u32Cfg

theorem good_pts {fuel : Nat} {l : List (Int × Int)} (hr : InRange (pts l)) (hd : ∃ a ∈ pts l, ∃ b ∈ pts l, a ≠ b)
    (hw : ExactParams.eps * (scaleFactor (pts l)) ^ 2 ≤ 1) (hb : 1 ≤ defaultBins (pts l).length)
    (hn : 2 * (pts l).length + 2 ≤ NONE) (hf : 6 * (pts l).length + 10 ≤ fuel) : Good fuel defaultBins (pts l) := by
  refine good_of_int (fun v hv => ?_) hr hd hw hb hn hf
  simp only [pts, List.mem_map] at hv
  obtain ⟨q, _, rfl⟩ := hv
  exact ⟨q.1, q.2, rfl, rfl⟩

/-- An outcome of a run with some fuel is the outcome with more fuel. -/
theorem more_fuel {α : Type} {f : Nat → Res α} (h : FuelMono f) {n : Nat} {x : Res α} (hx : f n = x) (hd : x ≠ .diverge)
    {m : Nat} (hm : n ≤ m) : f m = x := by
  rw [h n m hm (by rw [hx]; exact hd), hx]

/-! ## C06 -/

/-- Four integer points for which the result is not Delaunay. -/
def notDelaunay : List (Int × Int) := [(4,7),(2,4),(5,0),(3,1)]

/-- **C06** is false: the run on four integer points succeeds, in exact arithmetic and in `f64`, with the triangles
`(0,2,3)` and `(0,3,1)`, and vertex 1 lies strictly inside the circumcircle of the first one. -/
theorem C06_delaunay_refuted :
    Good 100 defaultBins (pts notDelaunay) ∧
    (∀ fuel, 100 ≤ fuel → triangulation2d fuel defaultBins (pts notDelaunay) = .ok [(0,2,3),(0,3,1)] ∧
      triangulation2d fuel defaultBins (fpts notDelaunay) = .ok [(0,2,3),(0,3,1)]) ∧
    ∃ A B C P, (pts notDelaunay)[0]? = some A ∧ (pts notDelaunay)[2]? = some B ∧ (pts notDelaunay)[3]? = some C ∧
      (pts notDelaunay)[1]? = some P ∧ InCircle A B C P := by
  refine ⟨good_pts (by unfold InRange; decide +kernel) ⟨⟨4, 7⟩, by decide +kernel, ⟨2, 4⟩, by decide +kernel, by decide +kernel⟩
    (by decide +kernel) (by decide +kernel) (by decide +kernel) (by decide +kernel), fun fuel hf => ⟨?_, ?_⟩, ?_⟩
  · exact more_fuel (n := 100) (triangulation2d_fuel _ _) (by decide +kernel) (by simp) hf
  · exact more_fuel (n := 100) (triangulation2d_fuel _ _) (by decide +kernel) (by simp) hf
  · refine ⟨⟨4, 7⟩, ⟨5, 0⟩, ⟨3, 1⟩, ⟨2, 4⟩, by decide +kernel, by decide +kernel, by decide +kernel, by decide +kernel,
      ⟨145/26, 95/26⟩, ?_⟩
    unfold Circumcenter dist2
    norm_num

/-! ## C07 -/

/-- Three points that are not collinear. -/
def noTriangle : List (Int × Int) := [(0,0),(10,10),(6,5)]

/-- **C07** is false: three points that are not collinear, with no triangle in the result. -/
theorem C07_hull_refuted :
    Good 100 defaultBins (pts noTriangle) ∧
    (∀ fuel, 100 ≤ fuel → triangulation2d fuel defaultBins (pts noTriangle) = .ok [] ∧
      triangulation2d fuel defaultBins (fpts noTriangle) = .ok []) ∧
    ∃ A B C, pts noTriangle = [A, B, C] ∧ Clockwise A B C := by
  refine ⟨good_pts (by unfold InRange; decide +kernel) ⟨⟨0, 0⟩, by decide +kernel, ⟨6, 5⟩, by decide +kernel, by decide +kernel⟩
    (by decide +kernel) (by decide +kernel) (by decide +kernel) (by decide +kernel), fun fuel hf => ⟨?_, ?_⟩, ?_⟩
  · exact more_fuel (n := 100) (triangulation2d_fuel _ _) (by decide +kernel) (by simp) hf
  · exact more_fuel (n := 100) (triangulation2d_fuel _ _) (by decide +kernel) (by simp) hf
  · exact ⟨⟨0, 0⟩, ⟨10, 10⟩, ⟨6, 5⟩, by decide +kernel, by unfold Clockwise; decide +kernel⟩

/-! ## C28, C29 -/

/-- Five integer points. -/
def panicPts : List (Int × Int) := [(2,-3),(0,0),(4,-5),(4,-4),(1,-2)]

/-- **C28** and **C29** are false: a single constraint between two of five integer points, through no other point;
the run panics, in exact arithmetic and in `f64`. -/
theorem C28_no_panic_refuted :
    Good 200 defaultBins (pts panicPts) ∧ Spec.ClearOfVertices (pts panicPts) [⟨2, 1⟩] ∧ Spec.NonCrossing (pts panicPts) [⟨2, 1⟩] ∧
    ∀ fuel, 200 ≤ fuel → constrained2d fuel defaultBins (pts panicPts) [⟨2, 1⟩] = .panic ∧
      constrained2d fuel defaultBins (fpts panicPts) [⟨2, 1⟩] = .panic := by
  refine ⟨good_pts (by unfold InRange; decide +kernel) ⟨⟨2, -3⟩, by decide +kernel, ⟨0, 0⟩, by decide +kernel, by decide +kernel⟩
    (by decide +kernel) (by decide +kernel) (by decide +kernel) (by decide +kernel), clear_of_check (by decide +kernel),
    nonCrossing_of_check (by decide +kernel), fun fuel hf => ⟨?_, ?_⟩⟩
  · exact more_fuel (n := 200) (constrained2d_fuel _ _ _) (by decide +kernel) (by simp) hf
  · exact more_fuel (n := 200) (constrained2d_fuel _ _ _) (by decide +kernel) (by simp) hf

/-- Seven integer points. -/
def errorPts : List (Int × Int) := [(15,-14),(16,-14),(12,-12),(4,-4),(13,-15),(8,-10),(5,-5)]

/-- **C29** is false in `f64`: a single constraint through no other point is
rejected with an error in `f64`, though it is accepted in exact arithmetic. -/
theorem C29_accepted_refuted :
    Spec.ClearOfVertices (pts errorPts) [⟨0, 3⟩] ∧ Spec.NonCrossing (pts errorPts) [⟨0, 3⟩] ∧
    ∀ fuel, 300 ≤ fuel → constrained2d fuel defaultBins (fpts errorPts) [⟨0, 3⟩] = .err .noConvexQuad ∧
      ∃ out, constrained2d fuel defaultBins (pts errorPts) [⟨0, 3⟩] = .ok out := by
  refine ⟨clear_of_check (by decide +kernel), nonCrossing_of_check (by decide +kernel), fun fuel hf => ⟨?_, ?_⟩⟩
  · exact more_fuel (n := 300) (constrained2d_fuel _ _ _) (by decide +kernel) (by simp) hf
  · exact ⟨_, more_fuel (n := 300) (x := .ok [(0,3,1),(0,1,4),(0,4,2),(6,0,2),(6,2,5),(3,6,5),(2,4,5),(0,6,3)])
      (constrained2d_fuel _ _ _) (by decide +kernel) (by simp) hf⟩

/-! ## C27 -/

deriving instance DecidableEq for RC

/-- Six integer points. -/
def loopPts : List (Int × Int) := [(6,-6),(0,1),(1,-1),(5,-5),(0,0),(8,-9)]

/-- Does `remove_crossed_edges` for the constraint `e`, after `k` iterations, come back to the same state after `p`
further ones? -/
def comesBack (fuel : Nat) (vs : List (Vtx F64)) (e : Edge) (k p : Nat) : Res Bool := do
  let nv := normalizeVerts vs
  let s ← wrapAndTriangulate fuel (defaultBins vs.length) nv (some ((List.range vs.length).map toId))
  let v2t ← buildV2t s.ts 0 (List.replicate nv.length 0)
  let a ← getI (s.merge.getD []) e.src
  let b ← getI (s.merge.getD []) e.dst
  let va ← getI nv a
  let vb ← getI nv b
  let l ← registerEdges nv s.ts ⟨a, b⟩ (va, vb) v2t
  .ok (decide (a ≠ b) && decide (l ≠ []) && match removeIter nv (va, vb) k ⟨s.ts, v2t, l, [], 0⟩ with
    | none => false
    | some r => decide (removeIter nv (va, vb) p r = some r))

theorem diverges_of_comesBack {fuel : Nat} {vs : List (Vtx F64)} {e : Edge} {k p : Nat} (h3 : 3 ≤ vs.length) (hp : 0 < p)
    (h : comesBack fuel vs e k p = .ok true) (n : Nat) : constrained2d n defaultBins vs [e] = .diverge := by
  by_contra hd
  have hd' := constrained2d_fuel defaultBins vs [e] n (max n fuel) (le_max_left _ _) hd
  simp only at hd'
  rw [← hd'] at hd
  apply hd
  simp only [comesBack, Res.bind_eq_ok] at h
  obtain ⟨s, hs, v2t, hv, a, ha, b, hb, va, hva, vb, hvb, l, hl, h⟩ := h
  have hs' := more_fuel (wrap_fuel _ _ _) hs (by simp) (le_max_right n fuel)
  simp only [Res.ok.injEq, Bool.and_eq_true, decide_eq_true_eq] at h
  obtain ⟨⟨hab, hne⟩, h⟩ := h
  cases l with
  | nil => exact absurd rfl hne
  | cons d l =>
    cases hr : removeIter (normalizeVerts vs) (va, vb) k ⟨s.ts, v2t, d :: l, [], 0⟩ with
    | none => rw [hr] at h; simp at h
    | some r =>
      rw [hr] at h
      simp only [decide_eq_true_eq] at h
      unfold constrained2d constrainedMesh applyConstraints applyLoop applyOne insertEdge
      rw [if_neg (by omega)]
      simp only [hs', hv, ha, hb, hva, hvb, hl, Res.ok_bind, if_neg hab, List.not_mem_nil, if_false,
        removeCrossed_cycle hp hr h]
      rfl

/-- **C27** is false in `f64`: on six integer points and one constraint (through a vertex) `remove_crossed_edges`
returns to an earlier state and the run never ends. -/
theorem C27_terminates_refuted (fuel : Nat) : constrained2d fuel defaultBins (fpts loopPts) [⟨4, 0⟩] = .diverge :=
  diverges_of_comesBack (fuel := 200) (k := 10) (p := 12) (by decide) (by decide) (by decide +kernel) fuel

/-! ## C41 -/

/-- Eight integer points. -/
def cyclePts : List (Int × Int) := [(7,4),(0,0),(4,2),(13,0),(13,12),(34,0),(17,17),(12,1)]

/-- **C41** is false: for eight distinct integer points with separated predicates the unconstrained triangulation fails, in
exact arithmetic and in `f64`, because the search for the place of a vertex walks in a circle. The constrained one fails
in the same way whatever the constraints are. -/
theorem C41_succeeds_refuted :
    Good 200 defaultBins (pts cyclePts) ∧ (pts cyclePts).Nodup ∧
    ∀ fuel, 200 ≤ fuel →
      triangulation2d fuel defaultBins (pts cyclePts) = .err .placementNotFound ∧
      triangulation2d fuel defaultBins (fpts cyclePts) = .err .placementNotFound ∧
      ∀ es, constrained2d fuel defaultBins (pts cyclePts) es = .err .placementNotFound := by
  refine ⟨good_pts (by unfold InRange; decide +kernel) ⟨⟨7, 4⟩, by decide +kernel, ⟨0, 0⟩, by decide +kernel, by decide +kernel⟩
    (by decide +kernel) (by decide +kernel) (by decide +kernel) (by decide +kernel), by decide +kernel, fun fuel hf => ⟨?_, ?_, fun es => ?_⟩⟩
  · exact more_fuel (n := 200) (triangulation2d_fuel _ _) (by decide +kernel) (by simp) hf
  · exact more_fuel (n := 200) (triangulation2d_fuel _ _) (by decide +kernel) (by simp) hf
  · have h : wrapAndTriangulate fuel (defaultBins (pts cyclePts).length) (normalizeVerts (pts cyclePts))
        (some ((List.range (pts cyclePts).length).map toId)) = .err .placementNotFound :=
      more_fuel (n := 200) (wrap_fuel _ _ _) (by decide +kernel) (by simp) hf
    unfold constrained2d constrainedMesh
    rw [if_neg (by decide)]
    simp only [h, Res.err_bind]

end CDT

import Verif.Props.Refuted
import Verif.Model.Rounded

/-!
# Claims that hold in exact arithmetic but not with `f64` rounding

The witnesses are integer points, evaluated by the kernel with IEEE `f64` (`Model/SoftFloat.lean`).
-/

set_option linter.unusedSectionVars false

namespace CDT
open Plane Witness
local instance : IdCfg := u32Cfg

/-- A successful outcome that satisfies a test. -/
def okAnd {α : Type} (r : Res α) (p : α → Bool) : Bool :=
  match r with
  | .ok a => p a
  | _ => false

theorem okAnd_iff {α : Type} {r : Res α} {p : α → Bool} : okAnd r p = true ↔ ∃ a, r = .ok a ∧ p a = true := by
  cases r <;> simp [okAnd]

/-! ## C03, C04 -/

/-- Four points, two of which are nearly on the line through others. -/
def turnedPts : List (Int × Int) := [(1,1000000002),(0,1000000001),(1,1000000001),(2,0)]

/-- **C03** needs predicate values that are zero or at least `EPSILON`: with `f64` a counter-clockwise triangle is
returned. -/
theorem C03_needs_separation :
    (∀ fuel, 100 ≤ fuel → triangulation2d fuel defaultBins (fpts turnedPts) = .ok [(0,2,3),(0,3,1)]) ∧
    ∃ A B C, (pts turnedPts)[0]? = some A ∧ (pts turnedPts)[2]? = some B ∧ (pts turnedPts)[3]? = some C ∧
      Clockwise C B A := by
  refine ⟨fun fuel hf => ?_, ?_⟩
  · exact more_fuel (n := 100) (triangulation2d_fuel _ _) (by decide +kernel) (by simp) hf
  · exact ⟨⟨1,1000000002⟩, ⟨1,1000000001⟩, ⟨2, 0⟩, by decide +kernel, by decide +kernel, by decide +kernel,
      by unfold Clockwise; decide +kernel⟩

/-- Five points with two overlapping triangles in the `f64` result. -/
def overlapPts : List (Int × Int) := [(1000000000,0),(1,2),(2,1),(2,1000000000),(0,0)]

/-- **C04** is false in `f64`: the point `(1.9, 1.5)` is strictly inside the first and the third triangle. -/
theorem C04_disjoint_refuted :
    (∀ fuel, 100 ≤ fuel → triangulation2d fuel defaultBins (fpts overlapPts) = .ok [(1,3,2),(1,4,3),(0,4,1)]) ∧
    ∃ A B C D E q : Vtx ℚ, pts overlapPts = [A, B, C, D, E] ∧ InTriangle B D C q ∧ InTriangle A E B q := by
  refine ⟨fun fuel hf => ?_, ?_⟩
  · exact more_fuel (n := 100) (triangulation2d_fuel _ _) (by decide +kernel) (by simp) hf
  · exact ⟨⟨1000000000,0⟩, ⟨1,2⟩, ⟨2,1⟩, ⟨2,1000000000⟩, ⟨0,0⟩, ⟨19/10, 3/2⟩, by decide +kernel,
      by unfold InTriangle Clockwise; decide +kernel, by unfold InTriangle Clockwise; decide +kernel⟩

/-! ## C34 -/

/-- The rational value of a vertex (infinities and NaN are not used). -/
def ratV (v : Vtx F64) : Vtx ℚ := ⟨v.x.value.getD 0, v.y.value.getD 0⟩

/-- The normalized vertices of `overlapPts`, as computed in `f64`. -/
def overlapNorm : List (Vtx ℚ) := (normalizeVerts (fpts overlapPts)).map ratV

/-- **C34** is false in `f64`: a point in general position lies in two triangles of the working mesh. Positions are
those the run works with, no further rounding is involved. -/
theorem C34_tiling_refuted : ∃ (s : DT) (q : Vtx ℚ) (t u : Tri),
    (∀ fuel, 100 ≤ fuel → wrapAndTriangulate fuel (defaultBins 5) (normalizeVerts (fpts overlapPts)) none = .ok s) ∧
    (∀ A ∈ overlapNorm, q.x ≠ A.x ∧ q.y ≠ A.y) ∧ (∀ A ∈ overlapNorm, ∀ B ∈ overlapNorm, A ≠ B → area2 A B q ≠ 0) ∧
    s.ts[1]? = some t ∧ s.ts[10]? = some u ∧
    (∃ A B C, overlapNorm[t.v1]? = some A ∧ overlapNorm[t.v2]? = some B ∧ overlapNorm[t.v3]? = some C ∧ InTriangle A B C q) ∧
    ∃ A B C, overlapNorm[u.v1]? = some A ∧ overlapNorm[u.v2]? = some B ∧ overlapNorm[u.v3]? = some C ∧ InTriangle A B C q := by
  have key : okAnd (wrapAndTriangulate 100 (defaultBins 5) (normalizeVerts (fpts overlapPts)) none) (fun s =>
      decide (s.ts[1]?.map (fun t => (t.v1, t.v2, t.v3)) = some (1, 3, 2) ∧
        s.ts[10]?.map (fun t => (t.v1, t.v2, t.v3)) = some (0, 4, 1))) = true := by decide +kernel
  obtain ⟨s, hs, h⟩ := okAnd_iff.1 key
  simp only [decide_eq_true_eq, Option.map_eq_some_iff, Prod.mk.injEq] at h
  obtain ⟨⟨t, ht, h1, h2, h3⟩, u, hu, k1, k2, k3⟩ := h
  refine ⟨s, ⟨19/10000000000, 31/20000000000⟩, t, u, fun fuel hf => ?_, by decide +kernel, by unfold area2; decide +kernel, ht, hu, ?_, ?_⟩
  · exact more_fuel (n := 100) (wrap_fuel _ _ _) hs (by simp) hf
  · rw [h1, h2, h3]
    refine ⟨_, _, _, (by decide +kernel : overlapNorm[1]? = some (overlapNorm[1]?.getD ⟨0, 0⟩)),
      (by decide +kernel : overlapNorm[3]? = some (overlapNorm[3]?.getD ⟨0, 0⟩)),
      (by decide +kernel : overlapNorm[2]? = some (overlapNorm[2]?.getD ⟨0, 0⟩)), ?_⟩
    unfold InTriangle Clockwise; decide +kernel
  · rw [k1, k2, k3]
    refine ⟨_, _, _, (by decide +kernel : overlapNorm[0]? = some (overlapNorm[0]?.getD ⟨0, 0⟩)),
      (by decide +kernel : overlapNorm[4]? = some (overlapNorm[4]?.getD ⟨0, 0⟩)),
      (by decide +kernel : overlapNorm[1]? = some (overlapNorm[1]?.getD ⟨0, 0⟩)), ?_⟩
    unfold InTriangle Clockwise; decide +kernel

/-! ## C05 -/

/-- Five points with a directed edge in two triangles of the `f64` result. -/
def twicePts : List (Int × Int) := [(2,1000000001),(1,1000000000),(0,1000000001),(2,0),(1000000000,1000000001)]

/-- **C05** is false in `f64`: the directed edge from 0 to 3 belongs to two triangles. -/
theorem C05_manifold_refuted : ∃ (out : List Out) (t u : Out) (e : Nat × Nat),
    (∀ fuel, 100 ≤ fuel → triangulation2d fuel defaultBins (fpts twicePts) = .ok out) ∧
    out[1]? = some t ∧ out[4]? = some u ∧ e ∈ Spec.outEdges t ∧ e ∈ Spec.outEdges u := by
  refine ⟨[(0,1,3),(0,3,1),(0,4,3),(0,2,4),(0,3,2)], (0,3,1), (0,3,2), (0, 3), fun fuel hf => ?_, rfl, rfl, ?_, ?_⟩
  · exact more_fuel (n := 100) (triangulation2d_fuel _ _) (by decide +kernel) (by simp) hf
  · decide +kernel
  · decide +kernel

/-! ## C33 -/

/-- Six points for which the adjacency becomes asymmetric in `f64`. -/
def asymPts : List (Int × Int) := [(1000000000,1),(1,0),(1000000002,1),(1000000002,1000000000),(1,1),(0,2)]

/-- **C33** is false in `f64`: in the final working mesh the neighbor across some edge does not have the reversed
edge with this triangle behind it. -/
theorem C33_adjacency_refuted : ∃ s : DT,
    (∀ fuel, 100 ≤ fuel → wrapAndTriangulate fuel (defaultBins 6) (normalizeVerts (fpts asymPts)) none = .ok s) ∧
    ¬ Spec.Adjacency s.ts := by
  have key : okAnd (wrapAndTriangulate 100 (defaultBins 6) (normalizeVerts (fpts asymPts)) none) (fun s =>
      decide (s.ts[6]? = some ⟨3, 4, 0, 12, 11, 13⟩ ∧ s.ts[11]? = some ⟨0, 4, 1, 12, 6, 10⟩)) = true := by decide +kernel
  obtain ⟨s, hs, h⟩ := okAnd_iff.1 key
  simp only [decide_eq_true_eq] at h
  refine ⟨s, fun fuel hf => more_fuel (n := 100) (wrap_fuel _ _ _) hs (by simp) hf, fun ha => ?_⟩
  rcases ha 6 _ h.1 4 0 11 (by decide) with ⟨h1, -⟩ | ⟨-, u, hu, hm⟩
  · exact absurd h1 (by decide)
  · rw [h.2] at hu
    obtain rfl := Option.some.inj hu
    exact absurd hm (by decide)

/-! ## C35 -/

/-- Seven points. -/
def unsettledPts : List (Int × Int) :=
  [(1,1000000002),(0,1000000002),(1000000002,1000000002),(1000000001,1000000000),(1000000001,1000000002),(1000000000,1000000002),(1,2)]

/-- **C35** is false in `f64`: after the last insertion (of vertex 0) an edge opposite to the inserted vertex satisfies
the swap test. -/
theorem C35_settled_refuted : ∃ (s s' : DT) (t u : Tri),
    binSort (defaultBins 7) (normalizeVerts (fpts unsettledPts)) = .ok [6, 5, 4, 3, 2, 1, 0] ∧
    (∀ fuel, 200 ≤ fuel →
      insertAll (normalizeVerts (fpts unsettledPts)) fuel [5, 4, 3, 2, 1] ⟨initialTriangles 6, 3, none⟩ = .ok s ∧
      insertVertex (normalizeVerts (fpts unsettledPts)) fuel s 0 = .ok s') ∧
    s'.ts[13]? = some t ∧ s'.ts[11]? = some u ∧
    (0, 5) ∈ (Spec.edges t).map (fun e => (e.1, e.2.1)) ∧ (5, 1, 11) ∈ Spec.edges t ∧ (1, 5, 13) ∈ Spec.edges u ∧
    (5, 0) ∈ (Spec.edges u).map (fun e => (e.1, e.2.1)) ∧
    shouldSwap (normalizeVerts (fpts unsettledPts)) ⟨5, 1, 0, 0⟩ = .ok true := by
  have key : okAnd (insertAll (normalizeVerts (fpts unsettledPts)) 200 [5, 4, 3, 2, 1] ⟨initialTriangles 6, 3, none⟩) (fun s =>
      okAnd (insertVertex (normalizeVerts (fpts unsettledPts)) 200 s 0) fun s' =>
      decide (s'.ts[13]? = some ⟨0, 5, 1, 1, 11, 11⟩ ∧ s'.ts[11]? = some ⟨0, 1, 5, 13, 13, 12⟩)) = true := by decide +kernel
  obtain ⟨s, hs, h⟩ := okAnd_iff.1 key
  obtain ⟨s', hs', h⟩ := okAnd_iff.1 h
  simp only [decide_eq_true_eq] at h
  refine ⟨s, s', _, _, by decide +kernel, fun fuel hf => ⟨?_, ?_⟩, h.1, h.2, by decide, by decide, by decide, by decide, by decide +kernel⟩
  · exact more_fuel (n := 200) (insertAll_fuel _ _ _) hs (by simp) hf
  · exact more_fuel (n := 200) (insertVertex_fuel _ _ _) hs' (by simp) hf

/-! ## C08 -/

/-- Seven points, nearly on a line. -/
def lostPts : List (Int × Int) :=
  [(8363827879402350, 8363827879402352), (7077085128725065, 7077085128725067), (7720456504063707, 7720456504063691),
   (9650570630079634, 9650570630079642), (12224056131434204, 12224056131434188), (9650570630079634, 9650570630079636), (0, 0)]

/-- **C08** is false in `f64`: the run succeeds, vertex 5 was not merged with any other vertex, and no triangle of the
working mesh uses it. -/
theorem C08_merged_or_inserted_refuted : ∃ s : DT,
    (∀ fuel, 200 ≤ fuel →
      wrapAndTriangulate fuel (defaultBins 7) (normalizeVerts (fpts lostPts)) (some ((List.range 7).map toId)) = .ok s) ∧
    (∃ l, s.merge = some l ∧ l[5]? = some 5) ∧ ¬ ∃ t ∈ s.ts, 5 = t.v1 ∨ 5 = t.v2 ∨ 5 = t.v3 := by
  have key : okAnd (wrapAndTriangulate 200 (defaultBins 7) (normalizeVerts (fpts lostPts)) (some ((List.range 7).map toId))) (fun s =>
      decide (s.merge = some [0, 1, 2, 3, 4, 5, 6] ∧ ¬ ∃ t ∈ s.ts, 5 = t.v1 ∨ 5 = t.v2 ∨ 5 = t.v3)) = true := by decide +kernel
  obtain ⟨s, hs, h⟩ := okAnd_iff.1 key
  simp only [decide_eq_true_eq] at h
  exact ⟨s, fun fuel hf => more_fuel (n := 200) (wrap_fuel _ _ _) hs (by simp) hf, ⟨_, h.1, rfl⟩, h.2⟩

/-! ## C10 -/

/-- Eleven integer points in two nearly degenerate groups. -/
def crashPts : List (Int × Int) :=
  [(70368744177657,187649984473775), (70368744177662,187649984473770), (70368744177655,187649984473770),
   (105553116266502,175921860444160), (140737488355327,187649984473775), (70368744177669,134873426340518),
   (70368744177666,164193736414544), (70368744177667,164193736414543), (562949953421319,187649984473770),
   (70368744177665,134873426340519), (1266637395197952,187649984473770)]

/-- **C10** is false in `f64`: eleven distinct points, exactly representable, on which the unconstrained triangulation panics
with the default configuration. -/
theorem C10_no_panic_refuted :
    crashPts.Nodup ∧ (∀ v ∈ crashPts, Fl.mk binary64 v.1 = .fin v.1 ∧ Fl.mk binary64 v.2 = .fin v.2) ∧
    ∀ fuel, 300 ≤ fuel → triangulation2d fuel defaultBins (fpts crashPts) = .panic :=
  ⟨by decide +kernel, by decide +kernel,
    fun _ hf => more_fuel (n := 300) (triangulation2d_fuel _ _) (by decide +kernel) (by simp) hf⟩

/-! ## C14, C15 -/

/-- **C14** is false in `f64`: three collinear points whose normalized positions are not collinear. -/
theorem C14_normalize_refuted :
    ∃ A B C, pts [(3,0),(0,3),(2,1)] = [A, B, C] ∧ area2 A B C = 0 ∧
      ∃ A' B' C', (normalizeVerts (fpts [(3,0),(0,3),(2,1)])).map ratV = [A', B', C'] ∧ area2 A' B' C' ≠ 0 := by
  refine ⟨⟨3, 0⟩, ⟨0, 3⟩, ⟨2, 1⟩, by decide +kernel, by unfold area2; decide +kernel, ⟨1, 0⟩, ⟨0, 1⟩,
    ⟨6004799503160661/9007199254740992, 6004799503160661/18014398509481984⟩, by decide +kernel, by unfold area2; decide +kernel⟩

/-- Three points whose extent is not exactly representable. -/
def scalePts : List (Int × Int) := [(1, 9007199254740992), (9007199254740992, 1), (-1, 9007199254740992)]

/-- **C15** is false in `f64`: multiplying all coordinates by 3, without rounding, changes the result. -/
theorem C15_scale_refuted :
    (∀ v ∈ scalePts, (Fl.mk binary64 v.1 = .fin v.1 ∧ Fl.mk binary64 v.2 = .fin v.2) ∧
      Fl.mk binary64 (3 * v.1) = .fin (3 * v.1) ∧ Fl.mk binary64 (3 * v.2) = .fin (3 * v.2)) ∧
    ∀ fuel, 100 ≤ fuel → triangulation2d fuel defaultBins (fpts scalePts) = .ok [(0,1,2)] ∧
      triangulation2d fuel defaultBins (fpts (scalePts.map fun v => (3 * v.1, 3 * v.2))) = .ok [] := by
  refine ⟨by decide +kernel, fun fuel hf => ⟨?_, ?_⟩⟩
  · exact more_fuel (n := 100) (triangulation2d_fuel _ _) (by decide +kernel) (by simp) hf
  · exact more_fuel (n := 100) (triangulation2d_fuel _ _) (by decide +kernel) (by simp) hf

/-! ## C31 -/

/-- Four points; 3, 0, 2 are on a line. -/
def survivePts : List (Int × Int) := [(230087533,230087533),(1,345435666),(230087534,230087534),(153391690,153391690)]

/-- **C31** is false in `f64`: the constraint `(1, 0)` is an edge of the mesh, and is not any more once the constraint
`(2, 3)` was added, which goes through vertex 0 but does not properly cross the edge. -/
theorem C31_edge_survives_refuted : ∃ r1 r2 : AC,
    (∀ fuel, 300 ≤ fuel → constrainedMesh fuel defaultBins (fpts survivePts) [⟨1, 0⟩] = .ok r1 ∧
      constrainedMesh fuel defaultBins (fpts survivePts) [⟨1, 0⟩, ⟨2, 3⟩] = .ok r2) ∧
    Spec.MeshEdge r1.ts 1 0 ∧ ¬ Spec.MeshEdge r2.ts 1 0 ∧ ¬ Spec.MeshEdge r2.ts 0 1 ∧
    ∃ A B C D, pts survivePts = [A, B, C, D] ∧ ¬ Plane.Cross C D B A := by
  have k1 : okAnd (constrainedMesh 300 defaultBins (fpts survivePts) [⟨1, 0⟩]) (fun r =>
      r.ts.any fun t => (Spec.edges t).any fun e => decide (e.1 = 1 ∧ e.2.1 = 0)) = true := by decide +kernel
  have k2 : okAnd (constrainedMesh 300 defaultBins (fpts survivePts) [⟨1, 0⟩, ⟨2, 3⟩]) (fun r =>
      r.ts.all fun t => (Spec.edges t).all fun e => decide (¬ (e.1 = 1 ∧ e.2.1 = 0) ∧ ¬ (e.1 = 0 ∧ e.2.1 = 1))) = true := by
    decide +kernel
  obtain ⟨r1, h1, g1⟩ := okAnd_iff.1 k1
  obtain ⟨r2, h2, g2⟩ := okAnd_iff.1 k2
  simp only [List.any_eq_true, List.all_eq_true, decide_eq_true_eq] at g1 g2
  refine ⟨r1, r2, fun fuel hf => ⟨more_fuel (n := 300) (constrainedMesh_fuel _ _ _) h1 (by simp) hf,
    more_fuel (n := 300) (constrainedMesh_fuel _ _ _) h2 (by simp) hf⟩, ?_, ?_, ?_, ?_⟩
  · obtain ⟨t, ht, ⟨a, b, j⟩, he, e1, e2⟩ := g1
    simp only at e1 e2
    subst e1 e2
    exact ⟨t, ht, j, he⟩
  · rintro ⟨t, ht, j, he⟩
    exact (g2 t ht _ he).1 ⟨rfl, rfl⟩
  · rintro ⟨t, ht, j, he⟩
    exact (g2 t ht _ he).2 ⟨rfl, rfl⟩
  · exact ⟨⟨230087533,230087533⟩, ⟨1,345435666⟩, ⟨230087534,230087534⟩, ⟨153391690,153391690⟩, by decide +kernel,
      by unfold Plane.Cross area2; decide +kernel⟩

end CDT

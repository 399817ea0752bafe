import Verif.Geo.RoundRun
import Verif.Props.Input
import Verif.Props.Walk

/-!
# The unconstrained triangulation in rounded arithmetic

For inputs whose geometric quantities are not too close to zero (`Plane.Robust`) a run in any arithmetic with correctly
rounded operations (`Rounded`) takes the same decisions as the exact run. The theorems below are statements about the run in
the rounded arithmetic; the geometry is that of the exact values of the input coordinates.
-/

set_option linter.unusedSectionVars false

namespace CDT
open Plane Rounded

variable {F : Type} [FloatOps F] [Rounded F] [IdCfg] {fuel : Nat} {bins : Nat → Nat} {vs : List (Vtx F)}
  {V : List (Vtx ℚ)} {W : ℚ}

/-- **C13** in rounded arithmetic: normalization and bin sort succeed and give a permutation of the vertices. No robustness
is needed. -/
theorem C13_rounded (b : Nat) (h : Input vs V W) (hb : 1 ≤ b) (hc : (b : ℚ) ≤ cap (F := F)) (hn : vs.length ≤ IdCfg.maxId + 1) :
    ∃ out, binSort b (normalizeVerts vs) = .ok out ∧ out.Perm (List.range vs.length) :=
  binSort_ok h hb hc hn

namespace Rounded

theorem RGood.binSort_eq (h : RGood fuel bins vs V W) :
    letI := params F (bins vs.length) W (scaleVal vs)
    binSort (bins vs.length) (normalizeVerts vs) = binSort (bins V.length) (normalizeVerts V) := by
  let P := params F (bins vs.length) W (scaleVal vs)
  rw [h.len]
  exact Rounded.binSort_eq P _ ((normalize_near h.toInput h.row h.cap).imp fun _ _ h => h.2)

/-- Every prefix of the rounded run is the prefix of the exact run. -/
theorem RGood.insertAll_eq (h : RGood fuel bins vs V W) {first : Nat} {rest : List Nat}
    (hb : binSort (bins vs.length) (normalizeVerts vs) = .ok (first :: rest)) (k : Nat) :
    letI := params F (bins vs.length) W (scaleVal vs)
    insertAll (normalizeVerts vs) fuel (rest.take k) ⟨initialTriangles first, 3, none⟩ =
      insertAll (normalizeVerts V) fuel (rest.take k) ⟨initialTriangles first, 3, none⟩ := by
  let P := params F (bins vs.length) W (scaleVal vs)
  have hG := h.good
  have hl : (normalizeVerts V).length = vs.length := by rw [normalizeVerts_length', h.len]
  have hB := IdCfg.big
  have hids := h.ids
  obtain ⟨out, ho, hperm⟩ := binSort_ok h.toInput h.row h.cap (by unfold NONE at hids; omega)
  rw [hb] at ho
  simp only [Res.ok.injEq] at ho
  subst ho
  have hnd : (first :: rest).Nodup := hperm.nodup_iff.2 List.nodup_range
  have hlt : ∀ v ∈ first :: rest, v < (normalizeVerts V).length := fun v hv => by rw [hl]; simpa using hperm.subset hv
  have hlen := hperm.length_eq
  simp at hlen
  rw [List.nodup_cons] at hnd
  have hsub := List.take_subset k rest
  refine h.agree.insertAll hG.sep (by rw [hl]; exact hids) (by rw [hl]; exact h.fuel) _ [first] [first] _
    (initial_dinv (hlt first (by simp)) hG.ids_inf none (mergeInit_none _)) (hnd.2.sublist (List.take_sublist _ _)) ?_ ?_ ?_
  · intro v hv hc
    simp at hc
    subst hc
    exact hnd.1 (hsub hv)
  · intro v hv
    exact hlt v (by simp [hsub hv])
  · simp [hl]; omega

end Rounded

/-- **C10** in rounded arithmetic. -/
theorem C10_rounded_partial (h : RGood fuel bins vs V W) :
    (∃ out, triangulation2d fuel bins vs = .ok out) ∨ triangulation2d fuel bins vs = .err .placementNotFound := by
  let P := params F (bins vs.length) W (scaleVal vs)
  rw [h.run]
  exact C10_no_panic_partial fuel bins V h.good

/-- **C09** in rounded arithmetic. -/
theorem C09_rounded_partial (h : RGood fuel bins vs V W) : triangulation2d fuel bins vs ≠ .diverge := by
  let P := params F (bins vs.length) W (scaleVal vs)
  rw [h.run]
  exact C09_terminates_partial fuel bins V h.good

/-- **C03** in rounded arithmetic. -/
theorem C03_rounded (h : RGood fuel bins vs V W) (out : List Out) (ho : triangulation2d fuel bins vs = .ok out) :
    ∀ a b c, (a, b, c) ∈ out → ∃ A B C, V[a]? = some A ∧ V[b]? = some B ∧ V[c]? = some C ∧ Clockwise A B C := by
  let P := params F (bins vs.length) W (scaleVal vs)
  rw [h.run] at ho
  exact C03_clockwise fuel bins V h.good out ho

/-- **C04** in rounded arithmetic. -/
theorem C04_rounded_partial (h : RGood fuel bins vs V W) (out : List Out) (ho : triangulation2d fuel bins vs = .ok out)
    (i j : Nat) (hij : i ≠ j) (a b c a' b' c' : Nat) (hi : out[i]? = some (a, b, c)) (hj : out[j]? = some (a', b', c'))
    (A B C A' B' C' : Vtx ℚ) (gA : V[a]? = some A) (gB : V[b]? = some B) (gC : V[c]? = some C)
    (gA' : V[a']? = some A') (gB' : V[b']? = some B') (gC' : V[c']? = some C') (q : Vtx ℚ) :
    ¬ (InTriangle A B C q ∧ InTriangle A' B' C' q) := by
  let P := params F (bins vs.length) W (scaleVal vs)
  rw [h.run] at ho
  exact C04_disjoint_partial fuel bins V h.good out ho i j hij a b c a' b' c' hi hj A B C A' B' C' gA gB gC gA' gB' gC' q

/-- **C05** in rounded arithmetic. -/
theorem C05_rounded_partial (h : RGood fuel bins vs V W) (out : List Out) (ho : triangulation2d fuel bins vs = .ok out) :
    (∀ (i j : Nat) (t u : Out), out[i]? = some t → out[j]? = some u → i ≠ j → ∀ e,
      ¬ (e ∈ Spec.outEdges t ∧ e ∈ Spec.outEdges u)) ∧
    (∀ (i j k : Nat) (t u v : Out), out[i]? = some t → out[j]? = some u → out[k]? = some v → i ≠ j → j ≠ k → i ≠ k →
      ∀ a b, ¬ (((a, b) ∈ Spec.outEdges t ∨ (b, a) ∈ Spec.outEdges t) ∧
        ((a, b) ∈ Spec.outEdges u ∨ (b, a) ∈ Spec.outEdges u) ∧
        ((a, b) ∈ Spec.outEdges v ∨ (b, a) ∈ Spec.outEdges v))) ∧
    out.Nodup := by
  let P := params F (bins vs.length) W (scaleVal vs)
  rw [h.run] at ho
  exact C05_manifold_partial fuel bins V h.good out ho

/-- **C11** in rounded arithmetic. -/
theorem C11_rounded (h : RGood fuel bins vs V W) (out : List Out) (ho : triangulation2d fuel bins vs = .ok out) :
    out.length ≤ 2 * vs.length - 2 := by
  let P := params F (bins vs.length) W (scaleVal vs)
  rw [h.run] at ho
  rw [← h.len]
  exact C11_exact_bound fuel bins V h.good out ho

/-- **C08** in rounded arithmetic. -/
theorem C08_rounded_partial (h : RGood fuel bins vs V W)
    (m : Option (List Nat)) (hm : m = none ∨ m = some ((List.range vs.length).map toId)) (s : DT)
    (hs : wrapAndTriangulate fuel (bins vs.length) (normalizeVerts vs) m = .ok s) :
    ∀ v, v < vs.length →
      ((∃ t ∈ s.ts, v = t.v1 ∨ v = t.v2 ∨ v = t.v3) ∧ ∀ l, s.merge = some l → l[v]? = some v) ∨
      ((¬ ∃ t ∈ s.ts, v = t.v1 ∨ v = t.v2 ∨ v = t.v3) ∧ ∃ x, x < vs.length ∧ x ≠ v ∧ V[x]? = V[v]? ∧
        (∃ t ∈ s.ts, x = t.v1 ∨ x = t.v2 ∨ x = t.v3) ∧ ∀ l, s.merge = some l → l[v]? = some x) := by
  let P := params F (bins vs.length) W (scaleVal vs)
  have hmi : MergeInit vs.length m := by
    rcases hm with rfl | rfl
    · exact mergeInit_none _
    · exact mergeInit_range _ (by have := h.ids; omega)
  rw [h.wrap m hmi] at hs
  rw [← h.len] at hm ⊢
  exact C08_merged_or_inserted_partial fuel bins V h.good m hm s (by rw [h.len]; exact hs)

/-- **C33** in rounded arithmetic: after any number of insertions the neighbor relation is symmetric and every triangle,
including the unbounded ones, is strictly clockwise. -/
theorem C33_rounded_partial (h : RGood fuel bins vs V W) (first : Nat) (rest : List Nat)
    (hb : binSort (bins vs.length) (normalizeVerts vs) = .ok (first :: rest)) (k : Nat) (s : DT)
    (hs : insertAll (normalizeVerts vs) fuel (rest.take k) ⟨initialTriangles first, 3, none⟩ = .ok s) :
    Spec.Adjacency s.ts ∧ (∀ t ∈ s.ts, FarClockwise V t.v1 t.v2 t.v3) ∧
      (∀ t ∈ s.ts, ∀ v, v = t.v1 ∨ v = t.v2 ∨ v = t.v3 → v ∈ first :: rest.take k ∨ (INF0 ≤ v ∧ v ≤ INF3)) := by
  let P := params F (bins vs.length) W (scaleVal vs)
  rw [h.insertAll_eq hb k] at hs
  rw [h.binSort_eq] at hb
  exact C33_input_partial fuel bins V h.good first rest hb k s hs

/-- **C34** in rounded arithmetic: after any number of insertions every point in general position lies in exactly one
triangle of the mesh, bounded or unbounded. -/
theorem C34_rounded_partial (h : RGood fuel bins vs V W) (first : Nat) (rest : List Nat)
    (hb : binSort (bins vs.length) (normalizeVerts vs) = .ok (first :: rest)) (k : Nat) (s : DT)
    (hs : insertAll (normalizeVerts vs) fuel (rest.take k) ⟨initialTriangles first, 3, none⟩ = .ok s)
    (q : Vtx ℚ) (hq : Generic V (first :: rest.take k) q) :
    ∃! i : Nat, ∃ t : Tri, s.ts[i]? = some t ∧ FarInTriangle V t.v1 t.v2 t.v3 q := by
  let P := params F (bins vs.length) W (scaleVal vs)
  rw [h.insertAll_eq hb k] at hs
  rw [h.binSort_eq] at hb
  exact C34_input_partial fuel bins V h.good first rest hb k s hs q hq

/-- **C06**, **C35** in rounded arithmetic, what is guaranteed: after every insertion of a vertex `v`, for each triangle
`v a b` of the mesh and the triangle `b a c` behind its edge `a b`, all vertices being real, neither the vertex `c` is strictly
inside the circumcircle of `v a b`, nor `v` inside the circumcircle of `a b c`. -/
theorem C35_rounded_partial (h : RGood fuel bins vs V W) (first : Nat) (rest : List Nat)
    (hb : binSort (bins vs.length) (normalizeVerts vs) = .ok (first :: rest)) (k v : Nat) (hk : rest[k]? = some v) (s : DT)
    (hs : insertAll (normalizeVerts vs) fuel (rest.take (k + 1)) ⟨initialTriangles first, 3, none⟩ = .ok s) :
    ∀ (i j : Nat) (t u : Tri) (a b c : Nat), s.ts[i]? = some t → s.ts[j]? = some u →
      (v, a) ∈ (Spec.edges t).map (fun e => (e.1, e.2.1)) → (a, b, j) ∈ Spec.edges t →
      (b, a, i) ∈ Spec.edges u → (a, c) ∈ (Spec.edges u).map (fun e => (e.1, e.2.1)) →
      ∀ P A B C, V[v]? = some P → V[a]? = some A → V[b]? = some B → V[c]? = some C →
        ¬ InCircle P A B C ∧ ¬ InCircle A B C P := by
  let Q := params F (bins vs.length) W (scaleVal vs)
  rw [h.insertAll_eq hb (k + 1)] at hs
  rw [h.binSort_eq] at hb
  intro i j t u a b c ht hu h1 h2 h3 h4 P A B C gP gA gB gC
  refine ⟨C06_delaunay_partial fuel bins V h.good first rest hb k v hk s hs i j t u a b c ht hu h1 h2 h3 h4 P A B C gP gA gB gC, ?_⟩
  have e1 : rest.take (k + 1) = rest.take k ++ [v] := by rw [List.take_succ, hk]; rfl
  rw [e1, insertAll_append, Res.bind_eq_ok] at hs
  obtain ⟨s0, hs0, hs1⟩ := hs
  simp only [insertAll] at hs1
  rw [Res.bind_eq_ok] at hs1
  obtain ⟨s1, hs1, hs2⟩ := hs1
  simp only [Res.ok.injEq] at hs2
  subst hs2
  have lt : ∀ {x : Nat} {X : Vtx ℚ}, V[x]? = some X → x < INF0 := by
    intro x X hx
    have := (List.getElem?_eq_some_iff.1 hx).1
    have := h.good.ids_inf
    rw [normalizeVerts_length'] at this
    omega
  exact (C35_settled_partial fuel bins V h.good first rest hb k v hk s0 s1 hs0 hs1 i j t u a b c ht hu h1 h2 h3 h4).2
    (lt gA) (lt gB) (lt gC) A B C P gA gB gC gP

/-- **C07** in rounded arithmetic, what is guaranteed: a point in general position is strictly inside exactly one output
triangle, or in one of the unbounded triangles that are dropped and in no output triangle. -/
theorem C07_rounded_partial (h : RGood fuel bins vs V W) (s : DT)
    (hs : wrapAndTriangulate fuel (bins vs.length) (normalizeVerts vs) none = .ok s)
    (q : Vtx ℚ) (hq : Generic V (List.range vs.length) q) :
    (∃! i : Nat, Spec.CoveredBy V (filterSeq s.ts) q i) ∨
    (¬ ∃ i : Nat, Spec.CoveredBy V (filterSeq s.ts) q i) ∧
      ∃ t ∈ s.ts, (INF0 ≤ t.v1 ∨ INF0 ≤ t.v2 ∨ INF0 ≤ t.v3) ∧ FarInTriangle V t.v1 t.v2 t.v3 q := by
  let P := params F (bins vs.length) W (scaleVal vs)
  rw [h.wrap none (mergeInit_none _)] at hs
  rw [← h.len] at hq
  exact C07_input_partial fuel bins V h.good s (by rw [h.len]; exact hs) q hq

end CDT

namespace CDT
open Witness Plane Rounded
local instance roundedCfg : IdCfg := u32Cfg

/-- Eight points, two of them equal, three on a vertical and three on a horizontal line. -/
def robustSample : List (Int × Int) := [(0,0), (7,1), (3,9), (12,4), (5,6), (7,1), (7,12), (2,4)]

theorem robustSample_good : RGood (F := F64) 100 defaultBins (fpts robustSample) (pts robustSample) 12 where
  vals := by unfold Vals; repeat first | exact .nil | refine .cons (by decide +kernel) ?_
  range := by decide +kernel
  ext := ⟨by norm_num, by decide +kernel, by decide +kernel⟩
  fits := by decide +kernel
  robust := .inl ⟨⟨by norm_num, by decide +kernel, by decide +kernel⟩, by decide +kernel, by decide +kernel,
    by unfold area2; decide +kernel, by unfold Clockwise area2 circleDet; decide +kernel⟩
  row := by decide +kernel
  cap := by decide +kernel
  ids := by decide +kernel
  fuel := by decide

/-- The same points in `f32`. -/
def robustSample32 : List (Vtx F32) := robustSample.map fun p => ⟨.mk _ p.1, .mk _ p.2⟩

theorem robustSample32_good : RGood (F := F32) 100 defaultBins robustSample32 (pts robustSample) 12 where
  vals := by unfold Vals; repeat first | exact .nil | refine .cons (by decide +kernel) ?_
  range := by decide +kernel
  ext := ⟨by norm_num, by decide +kernel, by decide +kernel⟩
  fits := by decide +kernel
  robust := .inl ⟨⟨by norm_num, by decide +kernel, by decide +kernel⟩, by decide +kernel, by decide +kernel,
    by unfold area2; decide +kernel, by unfold Clockwise area2 circleDet; decide +kernel⟩
  row := by decide +kernel
  cap := by decide +kernel
  ids := by decide +kernel
  fuel := by decide

/-- The run in `f64` arithmetic on the sample; vertex 1 is merged with vertex 5. -/
example : triangulation2d 100 defaultBins (fpts robustSample) =
    .ok [(5,0,7),(5,7,4),(6,3,4),(3,5,4),(2,4,7),(2,6,4)] := by decide +kernel

/-- A point in general position. -/
example : ∀ A ∈ pts robustSample, (25/7 : ℚ) ≠ A.x ∧ (49/11 : ℚ) ≠ A.y ∧
    ∀ B ∈ pts robustSample, A ≠ B → area2 A B ⟨25/7, 49/11⟩ ≠ 0 := by unfold area2; decide +kernel

end CDT

import Verif.Geo.Visible
import Verif.Props.Restored

/-!
# C68: locally Delaunay results are constrained Delaunay
-/

set_option linter.unusedSectionVars false
set_option linter.unusedVariables false

namespace CDT
open Plane

variable {K : Type} [Field K] [LinearOrder K] [IsStrictOrderedRing K] [ExactParams K] [IdCfg]

/-- A closed triangle meets the interior of no other one. -/
theorem closed_inAt {vs : List (Vtx K)} {ts : List Tri} (hv : Valid (hp vs) ts) (hT : Tiled vs ts) {i j : Nat} {p : Vtx K}
    (hi : ClosedAt (hp vs) ts (HP.ofVtx p) i) (hj : InAt (hp vs) ts (HP.ofVtx p) j) : i = j := by
  obtain ⟨T, hTi, c1, c2, c3⟩ := hi
  obtain ⟨U, hUj, hin⟩ := hj
  obtain ⟨m, T', hT', m1, m2, m3⟩ := exists_inAt hv hTi
  rw [hTi] at hT'; simp at hT'; subst hT'
  have hw : (0 : K) ≤ (HP.ofVtx m).w := zero_le_one
  obtain ⟨d, hd, hn⟩ := mix_in3 (p := HP.ofVtx p) (v := HP.ofVtx m) rfl hw (.inr ⟨c1, m1⟩) (.inr ⟨c2, m2⟩) (.inr ⟨c3, m3⟩)
  obtain ⟨d', hd', hn'⟩ := mix_in3 (p := HP.ofVtx p) (v := HP.ofVtx m) rfl hw (.inl hin.1) (.inl hin.2.1) (.inl hin.2.2)
  obtain ⟨e, he0, hed⟩ := exists_between (lt_min hd hd')
  rw [lt_min_iff] at hed
  exact hT.disjoint (g := (HP.ofVtx p).mix _ e) rfl ⟨T, hTi, hn e he0 hed.1⟩ ⟨U, hUj, hn' e he0 hed.2⟩

theorem side_norm {vs : List (Vtx K)} (hs : 0 < scaleFactor vs) (hn : (normalizeVerts vs).length ≤ INF0) {a b : Nat} {A B : Vtx K}
    (gA : vs[a]? = some A) (gB : vs[b]? = some B) (q : Vtx K) :
    HP.o (hp (normalizeVerts vs) a) (hp (normalizeVerts vs) b) (HP.ofVtx (toNorm vs q)) = -(area2 A B q / scaleFactor vs ^ 2) := by
  rw [hp_norm_eq hn gA, hp_norm_eq hn gB, o_area2]
  unfold toNorm
  rw [area2_normalized _ _ _ _ _ _ hs.ne']

/-- What is needed of a successful run. -/
theorem Good.output_run {fuel : Nat} {bins : Nat → Nat} {vs : List (Vtx K)} (h : Good fuel bins vs) {es : List Edge} {out : List Out}
    (h3 : 3 ≤ vs.length) (ho : constrained2d fuel bins vs es = .ok out) :
    ∃ (r : AC) (ids : List Nat) (s : DT) (v2t : List Nat), constrainedMesh fuel bins vs es = .ok r ∧ Spec.IsDomainList r.S r.ts out ids ∧
      wrapAndTriangulate fuel (bins vs.length) (normalizeVerts vs) (some ((List.range vs.length).map toId)) = .ok s ∧
      buildV2t s.ts 0 (List.replicate (normalizeVerts vs).length 0) = .ok v2t ∧ AInv (normalizeVerts vs) s.ts ⟨s.ts, v2t, []⟩ ∧
      MergeIn (normalizeVerts vs) s.ts (s.merge.getD []) ∧ (s.merge.getD []).length = vs.length ∧
      (∀ (v a : Nat), (s.merge.getD [])[v]? = some a → vs[a]? = vs[v]?) ∧
      applyLoop (normalizeVerts vs) fuel (s.merge.getD []) es ⟨s.ts, v2t, []⟩ = .ok r ∧
      ∀ t ∈ out, ∃ i T, r.ts[i]? = some T ∧ t = T.verts ∧ Spec.InDomain r.S r.ts i ∧ Spec.FiniteAt r.ts i := by
  obtain ⟨r, ids, hr, hd⟩ := C23_constrained2d fuel bins vs es out h3 ho
  have hr' := hr
  unfold constrainedMesh applyConstraints at hr'
  simp only [Res.bind_eq_ok] at hr'
  obtain ⟨s, hs, -⟩ := hr'
  obtain ⟨v2t, hv, hA, hT, hmi, hml, -, hpos⟩ := h.start hs
  refine ⟨r, ids, s, v2t, hr, hd, hs, hv, hA, hmi, hml, hpos, by rw [← Good.cmesh_eq hs hv]; exact hr, ?_⟩
  intro t ht
  rw [hd.2.2, List.mem_map] at ht
  obtain ⟨i, hi, rfl⟩ := ht
  obtain ⟨h1, h2⟩ := (hd.2.1 i).1 hi
  obtain ⟨T, hTi, -⟩ := id h2
  exact ⟨i, T, hTi, by simp [Spec.vertsAt, hTi, Tri.verts], h1, h2⟩

theorem output_small {fuel : Nat} {bins : Nat → Nat} {vs : List (Vtx K)} {es : List Edge} {out : List Out} (h3 : ¬ 3 ≤ vs.length)
    (ho : constrained2d fuel bins vs es = .ok out) : out = [] := by
  unfold constrained2d at ho
  rw [if_pos (by omega)] at ho
  simpa using ho.symm

/-- An input vertex in an output triangle is at one of its corners. -/
theorem Good.output_empty {fuel : Nat} {bins : Nat → Nat} {vs : List (Vtx K)} (h : Good fuel bins vs) {es : List Edge} {out : List Out}
    (ho : constrained2d fuel bins vs es = .ok out) : ∀ t ∈ out, ∀ a b c A B C P, Spec.CornersOf t a b c → vs[a]? = some A → vs[b]? = some B →
      vs[c]? = some C → P ∈ vs → InClosedTriangle A B C P → P = A ∨ P = B ∨ P = C := by
  by_cases h3 : 3 ≤ vs.length
  swap
  · rw [output_small h3 ho]; simp
  obtain ⟨r, ids, s, v2t, hr, hd, hs, hv2, hA, hmi, hml, hpos, hrun, tri⟩ := h.output_run h3 ho
  obtain ⟨hI, -⟩ := applyLoop_inv h.unit h.ids_inf (fun v x hx => (hmi v x hx).1) hA hrun
  intro t ht a b c A B C P hc gA gB gC hP hin
  obtain ⟨v, hvP⟩ := List.mem_iff_getElem?.1 hP
  obtain ⟨w, hw⟩ : ∃ w, (s.merge.getD [])[v]? = some w := ⟨_, List.getElem?_eq_getElem (hml ▸ lt_of_getElem? hvP)⟩
  have hwP : vs[w]? = some P := (hpos _ _ hw).trans hvP
  obtain ⟨k, U, hU, hh⟩ := steps_occ hI.steps (hmi v w hw).1
  obtain ⟨i, T, hTi, rfl, -, -⟩ := tri _ ht
  have hpl := (C52_constrained fuel bins vs h es).1 r hr
  have corner : Spec.Corner T.verts w := by
    have em := fun A' B' C' g1 g2 g3 => hpl.empty T.verts (List.mem_map_of_mem (List.mem_of_getElem? hTi)) U.verts
      (List.mem_map_of_mem (List.mem_of_getElem? hU)) w A' B' C' P (corner_verts.2 hh) g1 g2 g3 hwP
    rcases hc with hc | hc | hc <;> simp only [Tri.verts, Prod.mk.injEq] at hc <;> obtain ⟨e1, e2, e3⟩ := hc
    · exact em A B C (by rw [← gA, ← e1]; rfl) (by rw [← gB, ← e2]; rfl) (by rw [← gC, ← e3]; rfl) hin.1 hin.2.1 hin.2.2
    · exact em B C A (by rw [← gB, ← e1]; rfl) (by rw [← gC, ← e2]; rfl) (by rw [← gA, ← e3]; rfl) hin.2.1 hin.2.2 hin.1
    · exact em C A B (by rw [← gC, ← e1]; rfl) (by rw [← gA, ← e2]; rfl) (by rw [← gB, ← e3]; rfl) hin.2.2 hin.1 hin.2.1
  have : w = a ∨ w = b ∨ w = c := by
    rcases hc with hc | hc | hc <;> rw [hc] at corner <;> simp only [Spec.Corner] at corner <;> tauto
  rcases this with rfl | rfl | rfl
  · rw [gA] at hwP; cases hwP; exact .inl rfl
  · rw [gB] at hwP; cases hwP; exact .inr (.inl rfl)
  · rw [gC] at hwP; cases hwP; exact .inr (.inr rfl)

/-- **C68** (exact arithmetic): if the result is locally Delaunay apart from the constraints, it is constrained Delaunay: no vertex
that can be seen from a triangle is inside its circumcircle. -/
theorem C68_global (fuel : Nat) (bins : Nat → Nat) (vs : List (Vtx K)) (h : Good fuel bins vs) (es : List Edge) (out : List Out)
    (ho : constrained2d fuel bins vs es = .ok out) (hloc : Spec.LocallyDelaunay vs es out) : Spec.ConstrainedDelaunay vs es out := by
  have hl : (normalizeVerts vs).length = vs.length := by rw [normalizeVerts_eq]; simp
  have hni := h.ids_inf
  have hscale := h.scale
  have hs2 : 0 < scaleFactor vs ^ 2 := by positivity
  by_cases h3 : 3 ≤ vs.length
  swap
  · rw [output_small h3 ho]; intro t ht; simp at ht
  obtain ⟨r, ids, s, v2t, hr, hd, hs, hv2, hA, hmi, hml, hpos, hrun, tri⟩ := h.output_run h3 ho
  obtain ⟨hv, hok, hT⟩ := h.cmesh_inv hr
  have hle : ∀ {a : Nat} {A : Vtx K}, vs[a]? = some A → a < INF0 := fun ha => by have := lt_of_getElem? ha; omega
  have hS := (applyLoop_S_mem hrun List.nodup_nil).2
  have get : ∀ t ∈ out, ∀ a b c, Spec.CornersOf t a b c → ∃ C, vs[c]? = some C := by
    intro t ht a b c hc
    obtain ⟨A, B, C, g1, g2, g3, -⟩ := C30_output_clockwise fuel bins vs h es out ho _ _ _ (show (t.1, t.2.1, t.2.2) ∈ out from ht)
    rcases hc with rfl | rfl | rfl
    · exact ⟨_, g3⟩
    · exact ⟨_, g2⟩
    · exact ⟨_, g1⟩
  refine constrainedDelaunay_of_local ?_ get hloc ?_ ?_
  · intro t ht a b c A B C hc gA gB gC
    obtain ⟨A', B', C', g1, g2, g3, hcw⟩ := C30_output_clockwise fuel bins vs h es out ho _ _ _ (show (t.1, t.2.1, t.2.2) ∈ out from ht)
    rcases hc with rfl | rfl | rfl
    · rw [gA] at g1; rw [gB] at g2; rw [gC] at g3; cases g1; cases g2; cases g3; exact hcw
    · rw [gB] at g1; rw [gC] at g2; rw [gA] at g3; cases g1; cases g2; cases g3
      unfold Clockwise area2 at hcw ⊢; linarith
    · rw [gC] at g1; rw [gA] at g2; rw [gB] at g3; cases g1; cases g2; cases g3
      unfold Clockwise area2 at hcw ⊢; linarith
  · exact h.output_empty ho
  · intro t ht a b c A B hc gA gB X P hX hP hno hcov
    obtain ⟨i, T, hTi, rfl, hdom, hfin⟩ := tri _ ht
    have hent : ∃ j, Ent r.ts i a b j := by
      rcases hc with hc | hc | hc <;> simp only [Tri.verts, Prod.mk.injEq] at hc <;> obtain ⟨rfl, rfl, rfl⟩ := hc
      · exact ⟨_, T, hTi, has_0 T⟩
      · exact ⟨_, T, hTi, has_2 T⟩
      · exact ⟨_, T, hTi, has_1 T⟩
    obtain ⟨j, hj⟩ := hent
    have fa := hle gA
    have fb := hle gB
    obtain ⟨hjn, hji⟩ : j ≠ NONE ∧ Ent r.ts j b a i := by
      rcases hv.adj i a b j hj with ⟨-, h1, -⟩ | h1
      · exact absurd fa h1
      · exact h1
    have hnS : (⟨a, b⟩ : Edge) ∉ r.S := by
      intro hm
      rcases hS _ hm with hm | ⟨e, he, m1, m2⟩
      · simp at hm
      · exact hno ⟨e, he, .inl ⟨(hpos _ _ m1).symm.trans gA, (hpos _ _ m2).symm.trans gB⟩⟩
    have hdj : Spec.InDomain r.S r.ts j := by
      obtain ⟨s0, h1, h2⟩ := hdom
      exact ⟨s0, h1, h2.tail ⟨T, hTi, ⟨a, b⟩, (sides_ent hTi).2 hj, hnS, hjn⟩⟩
    obtain ⟨U, hUj, hhU⟩ := id hji
    obtain ⟨d, j2, j3, hR⟩ := hhU.rot
    by_cases fd : d < INF0
    · refine ⟨U.verts, ?_, d, ?_⟩
      · rw [hd.2.2, List.mem_map]
        refine ⟨j, (hd.2.1 j).2 ⟨hdj, U, hUj, ?_⟩, by simp [Spec.vertsAt, hUj, Tri.verts]⟩
        rcases hR with rfl | rfl | rfl <;> exact ⟨by assumption, by assumption, by assumption⟩
      · rcases hR with rfl | rfl | rfl
        · exact .inl rfl
        · exact .inr (.inr rfl)
        · exact .inr (.inl rfl)
    · exfalso
      have hposd := hR.pos_iff.1 (hv.pos _ _ hUj)
      set H := hp (normalizeVerts vs) with hH
      obtain ⟨z, z0, z1, hx, hy⟩ := hX
      have hXo : ∀ x y : HP K, HP.o x y (HP.ofVtx (toNorm vs X)) = (1 - z) * HP.o x y (H a) + z * HP.o x y (H b) := by
        intro x y
        rw [hH, hp_norm_eq hni gA, hp_norm_eq hni gB]
        simp only [HP.o, HP.ofVtx, toNorm, hx, hy]
        field_simp
        ring
      have c1 := HP.o_cyc (H b) (H a) (H d)
      have c2 := HP.o_cyc' (H b) (H a) (H d)
      obtain ⟨δ, hδ, hn⟩ := mix_in3 (a := H b) (b := H a) (c := H d) (p := HP.ofVtx (toNorm vs X)) (v := HP.ofVtx (toNorm vs P)) rfl
        (zero_le_one : (0 : K) ≤ 1)
        (.inr ⟨by rw [hXo, HP.o_same', HP.o_same'']; simp, by
          rw [side_norm hscale hni gB gA, neg_pos]; exact div_neg_of_neg_of_pos hP hs2⟩)
        (.inl (by rw [hXo, HP.o_same'', c1]; have := mul_pos z0 hposd; linarith))
        (.inl (by rw [hXo, HP.o_same', c2]; have := mul_pos (sub_pos.2 z1) hposd; linarith))
      have hin := hn (δ / 2) (by linarith) (by linarith)
      set e := δ / 2 with hedef
      have he : 0 < e := by rw [hedef]; linarith
      have hmix : (HP.ofVtx (toNorm vs X)).mix (HP.ofVtx (toNorm vs P)) e = HP.ofVtx (toNorm vs (along X P (e / (1 + e)))) := by
        have : (1 : K) + e ≠ 0 := by positivity
        have := hscale.ne'
        simp only [HP.mix, HP.ofVtx, toNorm, along, HP.mk.injEq]
        refine ⟨?_, ?_, trivial⟩ <;> field_simp <;> ring
      rw [hmix] at hin
      obtain ⟨t', ht', A', B', C', g1, g2, g3, hcl⟩ := hcov (along X P (e / (1 + e)))
        ⟨e / (1 + e), by positivity, by rw [div_lt_one (by positivity)]; linarith, rfl, rfl⟩
      obtain ⟨k, T', hTk, rfl, -, hfink⟩ := tri _ ht'
      have hcl' : ClosedAt H r.ts (HP.ofVtx (toNorm vs (along X P (e / (1 + e))))) k := by
        change vs[T'.v1]? = _ at g1
        change vs[T'.v2]? = _ at g2
        change vs[T'.v3]? = _ at g3
        refine ⟨T', hTk, ?_, ?_, ?_⟩
        · rw [hH, side_norm hscale hni g1 g2, neg_nonneg]; exact div_nonpos_of_nonpos_of_nonneg hcl.1 hs2.le
        · rw [hH, side_norm hscale hni g2 g3, neg_nonneg]; exact div_nonpos_of_nonpos_of_nonneg hcl.2.1 hs2.le
        · rw [hH, side_norm hscale hni g3 g1, neg_nonneg]; exact div_nonpos_of_nonpos_of_nonneg hcl.2.2 hs2.le
      have hkj := closed_inAt hv hT hcl' ((inAt_rot hUj hR).2 hin)
      subst hkj
      obtain ⟨T'', hT'', f1, f2, f3⟩ := hfink
      rw [hUj] at hT''; simp at hT''; subst hT''
      rcases hR with rfl | rfl | rfl
      · exact fd f3
      · exact fd f1
      · exact fd f2

/-- **C68** for framed points, one bin, and constraints that cross at most one edge each: the run succeeds and its result is
constrained Delaunay. -/
theorem C68_single (hcfg : RealCfg) (fuel : Nat) (bins : Nat → Nat) (vs : List (Vtx K)) (h : Good fuel bins vs)
    (hfuel : fuelFor vs.length ≤ fuel) (h1 : bins vs.length = 1) (x0 x1 y0 y1 : K) (hf : Spec.Framed vs x0 x1 y0 y1)
    (es : List Edge) (hc : Spec.ClearOfVertices vs es) (hx : Spec.NonCrossing vs es) (out0 : List Out)
    (h0 : triangulation2d fuel bins vs = .ok out0) (hone : Spec.SingleCross vs es out0) :
    ∃ out, constrained2d fuel bins vs es = .ok out ∧ Spec.ConstrainedDelaunay vs es out := by
  obtain ⟨out, ho, hl⟩ := C59_single_partial hcfg fuel bins vs h hfuel h1 x0 x1 y0 y1 hf es hc hx out0 h0 hone
  exact ⟨out, ho, C68_global fuel bins vs h es out ho hl⟩

end CDT

namespace CDT
open Plane

/-- **C68** in rounded arithmetic (`f32`, `f64`) on robust inputs and on grids; `V` are the exact positions. -/
theorem C68_rounded {F : Type} [FloatOps F] [Rounded F] [IdCfg] (fuel : Nat) (bins : Nat → Nat) (vs : List (Vtx F)) (V : List (Vtx ℚ)) (W : ℚ)
    (h : Rounded.RGoodC fuel bins vs V W) (es : List Edge) (out : List Out) (ho : constrained2d fuel bins vs es = .ok out)
    (hl : Spec.LocallyDelaunay V es out) : Spec.ConstrainedDelaunay V es out := by
  let P := Rounded.params F (bins vs.length) W (Rounded.scaleVal vs)
  rw [h.run] at ho
  exact C68_global fuel bins V h.good es out ho hl

/-- **C68** in rounded arithmetic, for framed points and constraints that cross at most one edge each. -/
theorem C68_single_rounded {F : Type} [FloatOps F] [Rounded F] [IdCfg] (hcfg : RealCfg) (fuel : Nat) (bins : Nat → Nat)
    (vs : List (Vtx F)) (V : List (Vtx ℚ)) (W : ℚ) (h : Rounded.RGoodC fuel bins vs V W) (h1 : bins vs.length = 1) (x0 x1 y0 y1 : ℚ)
    (hf : Spec.Framed V x0 x1 y0 y1) (es : List Edge) (hc : Spec.ClearOfVertices V es) (hx : Spec.NonCrossing V es) (out0 : List Out)
    (h0 : triangulation2d fuel bins vs = .ok out0) (hone : Spec.SingleCross V es out0) :
    ∃ out, constrained2d fuel bins vs es = .ok out ∧ Spec.ConstrainedDelaunay V es out := by
  obtain ⟨out, ho, hl⟩ := C59_single_rounded_partial hcfg fuel bins vs V W h h1 x0 x1 y0 y1 hf es hc hx out0 h0 hone
  exact ⟨out, ho, C68_rounded fuel bins vs V W h es out ho hl⟩

section Example
open Rounded
local instance visibleCfg : IdCfg := u32Cfg

/-- The hypotheses of `C68_single_rounded` hold, so the result of this run is constrained Delaunay. -/
theorem local_constrained : ∃ out, constrained2d (F := F64) 506 (fun _ => 1) (flPts binary64 localGrid) localEdges = .ok out ∧
    Spec.ConstrainedDelaunay (intPts localGrid) localEdges out :=
  C68_single_rounded (.inl rfl) 506 (fun _ => 1) _ (intPts localGrid) (2 ^ 3) local_good rfl 0 8 0 8 local_framed localEdges
    (clear_of_check (by decide +kernel)) (nonCrossing_of_check (by decide +kernel))
    [(2,5,3),(5,7,6),(3,5,4),(0,9,8),(4,6,9),(4,5,6),(1,7,2),(0,4,9),(2,7,5),(1,2,3),(1,8,7),(1,3,8),(0,3,4),(0,8,3)]
    (by decide +kernel) (single_of_check (by decide +kernel))

/-- The result of this run. -/
def localOut : List Out := [(5,3,1),(1,3,8),(1,8,7),(1,7,2),(5,1,2),(2,7,5),(5,7,6),(6,3,5),(6,4,3),(8,3,4),(6,0,4),(8,4,0),(0,9,8),(6,9,0)]

/-- From the triangle 1 3 8 the vertex 7, behind the edge 1 8, can be seen. -/
theorem local_visible : constrained2d (F := F64) 506 (fun _ => 1) (flPts binary64 localGrid) localEdges = .ok localOut ∧
    (1,3,8) ∈ localOut ∧ InTriangle (⟨7, 3⟩ : Vtx ℚ) ⟨6, 5⟩ ⟨8, 8⟩ ⟨7, 5⟩ ∧
    Spec.Visible (intPts localGrid) localEdges localOut ⟨7, 5⟩ ⟨8, 0⟩ := by
  refine ⟨by decide +kernel, by decide, by unfold InTriangle Clockwise area2; norm_num, ?_⟩
  rintro ⟨x, y⟩ ⟨s, s0, s1, hx, hy⟩
  simp only at hx hy
  refine ⟨?_, ?_, ?_⟩
  · intro hm
    simp only [intPts, localGrid, List.map_cons, List.map_nil, List.mem_cons, Vtx.mk.injEq, List.not_mem_nil, or_false] at hm
    push_cast at hm
    rcases hm with ⟨h1, h2⟩ | ⟨h1, h2⟩ | ⟨h1, h2⟩ | ⟨h1, h2⟩ | ⟨h1, h2⟩ | ⟨h1, h2⟩ | ⟨h1, h2⟩ | ⟨h1, h2⟩ | ⟨h1, h2⟩ | ⟨h1, h2⟩ <;> linarith
  · rcases le_total s (1 / 5) with h | h
    · exact ⟨(1,3,8), by decide, ⟨7, 3⟩, ⟨6, 5⟩, ⟨8, 8⟩, by decide +kernel, by decide +kernel, by decide +kernel, by
        unfold InClosedTriangle area2; refine ⟨?_, ?_, ?_⟩ <;> simp only [hx, hy] <;> linarith⟩
    · exact ⟨(1,8,7), by decide, ⟨7, 3⟩, ⟨8, 8⟩, ⟨8, 0⟩, by decide +kernel, by decide +kernel, by decide +kernel, by
        unfold InClosedTriangle area2; refine ⟨?_, ?_, ?_⟩ <;> simp only [hx, hy] <;> linarith⟩
  · intro e he A B hA hB hon
    obtain ⟨z, z0, z1, ex, ey⟩ := hon
    simp only [localEdges, List.mem_cons, List.not_mem_nil, or_false] at he
    rcases he with rfl | rfl | rfl | rfl <;>
      simp only [intPts, localGrid, List.map_cons, List.getElem?_cons_succ, List.getElem?_cons_zero, Option.some.injEq] at hA hB <;>
      subst hA hB <;> simp only at ex ey <;> push_cast at ex ey <;> linarith

/-- The conclusion for this triangle and this vertex. -/
example : ¬ InCircle (⟨7, 3⟩ : Vtx ℚ) ⟨6, 5⟩ ⟨8, 8⟩ ⟨8, 0⟩ := by
  obtain ⟨out, ho, hc⟩ := local_constrained
  obtain ⟨h1, h2, h3, h4⟩ := local_visible
  rw [h1] at ho; simp only [Res.ok.injEq] at ho; subst ho
  exact hc _ h2 _ _ _ (by decide +kernel) (by decide +kernel) (by decide +kernel) _ h3 _ (by decide +kernel) h4

end Example

end CDT

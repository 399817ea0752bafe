import Verif.Spec.Hull
import Verif.Geo.Visible
import Verif.Geo.Tile

/-! # A local test for covering the convex hull and for the Delaunay condition -/

set_option linter.unusedSectionVars false
set_option linter.unusedVariables false

namespace CDT
open Plane

variable {K : Type} [Field K] [LinearOrder K] [IsStrictOrderedRing K] [ExactParams K] [IdCfg]

/-- In a triangle there are points that no line through `p` joins to one of the other vertices. -/
theorem exists_sight (vs : List (Vtx K)) {A B C : Vtx K} (h : Clockwise A B C) (p : Vtx K) :
    ∃ q, InTriangle A B C q ∧ ∀ v ∈ vs, v ≠ p → area2 p v q ≠ 0 := by
  let g : Vtx K := ⟨(A.x + B.x + C.x) / 3, (A.y + B.y + C.y) / 3⟩
  let m : K → Vtx K := fun e => ⟨g.x + e, g.y + e ^ 2⟩
  have hm : ∀ a b e, area2 a b (m e) = area2 a b g + e * (a.y - b.y) + e ^ 2 * (b.x - a.x) := by
    intro a b e; simp only [m, area2]; ring
  have h' : area2 A B C < 0 := h
  have g1 : area2 A B g = area2 A B C / 3 := by simp only [g, area2]; ring
  have g2 : area2 B C g = area2 A B C / 3 := by simp only [g, area2]; ring
  have g3 : area2 C A g = area2 A B C / 3 := by simp only [g, area2]; ring
  have near : ∀ a b, area2 a b g < 0 → ∃ d, 0 < d ∧ ∀ e, 0 < e → e < d → area2 a b (m e) < 0 := by
    intro a b hab
    obtain ⟨d, hd, hn⟩ := quad_pos_near (neg_pos.2 hab) (-(a.y - b.y)) (-(b.x - a.x))
    refine ⟨d, hd, fun e he hed => ?_⟩
    have := hn e he hed
    rw [hm]; linarith
  obtain ⟨d1, p1, n1⟩ := near A B (by rw [g1]; linarith)
  obtain ⟨d2, p2, n2⟩ := near B C (by rw [g2]; linarith)
  obtain ⟨d3, p3, n3⟩ := near C A (by rw [g3]; linarith)
  let S : Set K := ⋃ v ∈ {v | v ∈ vs}, {e | v ≠ p ∧ area2 p v (m e) = 0}
  have hS : S.Finite := by
    refine (List.finite_toSet vs).biUnion fun v _ => ?_
    by_cases hv : v = p
    · exact Set.Finite.subset Set.finite_empty fun e he => he.1 hv
    · refine (quad_roots_finite (a := area2 p v g) (b := p.y - v.y) (c := v.x - p.x) ?_).subset ?_
      · rintro ⟨e1, e2⟩
        apply hv
        cases v; cases p; simp only [Vtx.mk.injEq] at *
        constructor <;> linarith
      · rintro e ⟨-, he⟩
        rw [hm] at he
        exact he
  obtain ⟨e, he1, he2⟩ := (Set.Ioo_infinite (lt_min p1 (lt_min p2 p3))).exists_notMem_finite hS
  have hlt := he1.2
  simp only [lt_min_iff] at hlt
  refine ⟨m e, ⟨n1 e he1.1 hlt.1, n2 e he1.1 hlt.2.1, n3 e he1.1 hlt.2.2⟩, fun v hv hne h0 => he2 ?_⟩
  simp only [S, Set.mem_iUnion]
  exact ⟨v, hv, hne, h0⟩

theorem sight_clear {vs : List (Vtx K)} {q p : Vtx K} (hqp : q ≠ p) (h : ∀ v ∈ vs, v ≠ p → area2 p v q ≠ 0) {s : K} (h1 : s < 1) :
    along q p s ∉ vs := by
  intro hm
  refine h _ hm ?_ ?_
  · intro e
    apply hqp
    have hs : 1 - s ≠ 0 := by linarith
    have ex : q.x + s * (p.x - q.x) = p.x := congrArg Vtx.x e
    have ey : q.y + s * (p.y - q.y) = p.y := congrArg Vtx.y e
    have dx : (1 - s) * (p.x - q.x) = 0 := by linarith
    have dy : (1 - s) * (p.y - q.y) = 0 := by linarith
    have dx := (mul_eq_zero.1 dx).resolve_left hs
    have dy := (mul_eq_zero.1 dy).resolve_left hs
    cases q; cases p; simp only [Vtx.mk.injEq] at *
    constructor <;> linarith
  · unfold area2 along; ring

variable {vs : List (Vtx K)} {out : List (Nat × Nat × Nat)}

/-- Following a line of sight that meets no vertex and only sides with a neighbor, its end is in a triangle. -/
theorem covered_of_walk
    (hcw : ∀ t ∈ out, ∀ a b c A B C, Spec.CornersOf t a b c → vs[a]? = some A → vs[b]? = some B → vs[c]? = some C → Clockwise A B C)
    (hget : ∀ t ∈ out, ∀ a b c, Spec.CornersOf t a b c → ∃ C, vs[c]? = some C) {q p : Vtx K}
    {t0 : Nat × Nat × Nat} (ht0 : t0 ∈ out) {A0 B0 C0 : Vtx K} (gA0 : vs[t0.1]? = some A0) (gB0 : vs[t0.2.1]? = some B0) (gC0 : vs[t0.2.2]? = some C0)
    (hq : InTriangle A0 B0 C0 q) (hv : ∀ s, 0 < s → s < 1 → along q p s ∉ vs)
    (hnb : ∀ t ∈ out, ∀ a b c A B, Spec.CornersOf t a b c → vs[a]? = some A → vs[b]? = some B → Clockwise B A p → ∃ u ∈ out, ∃ d, Spec.CornersOf u b a d) :
    Spec.Covered vs out p := by
  obtain ⟨t, ht, s, hL, hmax⟩ := exists_last out (Leaves vs (fun _ _ _ => True) q p) (fun t s s' h h' => le_antisymm (h.unique h') (h'.unique h))
    ⟨t0, ht0, by
      obtain ⟨s, -, hs⟩ := Leaves.exists (I := fun _ _ _ => True) (fun _ _ _ h => h) (q := q) (p := p) (s0 := 0) (t := t0) (.inl rfl) gA0 gB0 gC0 trivial
        zero_le_one
        (by
          obtain ⟨h1, h2, h3⟩ := hq
          unfold Clockwise at h1 h2 h3
          refine ⟨?_, ?_, ?_⟩ <;> rw [area2_along] <;> linarith) (.inr ⟨rfl, hq⟩)
      exact ⟨s, hs⟩⟩
  obtain ⟨a, b, c, A, B, C, hc, gA, gB, gC, -, hcl, s0, s1, hl⟩ := hL
  have hABC := hcw t ht a b c A B C hc gA gB gC
  by_cases he : s = 1
  · subst he
    have e : along q p 1 = p := by unfold along; cases p; simp
    rw [e] at hcl
    rcases hc with rfl | rfl | rfl
    · exact ⟨_, ht, A, B, C, gA, gB, gC, hcl⟩
    · exact ⟨_, ht, B, C, A, gB, gC, gA, closed_cyc hcl⟩
    · exact ⟨_, ht, C, A, B, gC, gA, gB, closed_cyc (closed_cyc hcl)⟩
  have hlt : s < 1 := lt_of_le_of_ne s1 he
  obtain ⟨hz, hpb⟩ := hl.resolve_left he
  have v1 := hv s s0 hlt
  have hX := between_of_zero hABC hz hcl.2.1 hcl.2.2 (fun e => v1 (e ▸ List.mem_of_getElem? gA)) (fun e => v1 (e ▸ List.mem_of_getElem? gB))
  obtain ⟨u, hu, d, hud⟩ := hnb t ht a b c A B hc gA gB hpb
  obtain ⟨D, gD⟩ := hget u hu b a d hud
  have hBAD := hcw u hu b a d B A D hud gB gA gD
  obtain ⟨s', hs', hL'⟩ := Leaves.next (I := fun _ _ _ => True) (fun _ _ _ h => h) hud gA gB gD hBAD trivial hX hz hpb s0 hlt
  exact absurd (hmax u hu s' hL') (not_le.2 hs')

/-- If the border sides have all vertices on their inner side, the points on the inner sides are covered. -/
theorem covered_of_sides
    (hcw : ∀ t ∈ out, ∀ a b c A B C, Spec.CornersOf t a b c → vs[a]? = some A → vs[b]? = some B → vs[c]? = some C → Clockwise A B C)
    (hget : ∀ t ∈ out, ∀ a b c, Spec.CornersOf t a b c → ∃ C, vs[c]? = some C) (hne : out ≠ []) (hs : Spec.HullSides vs out) {p : Vtx K}
    (hp : ∀ A ∈ vs, ∀ B ∈ vs, A ≠ B → (∀ v ∈ vs, area2 A B v ≤ 0) → area2 A B p ≤ 0) : Spec.Covered vs out p := by
  obtain ⟨t0, ht0⟩ := List.exists_mem_of_ne_nil _ hne
  obtain ⟨C0, gC0⟩ := hget t0 ht0 t0.1 t0.2.1 t0.2.2 (.inl rfl)
  obtain ⟨A0, gA0⟩ := hget t0 ht0 t0.2.1 t0.2.2 t0.1 (.inr (.inr rfl))
  obtain ⟨B0, gB0⟩ := hget t0 ht0 t0.2.2 t0.1 t0.2.1 (.inr (.inl rfl))
  obtain ⟨q, hq, hsee⟩ := exists_sight vs (hcw t0 ht0 _ _ _ A0 B0 C0 (.inl rfl) gA0 gB0 gC0) p
  by_cases hqp : q = p
  · subst hqp
    exact ⟨t0, ht0, A0, B0, C0, gA0, gB0, gC0, hq.1.le, hq.2.1.le, hq.2.2.le⟩
  refine covered_of_walk hcw hget ht0 gA0 gB0 gC0 hq (fun s _ h1 => sight_clear hqp hsee h1) ?_
  intro t ht a b c A B hc gA gB hpb
  refine (hs t ht a b c hc A B gA gB).resolve_right fun hall => ?_
  have := hp A (List.mem_of_getElem? gA) B (List.mem_of_getElem? gB) (by
    rintro rfl
    obtain ⟨C, gC⟩ := hget t ht a b c hc
    have := hcw t ht a b c A A C hc gA gB gC
    unfold Clockwise area2 at this
    linarith) hall
  unfold Clockwise at hpb
  rw [area2_swap] at hpb
  linarith

/-- Locally Delaunay triangles with the vertices on the inner side of the border are Delaunay. -/
theorem delaunay_of_sides
    (hcw : ∀ t ∈ out, ∀ a b c A B C, Spec.CornersOf t a b c → vs[a]? = some A → vs[b]? = some B → vs[c]? = some C → Clockwise A B C)
    (hget : ∀ t ∈ out, ∀ a b c, Spec.CornersOf t a b c → ∃ C, vs[c]? = some C) (hs : Spec.HullSides vs out)
    (hloc : Spec.LocallyDelaunay vs [] out)
    (hemp : ∀ t ∈ out, ∀ a b c A B C P, Spec.CornersOf t a b c → vs[a]? = some A → vs[b]? = some B → vs[c]? = some C → P ∈ vs →
      InClosedTriangle A B C P → P = A ∨ P = B ∨ P = C) :
    ∀ t ∈ out, ∀ A B C, vs[t.1]? = some A → vs[t.2.1]? = some B → vs[t.2.2]? = some C → ∀ p ∈ vs, ¬ InCircle A B C p := by
  have hcd : Spec.ConstrainedDelaunay vs [] out := by
    refine constrainedDelaunay_of_local hcw hget hloc hemp ?_
    intro t ht a b c A B hc gA gB X P hX hP _ hcov
    refine (hs t ht a b c hc A B gA gB).resolve_right fun hall => ?_
    obtain ⟨z, z0, z1, hx, hy⟩ := hX
    obtain ⟨u, hu, A', B', C', g1, g2, g3, hcl⟩ := hcov (along X P (1 / 2)) ⟨1 / 2, by norm_num, by norm_num, rfl, rfl⟩
    have hA' := hall A' (List.mem_of_getElem? g1)
    have hB' := hall B' (List.mem_of_getElem? g2)
    have hC' := hall C' (List.mem_of_getElem? g3)
    have hcwu : area2 A' B' C' < 0 := hcw u hu _ _ _ A' B' C' (.inl rfl) g1 g2 g3
    have hXz : area2 A B X = 0 := by unfold area2; rw [hx, hy]; ring
    have hY : 0 < area2 A B (along X P (1 / 2)) := by
      rw [area2_along, hXz]
      unfold Clockwise at hP
      rw [area2_swap] at hP
      linarith
    have bary : area2 A' B' C' * area2 A B (along X P (1 / 2)) = area2 B' C' (along X P (1 / 2)) * area2 A B A' +
        area2 C' A' (along X P (1 / 2)) * area2 A B B' + area2 A' B' (along X P (1 / 2)) * area2 A B C' := by
      unfold area2; ring
    have m1 := mul_nonneg_of_nonpos_of_nonpos hcl.2.1 hA'
    have m2 := mul_nonneg_of_nonpos_of_nonpos hcl.2.2 hB'
    have m3 := mul_nonneg_of_nonpos_of_nonpos hcl.1 hC'
    have := mul_neg_of_neg_of_pos hcwu hY
    linarith
  intro t ht A B C gA gB gC p hp hin
  have hABC := hcw t ht _ _ _ A B C (.inl rfl) gA gB gC
  obtain ⟨q, hq, hsee⟩ := exists_sight vs hABC p
  have hqp : q ≠ p := by
    rintro rfl
    have := hemp t ht _ _ _ A B C q (.inl rfl) gA gB gC hp ⟨hq.1.le, hq.2.1.le, hq.2.2.le⟩
    exact not_inCircle_self this hin
  have hqh : Spec.InHull vs q := by
    intro A' B' hall
    have bary : area2 A B C * area2 A' B' q = area2 B C q * area2 A' B' A + area2 C A q * area2 A' B' B + area2 A B q * area2 A' B' C := by
      unfold area2; ring
    have m1 := mul_nonneg_of_nonpos_of_nonpos hq.2.1.le (hall A (List.mem_of_getElem? gA))
    have m2 := mul_nonneg_of_nonpos_of_nonpos hq.2.2.le (hall B (List.mem_of_getElem? gB))
    have m3 := mul_nonneg_of_nonpos_of_nonpos hq.1.le (hall C (List.mem_of_getElem? gC))
    by_contra hcon
    have := mul_neg_of_neg_of_pos (show area2 A B C < 0 from hABC) (not_le.1 hcon)
    linarith
  refine hcd t ht A B C gA gB gC q hq p hp ?_ hin
  rintro x ⟨s, s0, s1, hx, hy⟩
  have hxe : x = along q p s := by cases x; simp only [along, Vtx.mk.injEq]; exact ⟨hx, hy⟩
  subst hxe
  refine ⟨sight_clear hqp hsee s1, ?_, by simp⟩
  refine covered_of_sides hcw hget (List.ne_nil_of_mem ht) hs fun A' _ B' _ _ hall => ?_
  rw [area2_along]
  have m1 := mul_nonneg_of_nonpos_of_nonpos (show -(1 - s) ≤ 0 by linarith) (hqh A' B' hall)
  have m2 := mul_nonneg_of_nonpos_of_nonpos (show -s ≤ 0 by linarith) (hall p hp)
  linarith

end CDT

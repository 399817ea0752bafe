import Verif.Props.Local

/-! # C19: the quality checkers -/

set_option linter.unusedSectionVars false
set_option linter.unusedSimpArgs false
set_option linter.unusedVariables false

namespace CDT
open Plane

/-! ## Specification -/

namespace Spec

section
variable {K : Type} [Field K] [LinearOrder K] [IsStrictOrderedRing K]

/-- The corners of a triangle. -/
def Corners (vs : List (Vtx K)) (t : Out) (A B C : Vtx K) : Prop :=
  vs[t.1]? = some A ∧ vs[t.2.1]? = some B ∧ vs[t.2.2]? = some C

/-- The corners are collinear. -/
def Flat (vs : List (Vtx K)) (t : Out) : Prop := ∃ A B C, Corners vs t A B C ∧ area2 A B C = 0

/-- The corners are in counter-clockwise order. -/
def CounterClockwise (vs : List (Vtx K)) (t : Out) : Prop := ∃ A B C, Corners vs t A B C ∧ 0 < area2 A B C

/-- The circumcircle of the (not flat) triangle strictly contains a vertex of some triangle of the list that is not a corner. -/
def NotEmptyCircle (vs : List (Vtx K)) (ts : List Out) (t : Out) : Prop :=
  ∃ A B C, Corners vs t A B C ∧ area2 A B C ≠ 0 ∧ ∃ u ∈ ts, ∃ v, (v = u.1 ∨ v = u.2.1 ∨ v = u.2.2) ∧
    v ≠ t.1 ∧ v ≠ t.2.1 ∧ v ≠ t.2.2 ∧ ∃ P, vs[v]? = some P ∧ InCircle A B C P

/-- All ids of the triangles refer to vertices. -/
def IdsOk (vs : List (Vtx K)) (ts : List Out) : Prop :=
  ∀ t ∈ ts, t.1 < vs.length ∧ t.2.1 < vs.length ∧ t.2.2 < vs.length
end

end Spec

section
variable {K : Type} [Field K] [LinearOrder K] [IsStrictOrderedRing K] [ExactParams K]

theorem tripletOrientation_exact (p q r : Vtx K) :
    tripletOrientation p q r = if area2 p q r = 0 then .colinear else if area2 p q r < 0 then .clockwise else .counterClockwise := by
  have e : (q.y - p.y) * (r.x - q.x) - (q.x - p.x) * (r.y - q.y) = -area2 p q r := by unfold area2; ring
  unfold tripletOrientation
  simp only [exact_sub, exact_mul, exact_eq, exact_lt, exact_zero, decide_eq_true_eq, e, neg_eq_zero, Left.neg_pos_iff]

open Classical in
/-- **C19**, `check_degenerate_triangles`: exact counts of the flat and of the counter-clockwise triangles. -/
theorem C19_degenerate (vs : List (Vtx K)) (ts : List Out) (h : Spec.IdsOk vs ts) :
    checkDegenerate vs ts = .ok (ts.countP fun t => decide (Spec.Flat vs t), ts.countP fun t => decide (Spec.CounterClockwise vs t)) := by
  induction ts with
  | nil => rfl
  | cons t ts ih =>
    obtain ⟨h1, h2, h3⟩ := h t (by simp)
    obtain ⟨A, gA, eA⟩ := getI_lt h1
    obtain ⟨B, gB, eB⟩ := getI_lt h2
    obtain ⟨C, gC, eC⟩ := getI_lt h3
    have hF : Spec.Flat vs t ↔ area2 A B C = 0 := by
      constructor
      · rintro ⟨A', B', C', ⟨g1, g2, g3⟩, hh⟩
        rw [gA] at g1; rw [gB] at g2; rw [gC] at g3
        cases g1; cases g2; cases g3; exact hh
      · intro hh; exact ⟨A, B, C, ⟨gA, gB, gC⟩, hh⟩
    have hC : Spec.CounterClockwise vs t ↔ 0 < area2 A B C := by
      constructor
      · rintro ⟨A', B', C', ⟨g1, g2, g3⟩, hh⟩
        rw [gA] at g1; rw [gB] at g2; rw [gC] at g3
        cases g1; cases g2; cases g3; exact hh
      · intro hh; exact ⟨A, B, C, ⟨gA, gB, gC⟩, hh⟩
    simp only [checkDegenerate, eA, eB, eC, Res.ok_bind, ih fun t ht => h t (by simp [ht]), tripletOrientation_exact,
      List.countP_cons, hF, hC]
    rcases lt_trichotomy (area2 A B C) 0 with hs | hs | hs
    · simp [hs.ne, hs, not_lt.2 hs.le]
    · simp [hs]
    · simp [hs.ne', hs, not_lt.2 hs.le]

end

/-! ## Circumcircles, over the reals -/

theorem circumcircleInfo_eq (a b c : Vtx ℝ) : circumcircleInfo a b c =
    (⟨((c.y - a.y) * ((b.x - a.x) * (b.x - a.x) + (b.y - a.y) * (b.y - a.y)) -
          (b.y - a.y) * ((c.x - a.x) * (c.x - a.x) + (c.y - a.y) * (c.y - a.y))) / (2 * area2 a b c) + a.x,
      ((b.x - a.x) * ((c.x - a.x) * (c.x - a.x) + (c.y - a.y) * (c.y - a.y)) -
          (c.x - a.x) * ((b.x - a.x) * (b.x - a.x) + (b.y - a.y) * (b.y - a.y))) / (2 * area2 a b c) + a.y⟩,
     Real.sqrt (((c.y - a.y) * ((b.x - a.x) * (b.x - a.x) + (b.y - a.y) * (b.y - a.y)) -
          (b.y - a.y) * ((c.x - a.x) * (c.x - a.x) + (c.y - a.y) * (c.y - a.y))) / (2 * area2 a b c) *
        (((c.y - a.y) * ((b.x - a.x) * (b.x - a.x) + (b.y - a.y) * (b.y - a.y)) -
          (b.y - a.y) * ((c.x - a.x) * (c.x - a.x) + (c.y - a.y) * (c.y - a.y))) / (2 * area2 a b c)) +
      ((b.x - a.x) * ((c.x - a.x) * (c.x - a.x) + (c.y - a.y) * (c.y - a.y)) -
          (c.x - a.x) * ((b.x - a.x) * (b.x - a.x) + (b.y - a.y) * (b.y - a.y))) / (2 * area2 a b c) *
        (((b.x - a.x) * ((c.x - a.x) * (c.x - a.x) + (c.y - a.y) * (c.y - a.y)) -
          (c.x - a.x) * ((b.x - a.x) * (b.x - a.x) + (b.y - a.y) * (b.y - a.y))) / (2 * area2 a b c)))) := by
  have hd : (b.x - a.x) * (c.y - a.y) - (b.y - a.y) * (c.x - a.x) = area2 a b c := by unfold area2; ring
  rw [← hd]
  rfl

theorem circumcircleInfo_spec (a b c : Vtx ℝ) :
    (area2 a b c ≠ 0 → Circumcenter (circumcircleInfo a b c).1 a b c ∧
      (circumcircleInfo a b c).2 = Real.sqrt (dist2 (circumcircleInfo a b c).1 a)) ∧
    (area2 a b c = 0 → (circumcircleInfo a b c).2 = 0) := by
  constructor
  · intro h
    have key : ∀ ux uy d : ℝ, d ≠ 0 → area2 a b c = d →
        ux = ((c.y - a.y) * ((b.x - a.x) * (b.x - a.x) + (b.y - a.y) * (b.y - a.y)) -
          (b.y - a.y) * ((c.x - a.x) * (c.x - a.x) + (c.y - a.y) * (c.y - a.y))) / (2 * d) →
        uy = ((b.x - a.x) * ((c.x - a.x) * (c.x - a.x) + (c.y - a.y) * (c.y - a.y)) -
          (c.x - a.x) * ((b.x - a.x) * (b.x - a.x) + (b.y - a.y) * (b.y - a.y))) / (2 * d) →
        Circumcenter ⟨ux + a.x, uy + a.y⟩ a b c ∧ Real.sqrt (ux * ux + uy * uy) = Real.sqrt (dist2 ⟨ux + a.x, uy + a.y⟩ a) := by
      intro ux uy d hd hda hx hy
      have hx : 2 * d * ux = ((c.y - a.y) * ((b.x - a.x) * (b.x - a.x) + (b.y - a.y) * (b.y - a.y)) -
          (b.y - a.y) * ((c.x - a.x) * (c.x - a.x) + (c.y - a.y) * (c.y - a.y))) := by rw [hx]; field_simp
      have hy : 2 * d * uy = ((b.x - a.x) * ((c.x - a.x) * (c.x - a.x) + (c.y - a.y) * (c.y - a.y)) -
          (c.x - a.x) * ((b.x - a.x) * (b.x - a.x) + (b.y - a.y) * (b.y - a.y))) := by rw [hy]; field_simp
      have hdd : d = (b.x - a.x) * (c.y - a.y) - (b.y - a.y) * (c.x - a.x) := by rw [← hda]; unfold area2; ring
      refine ⟨⟨?_, ?_⟩, ?_⟩
      · apply mul_left_cancel₀ hd
        simp only [dist2]
        linear_combination (b.x - a.x) * hx + (b.y - a.y) * hy - ((b.x - a.x) ^ 2 + (b.y - a.y) ^ 2) * hdd
      · apply mul_left_cancel₀ hd
        simp only [dist2]
        linear_combination (c.x - a.x) * hx + (c.y - a.y) * hy - ((c.x - a.x) ^ 2 + (c.y - a.y) ^ 2) * hdd
      · congr 1
        simp only [dist2]
        ring
    rw [circumcircleInfo_eq]
    exact key _ _ _ h rfl rfl rfl
  · intro h
    rw [circumcircleInfo_eq, h]
    simp

/-- The distance test of `check_circumcircles`. -/
theorem hit_iff (a b c p : Vtx ℝ) :
    Real.sqrt ((p.x - (circumcircleInfo a b c).1.x) * (p.x - (circumcircleInfo a b c).1.x) +
      (p.y - (circumcircleInfo a b c).1.y) * (p.y - (circumcircleInfo a b c).1.y)) < (circumcircleInfo a b c).2 ↔
    area2 a b c ≠ 0 ∧ InCircle a b c p := by
  obtain ⟨h1, h2⟩ := circumcircleInfo_spec a b c
  by_cases h : area2 a b c = 0
  · rw [h2 h]
    simp [h, Real.sqrt_nonneg]
  · obtain ⟨hc, hr⟩ := h1 h
    generalize (circumcircleInfo a b c).1 = m at *
    rw [hr, Real.sqrt_lt_sqrt_iff (add_nonneg (mul_self_nonneg _) (mul_self_nonneg _))]
    have e : (p.x - m.x) * (p.x - m.x) + (p.y - m.y) * (p.y - m.y) = dist2 m p := by unfold dist2; ring
    rw [e]
    refine ⟨fun hh => ⟨h, m, hc, hh⟩, ?_⟩
    rintro ⟨-, m', ⟨k1, k2⟩, k3⟩
    -- the center is unique
    have hm : m = m' := by
      obtain ⟨c1, c2⟩ := hc
      have e1 : (b.x - a.x) * (m.x - m'.x) + (b.y - a.y) * (m.y - m'.y) = 0 := by unfold dist2 at *; linarith
      have e2 : (c.x - a.x) * (m.x - m'.x) + (c.y - a.y) * (m.y - m'.y) = 0 := by unfold dist2 at *; linarith
      have hx : area2 a b c * (m.x - m'.x) = 0 := by unfold area2; linear_combination (c.y - a.y) * e1 - (b.y - a.y) * e2
      have hy : area2 a b c * (m.y - m'.y) = 0 := by unfold area2; linear_combination (b.x - a.x) * e2 - (c.x - a.x) * e1
      have hx := (mul_eq_zero.1 hx).resolve_left h
      have hy := (mul_eq_zero.1 hy).resolve_left h
      cases m; cases m'; simp at hx hy ⊢; constructor <;> linarith
    rw [hm]; exact k3

open Classical in
theorem circumcircleHit_spec (vs : List (Vtx ℝ)) (t : Out) (A B C : Vtx ℝ) (ids : List Nat) (h : ∀ i ∈ ids, i < vs.length) :
    circumcircleHit vs t (circumcircleInfo A B C) ids = .ok (decide (area2 A B C ≠ 0 ∧ ∃ i ∈ ids, i ≠ t.1 ∧ i ≠ t.2.1 ∧ i ≠ t.2.2 ∧
      ∃ P, vs[i]? = some P ∧ InCircle A B C P)) := by
  induction ids with
  | nil => simp [circumcircleHit]
  | cons i is ih =>
    have ih := ih fun j hj => h j (by simp [hj])
    unfold circumcircleHit
    split
    · rename_i hi
      rw [ih]
      congr 1
      rw [decide_eq_decide]
      constructor
      · rintro ⟨h0, j, hj, h1⟩; exact ⟨h0, j, by simp [hj], h1⟩
      · rintro ⟨h0, j, hj, h1⟩
        rcases List.mem_cons.1 hj with rfl | hj
        · omega
        · exact ⟨h0, j, hj, h1⟩
    · rename_i hi
      push Not at hi
      obtain ⟨P, gP, eP⟩ := getI_lt (h i (by simp))
      rw [eP]
      simp only [Res.ok_bind, exact_sub, exact_mul, exact_add, exact_lt, decide_eq_true_eq]
      rw [show ∀ x : ℝ, FloatOps.sqrt x = Real.sqrt x from fun _ => rfl]
      have hh := hit_iff A B C P
      by_cases hc : area2 A B C ≠ 0 ∧ InCircle A B C P
      · rw [if_pos (hh.2 hc)]
        congr 1
        symm
        rw [decide_eq_true_eq]
        exact ⟨hc.1, i, by simp, hi.1, hi.2.1, hi.2.2, P, gP, hc.2⟩
      · rw [if_neg (fun x => hc (hh.1 x)), ih]
        congr 1
        rw [decide_eq_decide]
        constructor
        · rintro ⟨h0, j, hj, h1⟩; exact ⟨h0, j, by simp [hj], h1⟩
        · rintro ⟨h0, j, hj, h1, h2, h3, P', gP', h4⟩
          rcases List.mem_cons.1 hj with rfl | hj
          · rw [gP] at gP'; cases gP'
            exact absurd ⟨h0, h4⟩ hc
          · exact ⟨h0, j, hj, h1, h2, h3, P', gP', h4⟩

theorem mem_allIds {ts : List Out} {i : Nat} : i ∈ allIds ts ↔ ∃ u ∈ ts, i = u.1 ∨ i = u.2.1 ∨ i = u.2.2 := by
  induction ts with
  | nil => simp [allIds]
  | cons t ts ih => 
    simp only [allIds, List.mem_cons, ih]
    constructor
    · rintro (h | h | h | ⟨u, hu, h⟩)
      · exact ⟨t, Or.inl rfl, Or.inl h⟩
      · exact ⟨t, Or.inl rfl, Or.inr (Or.inl h)⟩
      · exact ⟨t, Or.inl rfl, Or.inr (Or.inr h)⟩
      · exact ⟨u, Or.inr hu, h⟩
    · rintro ⟨u, rfl | hu, h⟩
      · tauto
      · exact Or.inr (Or.inr (Or.inr ⟨u, hu, h⟩))

open Classical in
/-- **C19**, `check_circumcircles`: exact count of the triangles whose circumcircle strictly contains another vertex of the
triangulation. -/
theorem C19_circumcircles (vs : List (Vtx ℝ)) (ts : List Out) (h : Spec.IdsOk vs ts) :
    checkCircumcircles ts vs = .ok (ts.countP fun t => decide (Spec.NotEmptyCircle vs ts t)) := by
  have hids : ∀ i ∈ allIds ts, i < vs.length := by
    intro i hi
    obtain ⟨u, hu, hh⟩ := mem_allIds.1 hi
    obtain ⟨h1, h2, h3⟩ := h u hu
    rcases hh with rfl | rfl | rfl <;> assumption
  unfold checkCircumcircles
  suffices H : ∀ l : List Out, (∀ t ∈ l, t ∈ ts) → checkCircumcirclesLoop vs (allIds ts) l =
      .ok (l.countP fun t => decide (Spec.NotEmptyCircle vs ts t)) from H ts fun _ h => h
  intro l
  induction l with
  | nil => intro _; rfl
  | cons t l ih =>
    intro hl
    obtain ⟨h1, h2, h3⟩ := h t (hl t (by simp))
    obtain ⟨A, gA, eA⟩ := getI_lt h1
    obtain ⟨B, gB, eB⟩ := getI_lt h2
    obtain ⟨C, gC, eC⟩ := getI_lt h3
    have hN : Spec.NotEmptyCircle vs ts t ↔ (area2 A B C ≠ 0 ∧ ∃ i ∈ allIds ts, i ≠ t.1 ∧ i ≠ t.2.1 ∧ i ≠ t.2.2 ∧
        ∃ P, vs[i]? = some P ∧ InCircle A B C P) := by
      constructor
      · rintro ⟨A', B', C', ⟨g1, g2, g3⟩, h0, u, hu, v, hv, n1, n2, n3, P, gP, hP⟩
        rw [gA] at g1; rw [gB] at g2; rw [gC] at g3
        cases g1; cases g2; cases g3
        exact ⟨h0, v, mem_allIds.2 ⟨u, hu, hv⟩, n1, n2, n3, P, gP, hP⟩
      · rintro ⟨h0, i, hi, n1, n2, n3, P, gP, hP⟩
        obtain ⟨u, hu, hv⟩ := mem_allIds.1 hi
        exact ⟨A, B, C, ⟨gA, gB, gC⟩, h0, u, hu, i, hv, n1, n2, n3, P, gP, hP⟩
    simp only [checkCircumcirclesLoop, eA, eB, eC, Res.ok_bind, circumcircleHit_spec _ _ _ _ _ _ hids,
      ih fun t ht => hl t (by simp [ht]), List.countP_cons, hN]
    split <;> simp_all

/-- **C19**, `check_delaunay_optimal`: all counts are zero iff every triangle is strictly clockwise and no circumcircle
strictly contains a vertex of the triangulation. -/
theorem C19_optimal (vs : List (Vtx ℝ)) (ts : List Out) (h : Spec.IdsOk vs ts) :
    checkDelaunayOptimal ts vs = .ok ⟨0, 0, 0⟩ ↔
      ∀ t ∈ ts, ∃ A B C, Spec.Corners vs t A B C ∧ Clockwise A B C ∧ ∀ u ∈ ts, ∀ v, (v = u.1 ∨ v = u.2.1 ∨ v = u.2.2) →
        ∀ P, vs[v]? = some P → ¬ InCircle A B C P := by
  unfold checkDelaunayOptimal
  rw [C19_degenerate vs ts h, C19_circumcircles vs ts h]
  simp only [Res.ok_bind, Res.ok.injEq, Quality.mk.injEq, List.countP_eq_zero, decide_eq_true_eq]
  constructor
  · rintro ⟨h1, h2, h3⟩ t ht
    obtain ⟨i1, i2, i3⟩ := h t ht
    obtain ⟨A, gA, _⟩ := getI_lt i1
    obtain ⟨B, gB, _⟩ := getI_lt i2
    obtain ⟨C, gC, _⟩ := getI_lt i3
    have ha : area2 A B C < 0 := by
      rcases lt_trichotomy (area2 A B C) 0 with hs | hs | hs
      · exact hs
      · exact absurd ⟨A, B, C, ⟨gA, gB, gC⟩, hs⟩ (h1 t ht)
      · exact absurd ⟨A, B, C, ⟨gA, gB, gC⟩, hs⟩ (h2 t ht)
    refine ⟨A, B, C, ⟨gA, gB, gC⟩, ha, fun u hu v hv P gP hP => ?_⟩
    obtain ⟨m, ⟨e1, e2⟩, e3⟩ := hP
    by_cases n1 : v = t.1
    · subst n1; rw [gA] at gP; cases gP; exact lt_irrefl _ e3
    by_cases n2 : v = t.2.1
    · subst n2; rw [gB] at gP; cases gP; rw [e1] at e3; exact lt_irrefl _ e3
    by_cases n3 : v = t.2.2
    · subst n3; rw [gC] at gP; cases gP; rw [e2] at e3; exact lt_irrefl _ e3
    exact h3 t ht ⟨A, B, C, ⟨gA, gB, gC⟩, ha.ne, u, hu, v, hv, n1, n2, n3, P, gP, m, ⟨e1, e2⟩, e3⟩
  · intro hh
    refine ⟨?_, ?_, ?_⟩
    · rintro t ht ⟨A', B', C', ⟨g1, g2, g3⟩, h0⟩
      obtain ⟨A, B, C, ⟨gA, gB, gC⟩, hc, -⟩ := hh t ht
      rw [gA] at g1; rw [gB] at g2; rw [gC] at g3
      cases g1; cases g2; cases g3
      unfold Clockwise at hc; linarith
    · rintro t ht ⟨A', B', C', ⟨g1, g2, g3⟩, h0⟩
      obtain ⟨A, B, C, ⟨gA, gB, gC⟩, hc, -⟩ := hh t ht
      rw [gA] at g1; rw [gB] at g2; rw [gC] at g3
      cases g1; cases g2; cases g3
      unfold Clockwise at hc; linarith
    · rintro t ht ⟨A', B', C', ⟨g1, g2, g3⟩, h0, u, hu, v, hv, -, -, -, P, gP, hP⟩
      obtain ⟨A, B, C, ⟨gA, gB, gC⟩, hc, hd⟩ := hh t ht
      rw [gA] at g1; rw [gB] at g2; rw [gC] at g3
      cases g1; cases g2; cases g3
      exact hd u hu v hv P gP hP

/-- Two triangles of the unit square, both optimal; three ids of the list are used twice. -/
example : Spec.IdsOk ([⟨0, 0⟩, ⟨0, 1⟩, ⟨1, 1⟩, ⟨1, 0⟩] : List (Vtx ℝ)) [(0, 1, 3), (1, 2, 3)] := by
  intro t ht
  simp at ht
  rcases ht with rfl | rfl <;> simp

end CDT

import Mathlib.Tactic.Ring
import Mathlib.Tactic.Linarith
import Mathlib.Tactic.FieldSimp
import Mathlib.Tactic.Positivity
import Verif.Model.Exact
import Verif.Spec.Plane

/-! # Segment intersection in exact arithmetic -/

set_option linter.unusedSectionVars false
set_option linter.unusedSimpArgs false
set_option linter.unusedVariables false

namespace CDT
open Plane

variable {K : Type} [Field K] [LinearOrder K] [IsStrictOrderedRing K]

/-- The ends of each segment lie strictly on different sides of the other one. -/
def Plane.Cross (a b c d : Vtx K) : Prop :=
  area2 a b c * area2 a b d < 0 ∧ area2 c d a * area2 c d b < 0

theorem Plane.Cross.symm {a b c d : Vtx K} (h : Cross a b c d) : Cross c d a b := ⟨h.2, h.1⟩

theorem Plane.Cross.flip {a b c d : Vtx K} (h : Cross a b c d) : Cross a b d c := by
  obtain ⟨h1, h2⟩ := h
  refine ⟨by linarith, ?_⟩
  rw [area2_swap c d a, area2_swap c d b]; linarith

/-- A point collinear with two different points. -/
theorem Plane.param {a b c : Vtx K} (hab : a ≠ b) (h : area2 a b c = 0) :
    ∃ s : K, c.x = a.x + s * (b.x - a.x) ∧ c.y = a.y + s * (b.y - a.y) := by
  unfold area2 at h
  by_cases hx : b.x - a.x = 0
  · have hy : b.y - a.y ≠ 0 := by
      intro hy; apply hab
      obtain ⟨ax, ay⟩ := a; obtain ⟨bx, by'⟩ := b
      simp only [Vtx.mk.injEq] at *
      exact ⟨by linarith, by linarith⟩
    refine ⟨(c.y - a.y) / (b.y - a.y), ?_, ?_⟩
    · have : (c.x - a.x) * (b.y - a.y) = 0 := by rw [hx] at h; linarith
      rcases mul_eq_zero.1 this with h' | h'
      · rw [hx]; linarith
      · exact absurd h' hy
    · field_simp; ring
  · refine ⟨(c.x - a.x) / (b.x - a.x), ?_, ?_⟩
    · field_simp; ring
    · field_simp; linear_combination h

theorem Plane.area2_end (a b c : Vtx K) (s : K) (hx : c.x = a.x + s * (b.x - a.x)) (hy : c.y = a.y + s * (b.y - a.y))
    (d : Vtx K) : area2 c d a = -s * area2 c d b + s * area2 c d a := by
  unfold area2; rw [hx, hy]; ring

/-- `on_segment` on collinear points. -/
theorem Plane.onSeg_iff {a b c : Vtx K} (h : area2 a b c = 0) :
    (c.x ≤ max a.x b.x ∧ min a.x b.x ≤ c.x ∧ c.y ≤ max a.y b.y ∧ min a.y b.y ≤ c.y) ↔ OnSegment a b c := by
  constructor
  · rintro ⟨h1, h2, h3, h4⟩
    by_cases hab : a = b
    · subst hab
      simp only [max_self, min_self] at *
      exact ⟨0, le_rfl, zero_le_one, by linarith, by linarith⟩
    · obtain ⟨s, e1, e2⟩ := param hab h
      refine ⟨s, ?_, ?_, e1, e2⟩
      · by_contra hs
        have hs := not_le.1 hs
        apply hab
        have hx : a.x = b.x := by
          rcases lt_trichotomy a.x b.x with hl | hl | hl
          · rw [min_eq_left hl.le] at h2; nlinarith
          · exact hl
          · rw [max_eq_left hl.le] at h1; nlinarith
        have hy : a.y = b.y := by
          rcases lt_trichotomy a.y b.y with hl | hl | hl
          · rw [min_eq_left hl.le] at h4; nlinarith
          · exact hl
          · rw [max_eq_left hl.le] at h3; nlinarith
        obtain ⟨ax, ay⟩ := a; obtain ⟨bx, by'⟩ := b
        simp_all
      · by_contra hs
        have hs := not_le.1 hs
        apply hab
        have hx : a.x = b.x := by
          rcases lt_trichotomy a.x b.x with hl | hl | hl
          · rw [max_eq_right hl.le] at h1; nlinarith
          · exact hl
          · rw [min_eq_right hl.le] at h2; nlinarith
        have hy : a.y = b.y := by
          rcases lt_trichotomy a.y b.y with hl | hl | hl
          · rw [max_eq_right hl.le] at h3; nlinarith
          · exact hl
          · rw [min_eq_right hl.le] at h4; nlinarith
        obtain ⟨ax, ay⟩ := a; obtain ⟨bx, by'⟩ := b
        simp_all
  · rintro ⟨s, h0, h1, e1, e2⟩
    have key : ∀ p q : K, p + s * (q - p) ≤ max p q ∧ min p q ≤ p + s * (q - p) := by
      intro p q
      constructor
      · rcases le_total p q with hl | hl
        · rw [max_eq_right hl]; nlinarith
        · rw [max_eq_left hl]; nlinarith
      · rcases le_total p q with hl | hl
        · rw [min_eq_left hl]; nlinarith
        · rw [min_eq_right hl]; nlinarith
    rw [e1, e2]
    exact ⟨(key _ _).1, (key _ _).2, (key _ _).1, (key _ _).2⟩

theorem Plane.OnSegment.area {a b c : Vtx K} (h : OnSegment a b c) : area2 a b c = 0 := by
  obtain ⟨s, _, _, e1, e2⟩ := h
  unfold area2; rw [e1, e2]; ring

theorem Plane.onSegment_left (a b : Vtx K) : OnSegment a b a := ⟨0, le_rfl, zero_le_one, by ring, by ring⟩
theorem Plane.onSegment_right (a b : Vtx K) : OnSegment a b b := ⟨1, zero_le_one, le_rfl, by ring, by ring⟩

/-- Crossing segments have a common point. -/
theorem Plane.Cross.point {a b c d : Vtx K} (h : Cross a b c d) :
    ∃ p, InsideSegment a b p ∧ InsideSegment c d p := by
  obtain ⟨h1, h2⟩ := h
  have n1 : area2 a b c - area2 a b d ≠ 0 := by
    intro e; have : area2 a b c = area2 a b d := by linarith
    rw [this] at h1; nlinarith [mul_self_nonneg (area2 a b d)]
  have n2 : area2 c d a - area2 c d b ≠ 0 := by
    intro e; have : area2 c d a = area2 c d b := by linarith
    rw [this] at h2; nlinarith [mul_self_nonneg (area2 c d b)]
  have frac : ∀ x y : K, x * y < 0 → 0 < x / (x - y) ∧ x / (x - y) < 1 := by
    intro x y hxy
    rcases mul_neg_iff.1 hxy with ⟨hx, hy⟩ | ⟨hx, hy⟩
    · have : 0 < x - y := by linarith
      exact ⟨by positivity, by rw [div_lt_one this]; linarith⟩
    · have : x - y < 0 := by linarith
      exact ⟨div_pos_of_neg_of_neg hx this, by rw [div_lt_one_of_neg this]; linarith⟩
  obtain ⟨s0, s1⟩ := frac _ _ h2
  obtain ⟨t0, t1⟩ := frac _ _ h1
  have rel : area2 c d a - area2 c d b = -(area2 a b c - area2 a b d) := by unfold area2; ring
  refine ⟨⟨a.x + area2 c d a / (area2 c d a - area2 c d b) * (b.x - a.x),
    a.y + area2 c d a / (area2 c d a - area2 c d b) * (b.y - a.y)⟩, ⟨_, s0, s1, rfl, rfl⟩, ⟨_, t0, t1, ?_, ?_⟩⟩
  · rw [rel]; simp only
    rw [div_neg]
    field_simp
    unfold area2; ring
  · rw [rel]; simp only
    rw [div_neg]
    field_simp
    unfold area2; ring

/-- Segments with a common point, but no end on the other segment, cross. -/
theorem Plane.cross_of_point {a b c d p : Vtx K} (h1 : OnSegment a b p) (h2 : OnSegment c d p)
    (na : ¬ OnSegment c d a) (nb : ¬ OnSegment c d b) (nc : ¬ OnSegment a b c) (nd : ¬ OnSegment a b d) :
    Cross a b c d := by
  -- collinear segments: an end of one is on the other
  have key : ∀ {a b c d p : Vtx K}, OnSegment a b p → OnSegment c d p → ¬ OnSegment c d a → ¬ OnSegment c d b →
      ¬ OnSegment a b c → ¬ OnSegment a b d → area2 a b c * area2 a b d < 0 := by
    intro a b c d p h1 h2 na nb nc nd
    obtain ⟨s, s0, s1, ex, ey⟩ := h1
    obtain ⟨t, t0, t1, fx, fy⟩ := h2
    have hab : a ≠ b := by
      rintro rfl
      apply na
      refine ⟨t, t0, t1, ?_, ?_⟩
      · rw [← fx, ex]; ring
      · rw [← fy, ey]; ring
    have ht0 : t ≠ 0 := by
      rintro rfl
      apply nc
      exact ⟨s, s0, s1, by rw [← ex, fx]; ring, by rw [← ey, fy]; ring⟩
    have ht1 : t ≠ 1 := by
      rintro rfl
      apply nd
      exact ⟨s, s0, s1, by rw [← ex, fx]; ring, by rw [← ey, fy]; ring⟩
    have t0' : 0 < t := lt_of_le_of_ne t0 (Ne.symm ht0)
    have t1' : t < 1 := lt_of_le_of_ne t1 ht1
    have rel : (1 - t) * area2 a b c + t * area2 a b d = 0 := by
      have : (1 - t) * area2 a b c + t * area2 a b d = area2 a b p := by
        unfold area2; rw [fx, fy]; ring
      rw [this]
      unfold area2; rw [ex, ey]; ring
    by_cases hc : area2 a b c = 0
    · exfalso
      have hd : area2 a b d = 0 := by
        rw [hc] at rel
        rcases mul_eq_zero.1 (by linarith : t * area2 a b d = 0) with h | h
        · exact absurd h ht0
        · exact h
      obtain ⟨σ, cx, cy⟩ := param hab hc
      obtain ⟨τ, dx, dy⟩ := param hab hd
      have hs : s = (1 - t) * σ + t * τ := by
        have e1 : (s - ((1 - t) * σ + t * τ)) * (b.x - a.x) = 0 := by
          rw [cx, dx] at fx; linear_combination fx - ex
        have e2 : (s - ((1 - t) * σ + t * τ)) * (b.y - a.y) = 0 := by
          rw [cy, dy] at fy; linear_combination fy - ey
        rcases mul_eq_zero.1 e1 with h | h
        · linarith
        rcases mul_eq_zero.1 e2 with h' | h'
        · linarith
        · exfalso; apply hab
          obtain ⟨ax, ay⟩ := a; obtain ⟨bx, by'⟩ := b
          simp only [Vtx.mk.injEq] at *
          exact ⟨by linarith, by linarith⟩
      have c1 : σ < 0 ∨ 1 < σ := by
        by_contra h; rw [not_or, not_lt, not_lt] at h
        exact nc ⟨σ, h.1, h.2, cx, cy⟩
      have d1 : τ < 0 ∨ 1 < τ := by
        by_contra h; rw [not_or, not_lt, not_lt] at h
        exact nd ⟨τ, h.1, h.2, dx, dy⟩
      apply na
      have aux : ∀ u v : K, u ≠ v → ∀ e : K, u + (-u / (v - u)) * (v - u) = 0 := by
        intro u v huv _
        have : v - u ≠ 0 := sub_ne_zero.2 (Ne.symm huv)
        field_simp; ring
      have hne : σ ≠ τ := by
        rintro rfl
        have : s = σ := by rw [hs]; ring
        rcases c1 with h | h <;> linarith
      refine ⟨-σ / (τ - σ), ?_, ?_, ?_, ?_⟩
      · rcases c1 with h | h
        · rcases d1 with h' | h'
          · exfalso; nlinarith
          · apply div_nonneg <;> linarith
        · rcases d1 with h' | h'
          · apply div_nonneg_of_nonpos <;> linarith
          · exfalso; nlinarith
      · rcases c1 with h | h
        · rcases d1 with h' | h'
          · exfalso; nlinarith
          · rw [div_le_one (by linarith)]; linarith
        · rcases d1 with h' | h'
          · rw [div_le_one_of_neg (by linarith)]; linarith
          · exfalso; nlinarith
      · rw [cx, dx]; linear_combination (-(b.x - a.x)) * aux σ τ hne 0
      · rw [cy, dy]; linear_combination (-(b.y - a.y)) * aux σ τ hne 0
    · have e : area2 a b d = -((1 - t) / t) * area2 a b c := by
        field_simp; linarith
      rw [e]
      have : 0 < (1 - t) / t := div_pos (by linarith) t0'
      have h2 : 0 < area2 a b c * area2 a b c := mul_self_pos.2 hc
      nlinarith
  exact ⟨key h1 h2 na nb nc nd, key h2 h1 nc nd na nb⟩

theorem Plane.InsideSegment.on {a b p : Vtx K} (h : InsideSegment a b p) : OnSegment a b p := by
  obtain ⟨s, h0, h1, e⟩ := h; exact ⟨s, h0.le, h1.le, e⟩

theorem Plane.Cross.not_on {a b c d : Vtx K} (h : Cross a b c d) : ¬ OnSegment a b c ∧ ¬ OnSegment a b d ∧
    ¬ OnSegment c d a ∧ ¬ OnSegment c d b := by
  obtain ⟨h1, h2⟩ := h
  refine ⟨fun e => ?_, fun e => ?_, fun e => ?_, fun e => ?_⟩ <;> rw [e.area] at * <;> simp at *

/-- The common point of crossing segments is unique. -/
theorem Plane.Cross.unique {a b c d p q : Vtx K} (h : Cross a b c d) (p1 : OnSegment a b p) (p2 : OnSegment c d p)
    (q1 : OnSegment a b q) (q2 : OnSegment c d q) : p = q := by
  obtain ⟨s, _, _, ex, ey⟩ := p1
  obtain ⟨s', _, _, ex', ey'⟩ := q1
  have hp := p2.area
  have hq := q2.area
  have e1 : area2 c d p = (1 - s) * area2 c d a + s * area2 c d b := by unfold area2; rw [ex, ey]; ring
  have e2 : area2 c d q = (1 - s') * area2 c d a + s' * area2 c d b := by unfold area2; rw [ex', ey']; ring
  have : (s - s') * (area2 c d a - area2 c d b) = 0 := by linarith
  rcases mul_eq_zero.1 this with h' | h'
  · obtain ⟨px, py⟩ := p; obtain ⟨qx, qy⟩ := q
    have : s = s' := by linarith
    subst this
    simp only [Vtx.mk.injEq] at *
    exact ⟨by linarith, by linarith⟩
  · exfalso
    have : area2 c d a = area2 c d b := by linarith
    have h2 := h.2
    rw [this] at h2; nlinarith [mul_self_nonneg (area2 c d b)]

section
variable [ExactParams K]

theorem vtxEq_iff (a b : Vtx K) : vtxEq a b = true ↔ a = b := by
  obtain ⟨ax, ay⟩ := a; obtain ⟨bx, by'⟩ := b
  simp [vtxEq]

/-- `triplet_orientation` is the sign of the area. -/
theorem orientation_cases (a b c : Vtx K) :
    (tripletOrientation a b c = .colinear ∧ area2 a b c = 0) ∨
    (tripletOrientation a b c = .clockwise ∧ area2 a b c < 0) ∨
    (tripletOrientation a b c = .counterClockwise ∧ 0 < area2 a b c) := by
  unfold tripletOrientation
  have e : (b.y - a.y) * (c.x - b.x) - (b.x - a.x) * (c.y - b.y) = - area2 a b c := by unfold area2; ring
  simp only [exact_sub, exact_mul, exact_eq, exact_zero, exact_lt, decide_eq_true_eq, e]
  rcases lt_trichotomy (area2 a b c) 0 with h | h | h
  · right; left
    have : ¬ (-area2 a b c = 0) := by linarith
    simp [h, h.ne]
  · left; simp [h]
  · right; right
    have : ¬ (0 < -area2 a b c) := by linarith
    simp [h, h.ne', h.le]

theorem onSegment_iff (a b c : Vtx K) : onSegment a c b = true ↔
    (c.x ≤ max a.x b.x ∧ min a.x b.x ≤ c.x ∧ c.y ≤ max a.y b.y ∧ min a.y b.y ≤ c.y) := by
  unfold onSegment
  simp only [exact_le, exact_max, exact_min, Bool.and_eq_true, decide_eq_true_eq]
  tauto

theorem tip_iff (a b c : Vtx K) :
    (decide (tripletOrientation a b c = .colinear) && onSegment a c b) = true ↔ OnSegment a b c := by
  rw [Bool.and_eq_true, decide_eq_true_eq, onSegment_iff]
  constructor
  · rintro ⟨h1, h2⟩
    have h0 : area2 a b c = 0 := by
      rcases orientation_cases a b c with h | h | h
      · exact h.2
      · rw [h.1] at h1; cases h1
      · rw [h.1] at h1; cases h1
    exact (onSeg_iff h0).1 h2
  · intro h
    have h0 := h.area
    refine ⟨?_, (onSeg_iff h0).2 h⟩
    rcases orientation_cases a b c with h' | h' | h'
    · exact h'.1
    · linarith [h'.2]
    · linarith [h'.2]

/-- Different orientations on both sides mean a proper crossing when no end lies on the other
segment. -/
theorem orient_ne_iff {a b c d : Vtx K} (na : ¬ OnSegment c d a) (nb : ¬ OnSegment c d b)
    (nc : ¬ OnSegment a b c) (nd : ¬ OnSegment a b d) :
    (tripletOrientation a b c ≠ tripletOrientation a b d ∧ tripletOrientation c d a ≠ tripletOrientation c d b) ↔
      Cross a b c d := by
  constructor
  swap
  · rintro ⟨h1, h2⟩
    constructor
    · rcases orientation_cases a b c with ⟨h, k⟩ | ⟨h, k⟩ | ⟨h, k⟩ <;>
        rcases orientation_cases a b d with ⟨h', k'⟩ | ⟨h', k'⟩ | ⟨h', k'⟩ <;> rw [h, h'] <;>
        first
        | (intro e; cases e; done)
        | (exfalso; nlinarith)
    · rcases orientation_cases c d a with ⟨h, k⟩ | ⟨h, k⟩ | ⟨h, k⟩ <;>
        rcases orientation_cases c d b with ⟨h', k'⟩ | ⟨h', k'⟩ | ⟨h', k'⟩ <;> rw [h, h'] <;>
        first
        | (intro e; cases e; done)
        | (exfalso; nlinarith)
  · rintro ⟨h1, h2⟩
    -- a collinear end outside the segment sees both ends of it on the same side
    have out : ∀ {a b c d : Vtx K}, a ≠ b → area2 a b c = 0 → ¬ OnSegment a b c →
        tripletOrientation c d a = tripletOrientation c d b := by
      intro a b c d hab h0 nc
      obtain ⟨s, ex, ey⟩ := param hab h0
      have hs : s < 0 ∨ 1 < s := by
        by_contra h; rw [not_or, not_lt, not_lt] at h
        exact nc ⟨s, h.1, h.2, ex, ey⟩
      have e : (1 - s) * area2 c d a = (-s) * area2 c d b := by unfold area2; rw [ex, ey]; ring
      rcases orientation_cases c d a with ⟨h, k⟩ | ⟨h, k⟩ | ⟨h, k⟩ <;>
        rcases orientation_cases c d b with ⟨h', k'⟩ | ⟨h', k'⟩ | ⟨h', k'⟩ <;> rw [h, h'] <;> exfalso <;>
        rcases hs with hs | hs <;> nlinarith
    have hab : a ≠ b := by
      rintro rfl
      exact h2 rfl
    have hcd : c ≠ d := by
      rintro rfl
      exact h1 rfl
    have z1 : area2 a b c ≠ 0 := fun h => h2 (out hab h nc)
    have z2 : area2 a b d ≠ 0 := by
      intro h
      have := out (d := c) hab h nd
      apply h2
      rcases orientation_cases c d a with ⟨h, k⟩ | ⟨h, k⟩ | ⟨h, k⟩ <;>
        rcases orientation_cases c d b with ⟨h', k'⟩ | ⟨h', k'⟩ | ⟨h', k'⟩ <;> rw [h, h'] <;>
        rcases orientation_cases d c a with ⟨m, l⟩ | ⟨m, l⟩ | ⟨m, l⟩ <;>
        rcases orientation_cases d c b with ⟨m', l'⟩ | ⟨m', l'⟩ | ⟨m', l'⟩ <;> rw [m, m'] at this <;>
        rw [area2_swap c d] at l l' <;> first | (cases this; done) | (exfalso; linarith)
    have z3 : area2 c d a ≠ 0 := fun h => h1 (out hcd h na)
    have z4 : area2 c d b ≠ 0 := by
      intro h
      have := out (d := a) hcd h nb
      apply h1
      rcases orientation_cases a b c with ⟨h, k⟩ | ⟨h, k⟩ | ⟨h, k⟩ <;>
        rcases orientation_cases a b d with ⟨h', k'⟩ | ⟨h', k'⟩ | ⟨h', k'⟩ <;> rw [h, h'] <;>
        rcases orientation_cases b a c with ⟨m, l⟩ | ⟨m, l⟩ | ⟨m, l⟩ <;>
        rcases orientation_cases b a d with ⟨m', l'⟩ | ⟨m', l'⟩ | ⟨m', l'⟩ <;> rw [m, m'] at this <;>
        rw [area2_swap a b] at l l' <;> first | (cases this; done) | (exfalso; linarith)
    constructor
    · rcases orientation_cases a b c with ⟨h, k⟩ | ⟨h, k⟩ | ⟨h, k⟩ <;>
        rcases orientation_cases a b d with ⟨h', k'⟩ | ⟨h', k'⟩ | ⟨h', k'⟩ <;> rw [h, h'] at h1 <;>
        first
        | exact absurd k z1
        | exact absurd k' z2
        | exact absurd rfl h1
        | nlinarith
    · rcases orientation_cases c d a with ⟨h, k⟩ | ⟨h, k⟩ | ⟨h, k⟩ <;>
        rcases orientation_cases c d b with ⟨h', k'⟩ | ⟨h', k'⟩ | ⟨h', k'⟩ <;> rw [h, h'] at h2 <;>
        first
        | exact absurd k z3
        | exact absurd k' z4
        | exact absurd rfl h2
        | nlinarith

theorem Plane.Shared.tip {a b c d : Vtx K} (h : Shared a b c d) : Tip a b c d := by
  rcases h with rfl | rfl | rfl | rfl
  · exact .inl (onSegment_left _ _)
  · exact .inr (.inl (onSegment_left _ _))
  · exact .inl (onSegment_right _ _)
  · exact .inr (.inl (onSegment_right _ _))

/-- `egdes_intersect`, all outcomes. -/
theorem edgesIntersect_cases (a b c d : Vtx K) :
    (Shared a b c d ∧ edgesIntersect (a, b) (c, d) = .sharedEdges) ∨
    (¬ Shared a b c d ∧ Tip a b c d ∧ edgesIntersect (a, b) (c, d) = .onEdgeTip) ∨
    (¬ Tip a b c d ∧ Cross a b c d ∧ edgesIntersect (a, b) (c, d) = .crossing) ∨
    (¬ Tip a b c d ∧ ¬ Cross a b c d ∧ edgesIntersect (a, b) (c, d) = .none) := by
  unfold edgesIntersect
  by_cases hs : Shared a b c d
  · left
    refine ⟨hs, ?_⟩
    rw [if_pos]
    simp only [Bool.or_eq_true, vtxEq_iff]
    unfold Shared at hs; tauto
  right
  rw [if_neg (by simp only [Bool.or_eq_true, vtxEq_iff]; unfold Shared at hs; tauto)]
  by_cases nc : OnSegment a b c
  · exact .inl ⟨hs, .inl nc, by rw [if_pos ((tip_iff _ _ _).2 nc)]⟩
  by_cases nd : OnSegment a b d
  · exact .inl ⟨hs, .inr (.inl nd), by rw [if_neg (mt (tip_iff _ _ _).1 nc), if_pos ((tip_iff _ _ _).2 nd)]⟩
  by_cases na : OnSegment c d a
  · exact .inl ⟨hs, .inr (.inr (.inl na)), by rw [if_neg (mt (tip_iff _ _ _).1 nc), if_neg (mt (tip_iff _ _ _).1 nd), if_pos ((tip_iff _ _ _).2 na)]⟩
  by_cases nb : OnSegment c d b
  · exact .inl ⟨hs, .inr (.inr (.inr nb)), by rw [if_neg (mt (tip_iff _ _ _).1 nc), if_neg (mt (tip_iff _ _ _).1 nd), if_neg (mt (tip_iff _ _ _).1 na), if_pos ((tip_iff _ _ _).2 nb)]⟩
  right
  have ht : ¬ Tip a b c d := by unfold Tip; tauto
  rw [if_neg (mt (tip_iff _ _ _).1 nc), if_neg (mt (tip_iff _ _ _).1 nd), if_neg (mt (tip_iff _ _ _).1 na), if_neg (mt (tip_iff _ _ _).1 nb)]
  have hc := orient_ne_iff na nb nc nd
  by_cases h : Cross a b c d
  · refine .inl ⟨ht, h, ?_⟩
    have := hc.2 h
    simp [this.1, this.2]
  · refine .inr ⟨ht, h, ?_⟩
    rw [← hc] at h
    rw [if_neg]
    simpa [not_and] using h

theorem crossing_iff (a b c d : Vtx K) : edgesIntersect (a, b) (c, d) = .crossing ↔ Cross a b c d := by
  rcases edgesIntersect_cases a b c d with ⟨h, e⟩ | ⟨h, h', e⟩ | ⟨h, h', e⟩ | ⟨h, h', e⟩ <;> rw [e]
  · simp only [reduceCtorEq, false_iff]
    intro hc
    obtain ⟨c1, c2, c3, c4⟩ := hc.not_on
    rcases h.tip with h | h | h | h <;> contradiction
  · simp only [reduceCtorEq, false_iff]
    intro hc
    obtain ⟨c1, c2, c3, c4⟩ := hc.not_on
    rcases h' with h | h | h | h <;> contradiction
  · simp [h']
  · simp [h']

end

end CDT

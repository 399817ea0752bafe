import Verif.Spec.Winding
import Mathlib.Tactic.FieldSimp
import Mathlib.Tactic.Positivity
import Mathlib.Tactic.LinearCombination

/-! # The winding number changes exactly at the edges -/

namespace CDT

namespace Plane

variable {K : Type} [Field K] [LinearOrder K] [IsStrictOrderedRing K]

/-- Is `v` in the half strip to the right of the segment from `q` up to `q'`? -/
def strip (q q' v : Vtx K) : ℤ := if q.y < v.y ∧ v.y ≤ q'.y ∧ area2 q q' v < 0 then 1 else 0

theorem area_low (q q' a b : Vtx K) :
    (q'.y - q.y) * area2 a b q = -((b.y - q.y) * area2 q q' a + (q.y - a.y) * area2 q q' b) := by
  simp only [area2]; ring

theorem area_high (q q' a b : Vtx K) :
    (q'.y - q.y) * area2 a b q' = -((b.y - q'.y) * area2 q q' a + (q'.y - a.y) * area2 q q' b) := by
  simp only [area2]; ring

theorem crossing_rev (a b q : Vtx K) : crossing b a q = - crossing a b q := by
  unfold crossing
  rw [area2_swap a b q]
  by_cases h1 : b.y ≤ q.y ∧ q.y < a.y ∧ area2 a b q < 0
  · rw [if_pos h1, if_neg (by rintro ⟨h, h', -⟩; linarith [h1.1, h1.2.1]), if_pos ⟨h1.1, h1.2.1, by linarith [h1.2.2]⟩]
  · rw [if_neg h1]
    by_cases h2 : a.y ≤ q.y ∧ q.y < b.y ∧ 0 < area2 a b q
    · rw [if_pos h2, if_pos ⟨h2.1, h2.2.1, by linarith [h2.2.2]⟩]; rfl
    · rw [if_neg h2, if_neg (by rintro ⟨h, h', h3⟩; exact h2 ⟨h, h', by linarith⟩),
        if_neg (by rintro ⟨h, h', h3⟩; exact h1 ⟨h, h', by linarith⟩)]; rfl

/-- The point of the edge at the parameter `t`. -/
def at' (a b : Vtx K) (t : K) : Vtx K := ⟨a.x + t * (b.x - a.x), a.y + t * (b.y - a.y)⟩

theorem area_at (q q' a b : Vtx K) (t : K) : area2 q q' (at' a b t) = (1 - t) * area2 q q' a + t * area2 q q' b := by
  simp only [area2, at']; ring

/-- A point of the line through `q` and `q'` at a height between them is on the segment. -/
theorem onSegment_of_height {q q' m : Vtx K} (h : q.y < q'.y) (h0 : area2 q q' m = 0) (h1 : q.y ≤ m.y) (h2 : m.y ≤ q'.y) :
    OnSegment q q' m := by
  have hd : 0 < q'.y - q.y := by linarith
  refine ⟨(m.y - q.y) / (q'.y - q.y), div_nonneg (by linarith) hd.le, (div_le_one hd).2 (by linarith), ?_, ?_⟩
  · field_simp
    simp only [area2] at h0
    linear_combination -h0
  · field_simp; ring

/-- Along the part of an edge between the heights of `q` and `q'` the side of the line does not change, if the edge does not
meet the segment. -/
theorem side_const {q q' a b : Vtx K} (h : q.y < q'.y) (hn : ¬ Meet q q' a b) {s t : K} (s0 : 0 ≤ s) (s1 : s ≤ 1) (t0 : 0 ≤ t)
    (t1 : t ≤ 1) (hs1 : q.y ≤ (at' a b s).y) (hs2 : (at' a b s).y ≤ q'.y) (ht1 : q.y ≤ (at' a b t).y) (ht2 : (at' a b t).y ≤ q'.y)
    (hs : area2 q q' (at' a b s) < 0) : area2 q q' (at' a b t) < 0 := by
  by_contra hc
  rw [not_lt] at hc
  apply hn
  set A := area2 q q' (at' a b s)
  set B := area2 q q' (at' a b t)
  have hd : 0 < B - A := by linarith
  -- weight of `t`
  have e0 : 0 ≤ -A / (B - A) := div_nonneg (by linarith) hd.le
  have e1 : -A / (B - A) ≤ 1 := (div_le_one hd).2 (by linarith)
  set w := -A / (B - A) with hw
  have e1' : 0 ≤ 1 - w := by linarith
  refine ⟨at' a b ((1 - w) * s + w * t), ?_, (1 - w) * s + w * t, ?_, ?_, rfl, rfl⟩
  · have hy : (at' a b ((1 - w) * s + w * t)).y = (1 - w) * (at' a b s).y + w * (at' a b t).y := by simp only [at']; ring
    refine onSegment_of_height h ?_ ?_ ?_
    · have : area2 q q' (at' a b ((1 - w) * s + w * t)) = (1 - w) * A + w * B := by
        simp only [A, B, area_at]; ring
      rw [this, hw]; field_simp; ring
    · rw [hy]
      have := mul_nonneg e1' (sub_nonneg.2 hs1)
      have := mul_nonneg e0 (sub_nonneg.2 ht1)
      linarith
    · rw [hy]
      have := mul_nonneg e1' (sub_nonneg.2 hs2)
      have := mul_nonneg e0 (sub_nonneg.2 ht2)
      linarith
  · have := mul_nonneg e1' s0
    have := mul_nonneg e0 t0
    linarith
  · have := mul_nonneg e1' (sub_nonneg.2 s1)
    have := mul_nonneg e0 (sub_nonneg.2 t1)
    linarith

/-- The point of an upward edge at a given height. -/
theorem at_height {a b : Vtx K} {y : K} (h1 : a.y ≤ y) (h2 : y < b.y) :
    ∃ t : K, 0 ≤ t ∧ t ≤ 1 ∧ (at' a b t).y = y ∧ ∀ q : Vtx K, q.y = y → area2 a b q = (b.y - a.y) * ((at' a b t).x - q.x) := by
  have hd : 0 < b.y - a.y := by linarith
  refine ⟨(y - a.y) / (b.y - a.y), div_nonneg (by linarith) hd.le, (div_le_one hd).2 (by linarith), ?_, ?_⟩
  · simp only [at']; field_simp; ring
  · intro q hq
    simp only [at', area2]; field_simp
    rw [hq]; ring

theorem area_level {q q' m : Vtx K} (h : m.y = q.y) : area2 q q' m = -((m.x - q.x) * (q'.y - q.y)) := by
  simp only [area2, h]; ring

theorem area_level' {q q' m : Vtx K} (h : m.y = q'.y) : area2 q q' m = -((m.x - q'.x) * (q'.y - q.y)) := by
  simp only [area2, h]; ring

theorem at_zero (a b : Vtx K) : at' a b 0 = a := by simp [at']
theorem at_one (a b : Vtx K) : at' a b 1 = b := by simp [at']

theorem strip_up {q q' a b : Vtx K} (h : q.y < q'.y) (hn : ¬ Meet q q' a b) (hab : a.y ≤ b.y) :
    crossing a b q - crossing a b q' = strip q q' a - strip q q' b := by
  have hD : 0 < q'.y - q.y := by linarith
  have c1 : ∀ p : Vtx K, crossing a b p = if a.y ≤ p.y ∧ p.y < b.y ∧ 0 < area2 a b p then -1 else 0 := by
    intro p; unfold crossing; rw [if_neg (by rintro ⟨h1, h2, -⟩; linarith)]
  -- the side at a crossing point
  have low : ∀ t : K, (at' a b t).y = q.y → (∀ p : Vtx K, p.y = q.y → area2 a b p = (b.y - a.y) * ((at' a b t).x - p.x)) → a.y < b.y →
      (0 < area2 a b q ↔ area2 q q' (at' a b t) < 0) := by
    intro t ht hp hlt
    rw [hp q rfl, area_level ht, mul_pos_iff_of_pos_left (by linarith), neg_lt_zero, mul_pos_iff_of_pos_right hD]
  have high : ∀ t : K, (at' a b t).y = q'.y → (∀ p : Vtx K, p.y = q'.y → area2 a b p = (b.y - a.y) * ((at' a b t).x - p.x)) → a.y < b.y →
      (0 < area2 a b q' ↔ area2 q q' (at' a b t) < 0) := by
    intro t ht hp hlt
    rw [hp q' rfl, area_level' ht, mul_pos_iff_of_pos_left (by linarith), neg_lt_zero, mul_pos_iff_of_pos_right hD]
  have iff_side : ∀ {s t : K}, 0 ≤ s → s ≤ 1 → 0 ≤ t → t ≤ 1 → q.y ≤ (at' a b s).y → (at' a b s).y ≤ q'.y → q.y ≤ (at' a b t).y →
      (at' a b t).y ≤ q'.y → (area2 q q' (at' a b s) < 0 ↔ area2 q q' (at' a b t) < 0) := fun s0 s1 t0 t1 h1 h2 h3 h4 =>
    ⟨side_const h hn s0 s1 t0 t1 h1 h2 h3 h4, side_const h hn t0 t1 s0 s1 h3 h4 h1 h2⟩
  rw [c1, c1]
  unfold strip
  rcases le_or_gt b.y q.y with k1 | k1
  · rw [if_neg (by rintro ⟨-, h2, -⟩; linarith), if_neg (by rintro ⟨-, h2, -⟩; linarith), if_neg (by rintro ⟨h1, -⟩; linarith),
      if_neg (by rintro ⟨h1, -⟩; linarith)]
  rcases lt_or_ge q'.y a.y with k2 | k2
  · rw [if_neg (by rintro ⟨h1, -⟩; linarith), if_neg (by rintro ⟨h1, -⟩; linarith), if_neg (by rintro ⟨-, h2, -⟩; linarith),
      if_neg (by rintro ⟨-, h2, -⟩; linarith)]
  rcases le_or_gt a.y q.y with k3 | k3
  · obtain ⟨t, t0, t1, ty, hp⟩ := at_height k3 k1
    have e := low t ty hp (by linarith)
    rcases le_or_gt b.y q'.y with k4 | k4
    · have e2 := iff_side t0 t1 zero_le_one le_rfl (by rw [ty]) (by rw [ty]; exact h.le) (by rw [at_one]; exact k1.le) (by rw [at_one]; exact k4)
      rw [at_one] at e2
      rw [if_neg (show ¬ (a.y ≤ q'.y ∧ q'.y < b.y ∧ _) by rintro ⟨-, h2, -⟩; linarith),
        if_neg (show ¬ (q.y < a.y ∧ _) by rintro ⟨h1, -⟩; linarith)]
      by_cases hs : area2 q q' b < 0
      · rw [if_pos ⟨k3, k1, e.2 (e2.2 hs)⟩, if_pos ⟨k1, k4, hs⟩]; rfl
      · rw [if_neg (by rintro ⟨-, -, h3⟩; exact hs (e2.1 (e.1 h3))), if_neg (by rintro ⟨-, -, h3⟩; exact hs h3)]
    · obtain ⟨t', t0', t1', ty', hp'⟩ := at_height k2 k4
      have e' := high t' ty' hp' (by linarith)
      have e2 := iff_side t0 t1 t0' t1' (by rw [ty]) (by rw [ty]; exact h.le) (by rw [ty']; exact h.le) (by rw [ty'])
      rw [if_neg (show ¬ (q.y < a.y ∧ _) by rintro ⟨h1, -⟩; linarith),
        if_neg (show ¬ (q.y < b.y ∧ b.y ≤ q'.y ∧ _) by rintro ⟨-, h1, -⟩; linarith)]
      by_cases hs : 0 < area2 a b q
      · rw [if_pos ⟨k3, k1, hs⟩, if_pos ⟨k2, k4, e'.2 (e2.1 (e.1 hs))⟩]; rfl
      · rw [if_neg (by rintro ⟨-, -, h3⟩; exact hs h3), if_neg (by rintro ⟨-, -, h3⟩; exact hs (e.2 (e2.2 (e'.1 h3))))]
  · rw [if_neg (show ¬ (a.y ≤ q.y ∧ _) by rintro ⟨h1, -⟩; linarith)]
    rcases le_or_gt b.y q'.y with k4 | k4
    · have e2 := iff_side le_rfl zero_le_one zero_le_one le_rfl (by rw [at_zero]; exact k3.le) (by rw [at_zero]; exact k2)
        (by rw [at_one]; exact k1.le) (by rw [at_one]; exact k4)
      rw [at_zero, at_one] at e2
      rw [if_neg (show ¬ (a.y ≤ q'.y ∧ q'.y < b.y ∧ _) by rintro ⟨-, h2, -⟩; linarith)]
      by_cases hs : area2 q q' b < 0
      · rw [if_pos ⟨k3, k2, e2.2 hs⟩, if_pos ⟨k1, k4, hs⟩]; rfl
      · rw [if_neg (by rintro ⟨-, -, h3⟩; exact hs (e2.1 h3)), if_neg (by rintro ⟨-, -, h3⟩; exact hs h3)]
    · obtain ⟨t', t0', t1', ty', hp'⟩ := at_height k2 k4
      have e' := high t' ty' hp' (by linarith)
      have e2 := iff_side le_rfl zero_le_one t0' t1' (by rw [at_zero]; exact k3.le) (by rw [at_zero]; exact k2)
        (by rw [ty']; exact h.le) (by rw [ty'])
      rw [at_zero] at e2
      rw [if_neg (show ¬ (q.y < b.y ∧ b.y ≤ q'.y ∧ _) by rintro ⟨-, h1, -⟩; linarith)]
      by_cases hs : area2 q q' a < 0
      · rw [if_pos ⟨k2, k4, e'.2 (e2.1 hs)⟩, if_pos ⟨k3, k2, hs⟩]; rfl
      · rw [if_neg (by rintro ⟨-, -, h3⟩; exact hs (e2.2 (e'.1 h3))), if_neg (by rintro ⟨-, -, h3⟩; exact hs h3)]

theorem OnSegment.rev {a b m : Vtx K} (h : OnSegment a b m) : OnSegment b a m := by
  obtain ⟨s, h0, h1, hx, hy⟩ := h
  exact ⟨1 - s, by linarith, by linarith, by rw [hx]; ring, by rw [hy]; ring⟩

theorem Meet.rev {p q a b : Vtx K} (h : Meet p q a b) : Meet p q b a := by
  obtain ⟨m, h1, h2⟩ := h; exact ⟨m, h1, h2.rev⟩

theorem Meet.rev' {p q a b : Vtx K} (h : Meet p q a b) : Meet q p a b := by
  obtain ⟨m, h1, h2⟩ := h; exact ⟨m, h1.rev, h2⟩

/-- The crossing number of an edge that does not meet the segment from `q` up to `q'`. -/
theorem strip_edge {q q' a b : Vtx K} (h : q.y < q'.y) (hn : ¬ Meet q q' a b) :
    crossing a b q - crossing a b q' = strip q q' a - strip q q' b := by
  rcases le_total a.y b.y with hab | hab
  · exact strip_up h hn hab
  · have := strip_up h (fun hm => hn hm.rev) hab
    rw [crossing_rev a b, crossing_rev a b] at this
    linarith

/-- The crossing number of an edge that the segment from `q` up to `q'` crosses from its clockwise side. -/
theorem strip_cross {q q' a b : Vtx K} (h : q.y < q'.y) (hq : area2 a b q < 0) (hq' : 0 < area2 a b q')
    (ha : 0 < area2 q q' a) (hb : area2 q q' b < 0) :
    crossing a b q - crossing a b q' = strip q q' a - strip q q' b + 1 := by
  have hD : 0 < q'.y - q.y := by linarith
  have i1 := area_low q q' a b
  have i2 := area_high q q' a b
  have l1 := mul_neg_of_pos_of_neg hD hq
  have l2 := mul_pos hD hq'
  have s1 : strip q q' a = 0 := by unfold strip; rw [if_neg (by rintro ⟨-, -, h3⟩; linarith)]
  have c1 : crossing a b q = if b.y ≤ q.y ∧ q.y < a.y then 1 else 0 := by
    unfold crossing
    by_cases hk : b.y ≤ q.y ∧ q.y < a.y
    · rw [if_pos hk, if_pos ⟨hk.1, hk.2, hq⟩]
    · rw [if_neg hk, if_neg (by rintro ⟨h1, h2, -⟩; exact hk ⟨h1, h2⟩), if_neg (by rintro ⟨-, -, h3⟩; linarith)]
  have c2 : crossing a b q' = if a.y ≤ q'.y ∧ q'.y < b.y then -1 else 0 := by
    unfold crossing
    rw [if_neg (by rintro ⟨-, -, h3⟩; linarith)]
    by_cases hk : a.y ≤ q'.y ∧ q'.y < b.y
    · rw [if_pos hk, if_pos ⟨hk.1, hk.2, hq'⟩]
    · rw [if_neg hk, if_neg (by rintro ⟨h1, h2, -⟩; exact hk ⟨h1, h2⟩)]
  have s2 : strip q q' b = if q.y < b.y ∧ b.y ≤ q'.y then 1 else 0 := by
    unfold strip
    by_cases hk : q.y < b.y ∧ b.y ≤ q'.y
    · rw [if_pos hk, if_pos ⟨hk.1, hk.2, hb⟩]
    · rw [if_neg hk, if_neg (by rintro ⟨h1, h2, -⟩; exact hk ⟨h1, h2⟩)]
  rw [s1, c1, c2, s2]
  rcases le_or_gt b.y q.y with k1 | k1
  · have k2 : q.y < a.y := by
      by_contra hc
      rw [not_lt] at hc
      have := mul_nonneg (sub_nonneg.2 k1) ha.le
      have := mul_nonneg (sub_nonneg.2 hc) (neg_nonneg.2 hb.le)
      linarith
    rw [if_pos ⟨k1, k2⟩, if_neg (by rintro ⟨-, h⟩; linarith), if_neg (by rintro ⟨h, -⟩; linarith)]; rfl
  · rw [if_neg (by rintro ⟨h, -⟩; linarith)]
    rcases le_or_gt b.y q'.y with k2 | k2
    · rw [if_neg (by rintro ⟨-, h⟩; linarith), if_pos ⟨k1, k2⟩]; rfl
    · have k3 : a.y ≤ q'.y := by
        by_contra hc
        rw [not_le] at hc
        have := mul_pos (sub_pos.2 k2) ha
        have := mul_pos (sub_pos.2 hc) (neg_pos.2 hb)
        linarith
      rw [if_pos ⟨k3, k2⟩, if_neg (by rintro ⟨-, h⟩; linarith)]; rfl

/-- Sums over closed curves. -/
theorem Balanced.sum {es : List (Vtx K × Vtx K)} (h : Balanced es) (f : Vtx K → ℤ) :
    (es.map fun e => f e.1 - f e.2).sum = 0 := by
  have e1 : (es.map fun e => f e.1 - f e.2).sum = ((es.map (·.1)).map f).sum - ((es.map (·.2)).map f).sum := by
    rw [List.map_map, List.map_map]
    induction es with
    | nil => simp
    | cons a l ih =>
      have : ∀ l : List (Vtx K × Vtx K), (l.map fun e => f e.1 - f e.2).sum = (l.map (f ∘ (·.1))).sum - (l.map (f ∘ (·.2))).sum := by
        intro l; induction l with
        | nil => simp
        | cons a l ih => simp only [List.map_cons, List.sum_cons, ih, Function.comp]; ring
      exact this _
  rw [e1, (h.map f).sum_eq]; ring

/-- The winding number is the same at both ends of a segment that meets no edge. -/
theorem winding_const_up {es : List (Vtx K × Vtx K)} (hb : Balanced es) {q q' : Vtx K} (h : q.y < q'.y)
    (hn : ∀ e ∈ es, ¬ Meet q q' e.1 e.2) : winding es q = winding es q' := by
  have := hb.sum (strip q q')
  have e : (es.map fun e => strip q q' e.1 - strip q q' e.2) = es.map fun e => crossing e.1 e.2 q - crossing e.1 e.2 q' :=
    List.map_congr_left fun e he => (strip_edge h (hn e he)).symm
  rw [e] at this
  have e2 : ∀ l : List (Vtx K × Vtx K), (l.map fun e => crossing e.1 e.2 q - crossing e.1 e.2 q').sum = winding l q - winding l q' := by
    intro l; induction l with
    | nil => simp [winding]
    | cons a l ih => simp only [winding, List.map_cons, List.sum_cons] at ih ⊢; rw [ih]; ring
  rw [e2] at this
  linarith

theorem winding_const {es : List (Vtx K × Vtx K)} (hb : Balanced es) {q q' : Vtx K} (h : q.y ≠ q'.y)
    (hn : ∀ e ∈ es, ¬ Meet q q' e.1 e.2) : winding es q = winding es q' := by
  rcases lt_or_gt_of_ne h with h | h
  · exact winding_const_up hb h hn
  · exact (winding_const_up hb h fun e he hm => hn e he hm.rev').symm

/-- Crossing exactly one edge. -/
theorem winding_jump_up {es : List (Vtx K × Vtx K)} (hb : Balanced es) (hnd : es.Nodup) {q q' a b : Vtx K} (h : q.y < q'.y) (he : (a, b) ∈ es)
    (hn : ∀ e ∈ es, e ≠ (a, b) → ¬ Meet q q' e.1 e.2) {d : ℤ}
    (hc : crossing a b q - crossing a b q' = strip q q' a - strip q q' b + d) : winding es q = winding es q' + d := by
  have := hb.sum (strip q q')
  have key : ∀ l : List (Vtx K × Vtx K), l.Nodup → (∀ e ∈ l, e ∈ es) →
      winding l q - winding l q' = (l.map fun e => strip q q' e.1 - strip q q' e.2).sum + if (a, b) ∈ l then d else 0 := by
    intro l hl hsub
    induction l with
    | nil => simp [winding]
    | cons x l ih =>
      have ih := ih (List.nodup_cons.1 hl).2 fun e he => hsub e (List.mem_cons_of_mem _ he)
      simp only [winding, List.map_cons, List.sum_cons] at ih ⊢
      by_cases hx : x = (a, b)
      · have hnm : (a, b) ∉ l := hx ▸ (List.nodup_cons.1 hl).1
        rw [if_neg hnm] at ih
        rw [if_pos (by rw [hx]; simp), hx]
        simp only
        linarith
      · have hs := strip_edge h (hn x (hsub x (by simp)) hx)
        have : ((a, b) ∈ x :: l) = ((a, b) ∈ l) := by
          rw [List.mem_cons]; simp [Ne.symm hx]
        simp only [this]
        linarith
  have k := key es hnd fun e he => he
  rw [this, if_pos he] at k
  linarith

/-- Crossing exactly one edge, from its clockwise side. -/
theorem winding_jump {es : List (Vtx K × Vtx K)} (hb : Balanced es) (hnd : es.Nodup) {q q' a b : Vtx K} (h : q.y ≠ q'.y) (he : (a, b) ∈ es)
    (hn : ∀ e ∈ es, e ≠ (a, b) → ¬ Meet q q' e.1 e.2) (hq : area2 a b q < 0) (hq' : 0 < area2 a b q')
    (ha : 0 < area2 q q' a) (hbb : area2 q q' b < 0) : winding es q = winding es q' + 1 := by
  rcases lt_or_gt_of_ne h with h | h
  · exact winding_jump_up hb hnd h he hn (strip_cross h hq hq' ha hbb)
  · have k := strip_cross (a := b) (b := a) h (by rw [area2_swap]; linarith) (by rw [area2_swap]; linarith)
      (by rw [area2_swap]; linarith) (by rw [area2_swap]; linarith)
    rw [crossing_rev a b, crossing_rev a b] at k
    have := winding_jump_up hb hnd h he (fun e he hne hm => hn e he hne hm.rev') (d := -1) (by linarith)
    linarith

/-- Far away the winding number is zero. -/
theorem winding_far {es : List (Vtx K × Vtx K)} (hb : Balanced es) {q : Vtx K}
    (h : (∀ e ∈ es, q.x < e.1.x ∧ q.x < e.2.x) ∨ (∀ e ∈ es, e.1.x < q.x ∧ e.2.x < q.x) ∨ (∀ e ∈ es, q.y < e.1.y ∧ q.y < e.2.y) ∨
      ∀ e ∈ es, e.1.y < q.y ∧ e.2.y < q.y) : winding es q = 0 := by
  rcases h with h | h | h | h
  · -- all crossings are counted: the sum telescopes
    have := hb.sum fun v => if q.y < v.y then 1 else 0
    rw [← this]
    unfold winding
    congr 1
    refine List.map_congr_left fun e he => ?_
    obtain ⟨h1, h2⟩ := h e he
    unfold crossing
    have key : ∀ a b : Vtx K, q.x < a.x → q.x < b.x → b.y ≤ q.y → q.y < a.y → area2 a b q < 0 := by
      intro a b ha hb h1 h2
      have e : area2 a b q = -((b.x - q.x) * (a.y - q.y) + (a.x - q.x) * (q.y - b.y)) := by simp only [area2]; ring
      rw [e]
      have := mul_pos (sub_pos.2 hb) (sub_pos.2 h2)
      have := mul_nonneg (sub_pos.2 ha).le (sub_nonneg.2 h1)
      linarith
    by_cases ka : q.y < e.1.y <;> by_cases kb : q.y < e.2.y
    · rw [if_neg (by rintro ⟨h, -⟩; linarith), if_neg (by rintro ⟨h, -⟩; linarith), if_pos ka, if_pos kb]; rfl
    · rw [if_pos ⟨not_lt.1 kb, ka, key _ _ h1 h2 (not_lt.1 kb) ka⟩, if_pos ka, if_neg kb]; rfl
    · have := key _ _ h2 h1 (not_lt.1 ka) kb
      rw [if_neg (by rintro ⟨h, -⟩; linarith), if_pos ⟨not_lt.1 ka, kb, by rw [area2_swap] at this; linarith⟩, if_neg ka, if_pos kb]; rfl
    · rw [if_neg (by rintro ⟨-, h, -⟩; exact ka h), if_neg (by rintro ⟨-, h, -⟩; exact kb h), if_neg ka, if_neg kb]; rfl
  · have : ∀ e ∈ es, crossing e.1 e.2 q = 0 := by
      intro e he
      obtain ⟨h1, h2⟩ := h e he
      unfold crossing
      have e0 : area2 e.1 e.2 q = (q.x - e.2.x) * (e.1.y - q.y) + (q.x - e.1.x) * (q.y - e.2.y) := by simp only [area2]; ring
      rw [if_neg, if_neg]
      · rintro ⟨k1, k2, k3⟩
        have := mul_nonneg (sub_pos.2 h2).le (sub_nonneg.2 k1)
        have := mul_pos (sub_pos.2 h1) (sub_pos.2 k2)
        linarith
      · rintro ⟨k1, k2, k3⟩
        have := mul_pos (sub_pos.2 h2) (sub_pos.2 k2)
        have := mul_nonneg (sub_pos.2 h1).le (sub_nonneg.2 k1)
        linarith
    unfold winding
    rw [List.map_congr_left this]; simp
  · have : ∀ e ∈ es, crossing e.1 e.2 q = 0 := by
      intro e he
      obtain ⟨h1, h2⟩ := h e he
      unfold crossing
      rw [if_neg (by rintro ⟨k1, -⟩; linarith), if_neg (by rintro ⟨k1, -⟩; linarith)]
    unfold winding
    rw [List.map_congr_left this]; simp
  · have : ∀ e ∈ es, crossing e.1 e.2 q = 0 := by
      intro e he
      obtain ⟨h1, h2⟩ := h e he
      unfold crossing
      rw [if_neg (by rintro ⟨-, k1, -⟩; linarith), if_neg (by rintro ⟨-, k1, -⟩; linarith)]
    unfold winding
    rw [List.map_congr_left this]; simp

end Plane

end CDT

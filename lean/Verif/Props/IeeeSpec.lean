import Verif.Proofs.IeeeRound
import Mathlib.Data.EReal.Operations

/-!
# C76: the modelled `f32` and `f64` are IEEE 754 arithmetic

Finite results are determined by `Spec.RoundsTo`: the exact result rounded to nearest, ties to even, with overflow. Comparisons
and the operations on infinities are those of the extended real numbers (`Spec.denotes`).
-/

namespace CDT
open Fl

section Main
variable {f : Fmt} [Ok f]

/-- **C76**. Sums. -/
theorem C76_add (a b : ℚ) (x : Fl f) : FloatOps.add (.fin a : Fl f) (.fin b) = x ↔ Spec.RoundsTo f ((a : ℝ) + b) x := by
  have h := mk_roundsTo f (a + b)
  push_cast at h
  exact ⟨fun e => e ▸ h, fun h' => roundsTo_unique h h'⟩

/-- **C76**. Differences. -/
theorem C76_sub (a b : ℚ) (x : Fl f) : FloatOps.sub (.fin a : Fl f) (.fin b) = x ↔ Spec.RoundsTo f ((a : ℝ) - b) x := by
  have h := mk_roundsTo f (a - b)
  push_cast at h
  exact ⟨fun e => e ▸ h, fun h' => roundsTo_unique h h'⟩

/-- **C76**. Products. -/
theorem C76_mul (a b : ℚ) (x : Fl f) : FloatOps.mul (.fin a : Fl f) (.fin b) = x ↔ Spec.RoundsTo f ((a : ℝ) * b) x := by
  have h := mk_roundsTo f (a * b)
  push_cast at h
  exact ⟨fun e => e ▸ h, fun h' => roundsTo_unique h h'⟩

/-- **C76**. Quotients. -/
theorem C76_div (a b : ℚ) (hb : b ≠ 0) (x : Fl f) : FloatOps.div (.fin a : Fl f) (.fin b) = x ↔ Spec.RoundsTo f ((a : ℝ) / b) x := by
  have h := mk_roundsTo f (a / b)
  push_cast at h
  have e : FloatOps.div (.fin a : Fl f) (.fin b) = mk f (a / b) := by simp [FloatOps.div, Fl.div, hb]
  rw [e]
  exact ⟨fun e => e ▸ h, fun h' => roundsTo_unique h h'⟩

/-- **C76**. Square roots. -/
theorem C76_sqrt (a : ℚ) (h0 : 0 ≤ a) (hn : f.Number a) (x : Fl f) : FloatOps.sqrt (.fin a : Fl f) = x ↔ Spec.RoundsTo f √(a : ℝ) x :=
  have h := sqrt_roundsTo h0 hn
  ⟨fun e => e ▸ h, fun h' => roundsTo_unique h h'⟩

/-- **C76**. The conversion from integers and the decimal constants of the code. -/
theorem C76_convert (n : Nat) (x : Fl f) : FloatOps.ofNat n = x ↔ Spec.RoundsTo f n x := by
  have h := mk_roundsTo f n
  push_cast at h
  exact ⟨fun e => e ▸ h, fun h' => roundsTo_unique h h'⟩

theorem C76_literals : Spec.RoundsTo f 0.99 (FloatOps.c099 : Fl f) ∧ Spec.RoundsTo f 1.42 (FloatOps.delta : Fl f) := by
  have h1 := mk_roundsTo f (99 / 100)
  have h2 := mk_roundsTo f (142 / 100)
  push_cast at h1 h2
  constructor
  · rw [show (0.99 : ℝ) = 99 / 100 by norm_num]; exact h1
  · rw [show (1.42 : ℝ) = 142 / 100 by norm_num]; exact h2

/-- **C76**. `MAX` and `MIN` are the largest and the least number. -/
theorem C76_max : ∃ q : ℚ, (FloatOps.fmax : Fl f) = .fin q ∧ (FloatOps.fmin : Fl f) = .fin (-q) ∧ f.Number q ∧ ∀ s, f.Number s → |s| ≤ q :=
  ⟨big f, rfl, rfl, number_iff.2 ⟨rnd_big f, by rw [abs_of_pos (lt_of_lt_of_le (by positivity) (big_ge f))]⟩, fun _ hs => number_le hs⟩

/-- **C76**. `EPSILON` is the distance from one to the next number. -/
theorem C76_epsilon : ∃ q : ℚ, (FloatOps.eps : Fl f) = .fin q ∧ 0 < q ∧ f.Number (1 + q) ∧ ∀ s, f.Number s → 1 < s → 1 + q ≤ s := by
  have hp := Ok.prec (f := f)
  have hp2 := Ok.prec_emax (f := f)
  have hp3 := Ok.qmin (f := f)
  have hpow : (2 : ℚ) ^ f.prec = 2 * 2 ^ (f.prec - 1) := by rw [← pow_succ']; congr 1; omega
  have hz : (2 : ℚ) ^ (1 - (f.prec : ℤ)) = 1 / 2 ^ (f.prec - 1) := by
    rw [show (1 : ℤ) - f.prec = -((f.prec - 1 : ℕ) : ℤ) by omega, zpow_neg, zpow_natCast, one_div]
  have hge : (1 : ℤ) ≤ 2 ^ (f.prec - 1) := one_le_pow₀ (by norm_num)
  refine ⟨1 / 2 ^ (f.prec - 1), ?_, by positivity, ?_, ?_⟩
  · show (Fl.fin (mkRat 1 (2 ^ (f.prec - 1))) : Fl f) = _
    rw [Rat.mkRat_eq_div]; push_cast; rfl
  · refine ⟨2 ^ (f.prec - 1) + 1, 1 - f.prec, ?_, ?_, by omega, by omega⟩
    · rw [hz]; push_cast; field_simp
    · rw [abs_of_nonneg (by positivity)]
      have : (2 : ℤ) ^ f.prec = 2 * 2 ^ (f.prec - 1) := by rw [← pow_succ']; congr 1; omega
      have h2 : (2 : ℤ) ≤ 2 ^ (f.prec - 1) := by
        calc (2 : ℤ) = 2 ^ 1 := by norm_num
          _ ≤ 2 ^ (f.prec - 1) := pow_le_pow_right₀ (by norm_num) (by omega)
      omega
  · intro s hs h1
    obtain ⟨z, hz'⟩ := number_grid hs (e := 0) (by simpa using h1.le)
    rw [zero_add, hz] at hz'
    have hpos : (0 : ℚ) < 2 ^ (f.prec - 1) := by positivity
    rw [hz', mul_one_div, lt_div_iff₀ hpos, one_mul] at h1
    have h3 : (2 : ℤ) ^ (f.prec - 1) < z := by exact_mod_cast h1
    have h4 : (((2 : ℤ) ^ (f.prec - 1) : ℤ) : ℚ) + 1 ≤ z := by exact_mod_cast h3
    push_cast at h4
    rw [hz', mul_one_div, le_div_iff₀ hpos, add_mul, div_mul_cancel₀ _ hpos.ne']
    linarith

end Main

section Special
variable {f : Fmt}

/-- **C76**. NaN is propagated. -/
theorem C76_nan (x : Fl f) : FloatOps.add .nan x = .nan ∧ FloatOps.add x .nan = .nan ∧ FloatOps.sub .nan x = .nan ∧ FloatOps.sub x .nan = .nan ∧
    FloatOps.mul .nan x = .nan ∧ FloatOps.mul x .nan = .nan ∧ FloatOps.div .nan x = .nan ∧ FloatOps.div x .nan = .nan ∧
    FloatOps.sqrt (.nan : Fl f) = .nan := by
  cases x <;> simp [FloatOps.add, FloatOps.sub, FloatOps.mul, FloatOps.div, FloatOps.sqrt, Fl.add, Fl.sub, Fl.mul, Fl.div, Fl.sqrt]

theorem denotes_some {x : Fl f} {a : EReal} (h : Spec.denotes x = some a) :
    (∃ q : ℚ, x = .fin q ∧ a = ((q : ℝ) : EReal)) ∨ (x = .inf true ∧ a = ⊥) ∨ (x = .inf false ∧ a = ⊤) := by
  cases x with
  | nan => simp [Spec.denotes] at h
  | inf b => cases b <;> simp [Spec.denotes] at h <;> simp [h]
  | fin q => simp [Spec.denotes] at h; exact .inl ⟨q, rfl, h.symm⟩

theorem coe_rat_lt (a b : ℚ) : (((a : ℝ) : EReal) < ((b : ℝ) : EReal)) ↔ a < b := by
  rw [EReal.coe_lt_coe_iff]; exact_mod_cast Iff.rfl

theorem coe_rat_le (a b : ℚ) : (((a : ℝ) : EReal) ≤ ((b : ℝ) : EReal)) ↔ a ≤ b := by
  rw [EReal.coe_le_coe_iff]; exact_mod_cast Iff.rfl

theorem coe_rat_eq (a b : ℚ) : (((a : ℝ) : EReal) = ((b : ℝ) : EReal)) ↔ a = b := by
  rw [EReal.coe_eq_coe_iff]; exact_mod_cast Iff.rfl

/-- **C76**. Comparisons are those of the extended real numbers, and false for NaN. -/
theorem C76_compare (x y : Fl f) :
    (FloatOps.lt x y = true ↔ ∃ a b, Spec.denotes x = some a ∧ Spec.denotes y = some b ∧ a < b) ∧
    (FloatOps.le x y = true ↔ ∃ a b, Spec.denotes x = some a ∧ Spec.denotes y = some b ∧ a ≤ b) ∧
    (FloatOps.eq x y = true ↔ ∃ a b, Spec.denotes x = some a ∧ Spec.denotes y = some b ∧ a = b) := by
  rcases x with _ | (_ | _) | p <;> rcases y with _ | (_ | _) | q <;>
    simp [FloatOps.lt, FloatOps.le, FloatOps.eq, Fl.lt, Fl.le, Fl.eq, Spec.denotes, coe_rat_lt, coe_rat_le, coe_rat_eq, EReal.bot_lt_coe, EReal.coe_lt_top, eq_comm]

/-- **C76**. Sums with an infinity: NaN for infinities of opposite signs, else the sum of extended real numbers. -/
theorem C76_add_infinite (s : Bool) (y : Fl f) (b : EReal) (hb : Spec.denotes y = some b) :
    (FloatOps.add (.inf s) y = .nan ↔ y = .inf !s) ∧
    (y ≠ .inf !s → ∃ a, Spec.denotes (.inf s : Fl f) = some a ∧ Spec.denotes (FloatOps.add (.inf s) y) = some (a + b)) ∧
    FloatOps.add y (.inf s) = FloatOps.add (.inf s) y := by
  rcases denotes_some hb with ⟨q, rfl, rfl⟩ | ⟨rfl, rfl⟩ | ⟨rfl, rfl⟩ <;> cases s <;>
    simp [FloatOps.add, Fl.add, Spec.denotes]

/-- **C76**. A difference is the sum with the negated number. -/
theorem C76_sub_add (x y : Fl f) : FloatOps.sub x y = FloatOps.add x (FloatOps.neg y) := by
  rcases x with _ | (_ | _) | p <;> rcases y with _ | (_ | _) | q <;>
    simp [FloatOps.add, FloatOps.sub, FloatOps.neg, Fl.add, Fl.sub, Fl.neg, sub_eq_add_neg]

/-- **C76**. Products with an infinity: NaN for the factor zero, else the product of extended real numbers. -/
theorem C76_mul_infinite (s : Bool) (y : Fl f) (b : EReal) (hb : Spec.denotes y = some b) :
    (FloatOps.mul (.inf s) y = .nan ↔ b = 0) ∧
    (b ≠ 0 → ∃ a, Spec.denotes (.inf s : Fl f) = some a ∧ Spec.denotes (FloatOps.mul (.inf s) y) = some (a * b)) ∧
    FloatOps.mul y (.inf s) = FloatOps.mul (.inf s) y := by
  rcases denotes_some hb with ⟨q, rfl, rfl⟩ | ⟨rfl, rfl⟩ | ⟨rfl, rfl⟩
  · rcases lt_trichotomy q 0 with h | rfl | h
    · have h' : (q : ℝ) < 0 := by exact_mod_cast h
      cases s <;> simp [FloatOps.mul, Fl.mul, Spec.denotes, h.ne, h, EReal.top_mul_coe_of_neg h', EReal.bot_mul_coe_of_neg h']
    · cases s <;> simp [FloatOps.mul, Fl.mul, Spec.denotes]
    · have h' : (0 : ℝ) < q := by exact_mod_cast h
      cases s <;> simp [FloatOps.mul, Fl.mul, Spec.denotes, h.ne', h.not_gt, EReal.top_mul_coe_of_pos h', EReal.bot_mul_coe_of_pos h']
  · cases s <;> simp [FloatOps.mul, Fl.mul, Spec.denotes]
  · cases s <;> simp [FloatOps.mul, Fl.mul, Spec.denotes]

/-- **C76**. Quotients with an infinity or by zero (`+0`). -/
theorem C76_div_special (s : Bool) (q : ℚ) :
    FloatOps.div (.fin q : Fl f) (.inf s) = .fin 0 ∧ (∀ t, FloatOps.div (.inf s : Fl f) (.inf t) = .nan) ∧
    FloatOps.div (.inf s : Fl f) (.fin q) = .inf (s != decide (q < 0)) ∧
    (FloatOps.div (.fin q : Fl f) (.fin 0) = if q = 0 then .nan else .inf (decide (q < 0))) := by
  refine ⟨rfl, fun t => rfl, rfl, ?_⟩
  simp [FloatOps.div, Fl.div]

/-- **C76**. Negation and absolute value are exact. -/
theorem C76_neg (x : Fl f) (a : EReal) (h : Spec.denotes x = some a) :
    Spec.denotes (FloatOps.neg x) = some (-a) ∧ Spec.denotes (FloatOps.abs x) = some (max a (-a)) := by
  rcases denotes_some h with ⟨q, rfl, rfl⟩ | ⟨rfl, rfl⟩ | ⟨rfl, rfl⟩
  · constructor
    · simp [FloatOps.neg, Fl.neg, Spec.denotes]
    · by_cases hq : q < 0
      · have h' : (q : ℝ) < 0 := by exact_mod_cast hq
        have : ((q : ℝ) : EReal) ≤ -((q : ℝ) : EReal) := by rw [← EReal.coe_neg, EReal.coe_le_coe_iff]; linarith
        simp [FloatOps.abs, Spec.denotes, hq, max_eq_right this]
      · have h' : 0 ≤ (q : ℝ) := by exact_mod_cast not_lt.1 hq
        have : -((q : ℝ) : EReal) ≤ ((q : ℝ) : EReal) := by rw [← EReal.coe_neg, EReal.coe_le_coe_iff]; linarith
        simp [FloatOps.abs, Spec.denotes, hq, max_eq_left this]
  · simp [FloatOps.neg, FloatOps.abs, Fl.neg, Spec.denotes]
  · simp [FloatOps.neg, FloatOps.abs, Fl.neg, Spec.denotes]

/-- **C76**. `max` and `min` ignore a NaN, and are exact. -/
theorem C76_maxmin (x y : Fl f) : FloatOps.max .nan x = x ∧ FloatOps.max x .nan = x ∧ FloatOps.min .nan x = x ∧ FloatOps.min x .nan = x ∧
    ∀ a b, Spec.denotes x = some a → Spec.denotes y = some b →
      Spec.denotes (FloatOps.max x y) = some (max a b) ∧ Spec.denotes (FloatOps.min x y) = some (min a b) := by
  refine ⟨?_, ?_, ?_, ?_, fun a b ha hb => ?_⟩
  · rcases x with _ | (_ | _) | p <;> rfl
  · rcases x with _ | (_ | _) | p <;> rfl
  · rcases x with _ | (_ | _) | p <;> rfl
  · rcases x with _ | (_ | _) | p <;> rfl
  have hx : x ≠ .nan := by rintro rfl; simp [Spec.denotes] at ha
  have hy : y ≠ .nan := by rintro rfl; simp [Spec.denotes] at hb
  have lt1 : Fl.lt x y = true ↔ a < b := by
    have := (C76_compare x y).1
    rw [ha, hb] at this
    simpa [FloatOps.lt] using this
  have lt2 : Fl.lt y x = true ↔ b < a := by
    have := (C76_compare y x).1
    rw [ha, hb] at this
    simpa [FloatOps.lt] using this
  have e1 : FloatOps.max x y = if Fl.lt x y then y else x := by
    rcases x with _ | (_ | _) | p <;> rcases y with _ | (_ | _) | q <;> first | (exact absurd rfl hx) | (exact absurd rfl hy) | rfl
  have e2 : FloatOps.min x y = if Fl.lt y x then y else x := by
    rcases x with _ | (_ | _) | p <;> rcases y with _ | (_ | _) | q <;> first | (exact absurd rfl hx) | (exact absurd rfl hy) | rfl
  rw [e1, e2]
  constructor
  · by_cases h : a < b
    · rw [if_pos (lt1.2 h), hb, max_eq_right h.le]
    · rw [if_neg (fun h' => h (lt1.1 h')), ha, max_eq_left (not_lt.1 h)]
  · by_cases h : b < a
    · rw [if_pos (lt2.2 h), hb, min_eq_right h.le]
    · rw [if_neg (fun h' => h (lt2.1 h')), ha, min_eq_left (not_lt.1 h)]

/-- **C76**. The cast to `usize` truncates and saturates; NaN gives zero. -/
theorem C76_usize (q : ℚ) (n : Nat) : FloatOps.toUsize (.nan : Fl f) = 0 ∧ FloatOps.toUsize (.inf true : Fl f) = 0 ∧
    FloatOps.toUsize (.inf false : Fl f) = 2 ^ 64 - 1 ∧
    (FloatOps.toUsize (.fin q : Fl f) = n ↔ (q < 1 ∧ n = 0) ∨ (2 ^ 64 ≤ q ∧ n = 2 ^ 64 - 1) ∨ ((n : ℚ) ≤ q ∧ q < n + 1 ∧ n < 2 ^ 64)) := by
  refine ⟨rfl, rfl, rfl, ?_⟩
  show Nat.min q.floor.toNat (2 ^ 64 - 1) = n ↔ _
  have hfl : q.floor = ⌊q⌋ := rfl
  rw [hfl]
  have h1 := Int.floor_le q
  have h2 := Int.lt_floor_add_one q
  rcases lt_or_ge q 1 with hq | hq
  · have h3 : ⌊q⌋ ≤ 0 := by
      have : ⌊q⌋ < 1 := Int.floor_lt.2 (by exact_mod_cast hq)
      omega
    rw [Int.toNat_of_nonpos h3]
    constructor
    · rintro rfl; exact .inl ⟨hq, by simp⟩
    · rintro (⟨-, rfl⟩ | ⟨h, -⟩ | ⟨h, -, -⟩)
      · simp
      · norm_num at h; linarith
      · have : (n : ℚ) < 1 := by linarith
        have : n < 1 := by exact_mod_cast this
        have : n = 0 := by omega
        subst this; simp
  · have h3 : 1 ≤ ⌊q⌋ := Int.le_floor.2 (by exact_mod_cast hq)
    obtain ⟨i, hi⟩ := Int.eq_ofNat_of_zero_le (show 0 ≤ ⌊q⌋ by omega)
    rw [hi] at h1 h2
    have h1 : (i : ℚ) ≤ q := by exact_mod_cast h1
    have h2 : q < i + 1 := by exact_mod_cast h2
    rw [hi, Int.toNat_natCast]
    have e : ∀ m : Nat, (m : ℚ) ≤ q ↔ m ≤ i := by
      intro m
      constructor
      · intro h
        have : (m : ℚ) < ((i + 1 : ℕ) : ℚ) := by push_cast; linarith
        have : m < i + 1 := by exact_mod_cast this
        omega
      · intro h
        have : (m : ℚ) ≤ i := by exact_mod_cast h
        linarith
    have e64 : (2 : ℚ) ^ 64 ≤ q ↔ 2 ^ 64 ≤ i := by rw [← e]; push_cast; rfl
    have elt : q < (n : ℚ) + 1 ↔ i < n + 1 := by
      rw [← not_le, ← not_le, ← e]; push_cast; rfl
    rw [e, e64, elt, show Nat.min i (2 ^ 64 - 1) = min i (2 ^ 64 - 1) from rfl, Nat.min_def]
    constructor
    · split
      · rintro rfl; right; right; omega
      · rintro rfl; right; left; exact ⟨by omega, rfl⟩
    · rintro (⟨h, -⟩ | ⟨h, rfl⟩ | ⟨h, h', h''⟩)
      · linarith
      · rw [if_neg (by omega)]
      · rw [if_pos (by omega)]; omega

end Special

section Symmetric
variable {f : Fmt} [Ok f]

omit [Ok f] in
theorem fl_mk_neg (q : ℚ) : mk f (-q) = Fl.neg (mk f q) := by
  have hb : 0 ≤ big f := big_nonneg f
  unfold mk
  simp only [rnd_neg]
  split_ifs <;> simp [Fl.neg] <;> linarith

omit [Ok f] in
/-- **C76**. Sums and products do not depend on the order of the operands, differences and quotients change their sign with the operands. -/
theorem C76_symmetric (a b : Fl f) :
    FloatOps.add a b = FloatOps.add b a ∧ FloatOps.mul a b = FloatOps.mul b a ∧
    FloatOps.sub a b = FloatOps.neg (FloatOps.sub b a) ∧
    FloatOps.mul (FloatOps.neg a) b = FloatOps.neg (FloatOps.mul a b) ∧
    FloatOps.div (FloatOps.neg a) b = FloatOps.neg (FloatOps.div a b) ∧
    FloatOps.add (FloatOps.neg a) (FloatOps.neg b) = FloatOps.neg (FloatOps.add a b) := by
  refine ⟨?_, ?_, ?_, ?_, ?_, ?_⟩
  · show Fl.add a b = Fl.add b a
    cases a <;> cases b <;> simp only [Fl.add, add_comm]
    rename_i s t
    cases s <;> cases t <;> rfl
  · show Fl.mul a b = Fl.mul b a
    cases a <;> cases b <;> simp only [Fl.mul, mul_comm]
    rename_i s t
    cases s <;> cases t <;> rfl
  · show Fl.sub a b = Fl.neg (Fl.sub b a)
    cases a <;> cases b <;> simp only [Fl.sub, Fl.neg, Bool.not_not]
    · rename_i s t
      cases s <;> cases t <;> rfl
    · rw [← neg_sub]
      exact fl_mk_neg _
  · show Fl.mul (Fl.neg a) b = Fl.neg (Fl.mul a b)
    cases a <;> cases b <;> simp only [Fl.mul, Fl.neg]
    · rename_i s t
      cases s <;> cases t <;> rfl
    · rename_i s q
      split_ifs
      · rfl
      · cases s <;> simp
    · rename_i q t
      rcases lt_trichotomy q 0 with h | h | h
      · simp [h, h.ne, not_lt.2 h.le]
      · simp [h]
      · simp [h, h.ne', not_lt.2 h.le]
    · rw [neg_mul]
      exact fl_mk_neg _
  · show Fl.div (Fl.neg a) b = Fl.neg (Fl.div a b)
    cases a <;> cases b <;> simp only [Fl.div, Fl.neg, neg_zero]
    · rename_i s q
      cases s <;> simp
    · rename_i q r
      by_cases hr : r = 0
      · rcases lt_trichotomy q 0 with h | h | h
        · simp [hr, h, h.ne, not_lt.2 h.le]
        · simp [hr, h]
        · simp [hr, h, h.ne', not_lt.2 h.le]
      · simp only [hr, if_false]
        rw [neg_div]
        exact fl_mk_neg _
  · show Fl.add (Fl.neg a) (Fl.neg b) = Fl.neg (Fl.add a b)
    cases a <;> cases b <;> simp only [Fl.add, Fl.neg]
    · rename_i s t
      cases s <;> cases t <;> rfl
    · rw [← neg_add]
      exact fl_mk_neg _

theorem fl_mk_le {a b : ℚ} (h : a ≤ b) : FloatOps.le (mk f a) (mk f b) = true := by
  have hb : 0 ≤ big f := big_nonneg f
  have h1 := rnd_mono f (by have := Ok.prec (f := f); omega) h
  show Fl.le _ _ = true
  unfold mk
  simp only
  split_ifs <;> simp [Fl.le] <;> linarith

/-- **C76**. The operations on numbers are monotone. -/
theorem C76_monotone {a b : ℚ} (c : ℚ) (h : a ≤ b) :
    FloatOps.le (FloatOps.add (.fin a) (.fin c) : Fl f) (FloatOps.add (.fin b) (.fin c)) = true ∧
    FloatOps.le (FloatOps.sub (.fin a) (.fin c) : Fl f) (FloatOps.sub (.fin b) (.fin c)) = true ∧
    FloatOps.le (FloatOps.sub (.fin c) (.fin b) : Fl f) (FloatOps.sub (.fin c) (.fin a)) = true ∧
    (0 ≤ c → FloatOps.le (FloatOps.mul (.fin a) (.fin c) : Fl f) (FloatOps.mul (.fin b) (.fin c)) = true) ∧
    (0 < c → FloatOps.le (FloatOps.div (.fin a) (.fin c) : Fl f) (FloatOps.div (.fin b) (.fin c)) = true) := by
  refine ⟨fl_mk_le (by linarith), fl_mk_le (by linarith), fl_mk_le (by linarith),
    fun hc => fl_mk_le (mul_le_mul_of_nonneg_right h hc), fun hc => ?_⟩
  show FloatOps.le (Fl.div _ _) (Fl.div _ _) = true
  simp only [Fl.div, hc.ne', if_false]
  exact fl_mk_le (div_le_div_of_nonneg_right h hc.le)
end Symmetric

section Formats

/-- The least positive number of a format. -/
theorem number_least {f : Fmt} {s : ℚ} (hs : f.Number s) (h0 : 0 < s) : (2 : ℚ) ^ (-(f.qmin : ℤ)) ≤ s := by
  obtain ⟨m, e, rfl, -, he, -⟩ := hs
  have h2 : (0 : ℚ) < 2 ^ e := by positivity
  have hm : 0 < m := by
    have := (pos_iff_pos_of_mul_pos h0).2 h2
    exact_mod_cast this
  have hm1 : (1 : ℚ) ≤ m := by exact_mod_cast hm
  calc (2 : ℚ) ^ (-(f.qmin : ℤ)) ≤ 2 ^ e := zpow_le_zpow_right₀ (by norm_num) he
    _ ≤ m * 2 ^ e := le_mul_of_one_le_left h2.le hm1

/-- **C76**. The constants of `f64` and `f32`: `EPSILON`, `MAX` and the least positive number. -/
theorem C76_formats :
    ((FloatOps.eps : F64) = .fin (1 / 2 ^ 52) ∧ (FloatOps.fmax : F64) = .fin ((2 - 1 / 2 ^ 52) * 2 ^ 1023) ∧
      binary64.Number (1 / 2 ^ 1074) ∧ ∀ s, binary64.Number s → 0 < s → 1 / 2 ^ 1074 ≤ s) ∧
    ((FloatOps.eps : F32) = .fin (1 / 2 ^ 23) ∧ (FloatOps.fmax : F32) = .fin ((2 - 1 / 2 ^ 23) * 2 ^ 127) ∧
      binary32.Number (1 / 2 ^ 149) ∧ ∀ s, binary32.Number s → 0 < s → 1 / 2 ^ 149 ≤ s) := by
  refine ⟨⟨?_, ?_, ⟨1, -1074, ?_, by norm_num [binary64], by norm_num [binary64], by norm_num [binary64]⟩, fun s hs h0 => ?_⟩,
    ?_, ?_, ⟨1, -149, ?_, by norm_num [binary32], by norm_num [binary32], by norm_num [binary32]⟩, fun s hs h0 => ?_⟩
  · show Fl.fin _ = Fl.fin _
    congr 1
    norm_num [binary64, Rat.mkRat_eq_div]
  · show Fl.fin _ = Fl.fin _
    decide +kernel
  · norm_num
  · have := number_least hs h0
    norm_num [binary64] at this ⊢
    exact this
  · show Fl.fin _ = Fl.fin _
    congr 1
    norm_num [binary32, Rat.mkRat_eq_div]
  · show Fl.fin _ = Fl.fin _
    decide +kernel
  · norm_num
  · have := number_least hs h0
    norm_num [binary32] at this ⊢
    exact this

end Formats

section Example

/-- Concrete cases in `f64`: a tie that is rounded down, one that is rounded up, overflow and a square root. -/
example : FloatOps.add (.fin (2 ^ 53) : F64) (.fin 1) = .fin (2 ^ 53) ∧ FloatOps.add (.fin (2 ^ 53 + 2) : F64) (.fin 1) = .fin (2 ^ 53 + 4) ∧
    FloatOps.mul (.fin (2 ^ 1000) : F64) (.fin (2 ^ 24)) = .inf false ∧ FloatOps.sqrt (.fin (9 / 4) : F64) = .fin (3 / 2) := by decide +kernel

/-- Half a unit in the last place is lost whichever operand comes first, and with either sign. -/
example : FloatOps.add (.fin 1 : F64) (.fin (2 ^ 53)) = .fin (2 ^ 53) ∧ FloatOps.sub (.fin (-1) : F64) (.fin (2 ^ 53)) = .fin (-2 ^ 53) := by
  decide +kernel

/-- What `C76_add` says about the first of them. -/
example : binary64.Even (2 ^ 53) := by
  have h := (C76_add (f := binary64) (2 ^ 53) 1 (.fin (2 ^ 53))).1 (by decide +kernel)
  refine h.2.2.2 (2 ^ 53 + 2) ⟨2 ^ 52 + 1, 1, by norm_num, by norm_num [binary64], by norm_num [binary64], by norm_num [binary64]⟩ (by norm_num) ?_
  norm_num

end Example

end CDT

import Verif.Model.SoftFloat
import Mathlib.Tactic.Linarith
import Mathlib.Tactic.Ring
import Mathlib.Tactic.FieldSimp
import Mathlib.Tactic.Positivity
import Mathlib.Algebra.Order.Field.Power

/-!
# Rounding of the IEEE model

`Fl.rnd` is correct rounding: relative error at most `2^-prec` or absolute error at most half of the least positive number,
exact on the numbers of the format.
-/

namespace CDT
namespace Fl

theorem rndNat_err (n : Nat) {d : Nat} (hd : 0 < d) : |((rndNat n d : Nat) : ℚ) - n / d| ≤ 1 / 2 := by
  have hd' : (0 : ℚ) < d := by exact_mod_cast hd
  have hdiv : (n : ℚ) = d * (n / d : Nat) + (n % d : Nat) := by exact_mod_cast (Nat.div_add_mod n d).symm
  have hr : (n % d : Nat) < d := Nat.mod_lt _ hd
  have hr' : ((n % d : Nat) : ℚ) < d := by exact_mod_cast hr
  have hr0 : (0 : ℚ) ≤ ((n % d : Nat) : ℚ) := by positivity
  have key : (n : ℚ) / d = (n / d : Nat) + ((n % d : Nat) : ℚ) / d := by
    conv_lhs => rw [hdiv]
    field_simp
  rw [key]
  unfold rndNat
  simp only
  have lo : (0 : ℚ) ≤ ((n % d : Nat) : ℚ) / d := by positivity
  split
  · rename_i h
    have h' : (2 : ℚ) * ((n % d : Nat) : ℚ) < d := by exact_mod_cast h
    have : ((n % d : Nat) : ℚ) / d ≤ 1 / 2 := by rw [div_le_div_iff₀ hd' (by norm_num)]; linarith
    rw [abs_le]; constructor <;> linarith
  · rename_i h
    have h' : (d : ℚ) ≤ 2 * ((n % d : Nat) : ℚ) := by exact_mod_cast not_lt.1 h
    have h1 : 1 / 2 ≤ ((n % d : Nat) : ℚ) / d := by rw [div_le_div_iff₀ (by norm_num) hd']; linarith
    have h2 : ((n % d : Nat) : ℚ) / d ≤ 1 := by rw [div_le_one hd']; linarith
    split
    · push_cast; rw [abs_le]; constructor <;> linarith
    · rename_i h3
      have h3' : (2 : ℚ) * ((n % d : Nat) : ℚ) ≤ d := by exact_mod_cast not_lt.1 h3
      have h4 : ((n % d : Nat) : ℚ) / d ≤ 1 / 2 := by rw [div_le_div_iff₀ hd' (by norm_num)]; linarith
      split
      · rw [abs_le]; constructor <;> linarith
      · push_cast; rw [abs_le]; constructor <;> linarith

theorem rndNat_exact {n d k : Nat} (hd : 0 < d) (h : (n : ℚ) / d = k) : rndNat n d = k := by
  have hd' : (d : ℚ) ≠ 0 := by positivity
  have h1 : n = k * d := by
    rw [div_eq_iff hd'] at h; exact_mod_cast h
  subst h1
  unfold rndNat
  simp only [Nat.mul_mod_left, Nat.mul_div_cancel _ hd]
  rw [if_pos (by omega)]

theorem ilog2_spec {n d : Nat} (hn : 0 < n) (hd : 0 < d) :
    (2 : ℚ) ^ ilog2 n d ≤ n / d ∧ (n / d : ℚ) < 2 ^ (ilog2 n d + 1) := by
  have hd' : (0 : ℚ) < d := by exact_mod_cast hd
  have a1 : (2 : ℚ) ^ Nat.log2 n ≤ n := by exact_mod_cast Nat.log2_self_le (by omega)
  have a2 : (n : ℚ) < 2 ^ (Nat.log2 n + 1) := by exact_mod_cast Nat.lt_log2_self
  have b1 : (2 : ℚ) ^ Nat.log2 d ≤ d := by exact_mod_cast Nat.log2_self_le (by omega)
  have b2 : (d : ℚ) < 2 ^ (Nat.log2 d + 1) := by exact_mod_cast Nat.lt_log2_self
  unfold ilog2
  simp only
  generalize Nat.log2 n = a at *
  generalize Nat.log2 d = b at *
  have pa : (0 : ℚ) < 2 ^ a := by positivity
  have pb : (0 : ℚ) < 2 ^ b := by positivity
  have e0 : (2 : ℚ) ^ ((a : ℤ) - b) = 2 ^ a / 2 ^ b := by
    rw [zpow_sub₀ (by norm_num), zpow_natCast, zpow_natCast]
  have e1 : (2 : ℚ) ^ ((a : ℤ) - b + 1) = 2 * (2 ^ a / 2 ^ b) := by
    rw [zpow_add₀ (by norm_num), e0]; ring
  have e2 : (2 : ℚ) ^ ((a : ℤ) - b - 1) = 2 ^ a / 2 ^ b / 2 := by
    rw [zpow_sub₀ (by norm_num), e0]; norm_num
  split
  · rename_i h
    have h' : (2 : ℚ) ^ a * d ≤ n * 2 ^ b := by exact_mod_cast h
    rw [e0, e1]
    constructor
    · rw [div_le_div_iff₀ pb hd']; linarith
    · rw [mul_div_assoc', div_lt_div_iff₀ hd' pb]
      rw [pow_succ] at a2
      calc (n : ℚ) * 2 ^ b < (2 ^ a * 2) * 2 ^ b := by gcongr
        _ ≤ (2 ^ a * 2) * d := by gcongr
        _ = 2 * 2 ^ a * d := by ring
  · rename_i h
    have h' : (n : ℚ) * 2 ^ b < (2 : ℚ) ^ a * d := by exact_mod_cast not_le.1 h
    rw [show (a : ℤ) - b - 1 + 1 = a - b by ring, e0, e2]
    constructor
    · rw [div_div, div_le_div_iff₀ (by positivity) hd']
      rw [pow_succ] at b2
      calc (2 : ℚ) ^ a * d ≤ n * d := by gcongr
        _ ≤ n * (2 ^ b * 2) := by gcongr
    · rw [div_lt_div_iff₀ hd' pb]; exact h'

/-- Shape of the rounding of a positive rational: a multiple `m` of `2^k`. -/
theorem rndPos_spec (f : Fmt) {n d : Nat} (hn : 0 < n) (hd : 0 < d) :
    ∃ (k : ℤ) (m : Nat), k = ulpExp f n d ∧ rndPos f n d = m * (2 : ℚ) ^ k ∧ |(m : ℚ) - n / d * 2 ^ (-k)| ≤ 1 / 2 ∧
      ∀ i : Nat, (n / d : ℚ) * 2 ^ (-k) = i → m = i := by
  have hd' : (0 : ℚ) < d := by exact_mod_cast hd
  unfold rndPos
  cases hk : ulpExp f n d with
  | ofNat i =>
    have hpd : 0 < d * 2 ^ i := by positivity
    have hval : (n : ℚ) / ((d * 2 ^ i : Nat) : ℚ) = (n / d : ℚ) * 2 ^ (-(Int.ofNat i)) := by
      rw [zpow_neg, Int.ofNat_eq_natCast, zpow_natCast]; push_cast; field_simp
    refine ⟨Int.ofNat i, rndNat n (d * 2 ^ i), rfl, ?_, ?_, ?_⟩
    · simp only [Int.ofNat_eq_natCast, zpow_natCast]; push_cast; rfl
    · rw [← hval]; exact rndNat_err _ hpd
    · intro j hj
      rw [← hval] at hj
      exact rndNat_exact hpd hj
  | negSucc i =>
    have hval : ((n * 2 ^ (i + 1) : Nat) : ℚ) / d = (n / d : ℚ) * 2 ^ (-(Int.negSucc i)) := by
      rw [Int.neg_negSucc, zpow_natCast]; push_cast; ring
    refine ⟨Int.negSucc i, rndNat (n * 2 ^ (i + 1)) d, rfl, ?_, ?_, ?_⟩
    · simp only [Rat.mkRat_eq_div, zpow_negSucc]; push_cast; rw [div_eq_mul_inv]
    · rw [← hval]; exact rndNat_err _ hd
    · intro j hj
      rw [← hval] at hj
      exact rndNat_exact hd hj

theorem rnd_zero (f : Fmt) : rnd f 0 = 0 := rfl

theorem rnd_pos (f : Fmt) {q : ℚ} (hq : 0 < q) : rnd f q = rndPos f q.num.toNat q.den := by
  have h : 0 < q.num := Rat.num_pos.2 hq
  unfold rnd
  match hn : q.num with
  | .ofNat 0 => rw [hn] at h; exact absurd h (by decide)
  | .ofNat (n + 1) => rfl
  | .negSucc n => rw [hn] at h; exact absurd h (by simp)

theorem rnd_neg (f : Fmt) (q : ℚ) : rnd f (-q) = -rnd f q := by
  unfold rnd
  rw [Rat.neg_num, Rat.neg_den]
  match q.num with
  | .ofNat 0 => exact (neg_zero (G := ℚ)).symm
  | .ofNat (n + 1) => rfl
  | .negSucc n =>
    show rndPos f (n + 1) q.den = _
    simp

/-- Shape of the rounding of a positive number: `m * 2^k`, where `2^k` is the spacing of the numbers of the format around it:
normal (`2^(prec-1) ≤ m`) or subnormal (`k = -qmin`). -/
theorem rnd_spec (f : Fmt) {q : ℚ} (hq : 0 < q) :
    ∃ (k : ℤ) (m : Nat), rnd f q = m * (2 : ℚ) ^ k ∧ -(f.qmin : ℤ) ≤ k ∧ q * 2 ^ (-k) < 2 ^ f.prec ∧
      (k = -(f.qmin : ℤ) ∨ (2 : ℚ) ^ f.prec ≤ 2 * (q * 2 ^ (-k))) ∧
      |(m : ℚ) - q * 2 ^ (-k)| ≤ 1 / 2 ∧ ∀ i : Nat, q * 2 ^ (-k) = i → m = i := by
  have h : 0 < q.num := Rat.num_pos.2 hq
  have e : ((q.num.toNat : Nat) : ℚ) / (q.den : ℚ) = q := by
    have : ((q.num.toNat : Nat) : ℤ) = q.num := Int.toNat_of_nonneg h.le
    have : ((q.num.toNat : Nat) : ℚ) = (q.num : ℚ) := by exact_mod_cast this
    rw [this, Rat.num_div_den]
  obtain ⟨k, m, hk, h1, h2, h3⟩ := rndPos_spec f (n := q.num.toNat) (d := q.den) (by omega) q.den_pos
  obtain ⟨l1, l2⟩ := ilog2_spec (n := q.num.toNat) (d := q.den) (by omega) q.den_pos
  rw [e] at h2 h3 l1 l2
  rw [rnd_pos f hq]
  refine ⟨k, m, h1, by rw [hk]; exact le_max_right _ _, ?_, ?_, h2, h3⟩
  · have hp : (0 : ℚ) < 2 ^ (-k) := by positivity
    have hle : ilog2 q.num.toNat q.den + 1 + -k ≤ (f.prec : ℤ) := by
      have : ilog2 q.num.toNat q.den + 1 - f.prec ≤ k := by rw [hk]; exact le_max_left _ _
      omega
    calc q * 2 ^ (-k) < 2 ^ (ilog2 q.num.toNat q.den + 1) * 2 ^ (-k) := by gcongr
      _ = 2 ^ (ilog2 q.num.toNat q.den + 1 + -k) := by rw [← zpow_add₀ (by norm_num)]
      _ ≤ 2 ^ (f.prec : ℤ) := zpow_le_zpow_right₀ (by norm_num) hle
      _ = 2 ^ f.prec := zpow_natCast _ _
  · unfold ulpExp at hk
    rcases max_choice (ilog2 q.num.toNat q.den + 1 - f.prec) (-(f.qmin : ℤ)) with h' | h'
    · right
      rw [h'] at hk
      have hp : (0 : ℚ) < 2 ^ (-k) := by positivity
      calc (2 : ℚ) ^ f.prec = 2 ^ (f.prec : ℤ) := (zpow_natCast _ _).symm
        _ = 2 ^ (1 + (ilog2 q.num.toNat q.den + -k)) := by congr 1; omega
        _ = 2 * (2 ^ ilog2 q.num.toNat q.den * 2 ^ (-k)) := by
          rw [zpow_add₀ (by norm_num), zpow_add₀ (by norm_num)]; norm_num
        _ ≤ 2 * (q * 2 ^ (-k)) := by gcongr
    · left; rw [hk, h']

theorem mul_zpow_cancel (q : ℚ) (k : ℤ) : q * 2 ^ (-k) * 2 ^ k = q := by
  rw [mul_assoc, ← zpow_add₀ (by norm_num)]; simp

/-- Reduce a statement about `|rnd q - q|` to positive `q`. -/
theorem rnd_err_of_pos (f : Fmt) (E : ℚ → ℚ) (hE : 0 ≤ E 0) (h : ∀ q : ℚ, 0 < q → |rnd f q - q| ≤ E |q|) (q : ℚ) :
    |rnd f q - q| ≤ E |q| := by
  rcases lt_trichotomy q 0 with h' | h' | h'
  · have := h (-q) (by linarith)
    rw [rnd_neg, abs_neg] at this
    have e : -rnd f q - -q = -(rnd f q - q) := by ring
    rwa [e, abs_neg] at this
  · subst h'; simpa [rnd_zero] using hE
  · exact h q h'

theorem rnd_err (f : Fmt) (q : ℚ) : |rnd f q - q| ≤ 1 / 2 ^ f.prec * |q| + 1 / 2 * 2 ^ (-(f.qmin : ℤ)) := by
  refine rnd_err_of_pos f (fun x => 1 / 2 ^ f.prec * x + 1 / 2 * 2 ^ (-(f.qmin : ℤ))) (by positivity) ?_ q
  intro q hq
  obtain ⟨k, m, h1, hk, _, hc, h4, _⟩ := rnd_spec f hq
  have hp : (0 : ℚ) < 2 ^ k := by positivity
  have e : rnd f q - q = (m - q * 2 ^ (-k)) * 2 ^ k := by
    rw [h1, sub_mul, mul_zpow_cancel]
  rw [e, abs_mul, abs_of_pos hp, abs_of_pos hq]
  have h5 : |(m : ℚ) - q * 2 ^ (-k)| * 2 ^ k ≤ 1 / 2 * 2 ^ k := by gcongr
  have h6 : 0 ≤ 1 / 2 ^ f.prec * q := by positivity
  have h7 : (0 : ℚ) ≤ 1 / 2 * 2 ^ (-(f.qmin : ℤ)) := by positivity
  rcases hc with hc | hc
  · rw [hc] at h5 ⊢; linarith
  · have h8 : 1 / 2 * (2 : ℚ) ^ k ≤ 1 / 2 ^ f.prec * q := by
      calc 1 / 2 * (2 : ℚ) ^ k = 1 / 2 ^ f.prec * (2 ^ f.prec * (1 / 2) * 2 ^ k) := by field_simp
        _ ≤ 1 / 2 ^ f.prec * (2 * (q * 2 ^ (-k)) * (1 / 2) * 2 ^ k) := by gcongr
        _ = 1 / 2 ^ f.prec * (q * 2 ^ (-k) * 2 ^ k) := by ring
        _ = 1 / 2 ^ f.prec * q := by rw [mul_zpow_cancel]
    linarith

theorem rnd_nonneg (f : Fmt) {q : ℚ} (h : 0 ≤ q) : 0 ≤ rnd f q := by
  rcases h.lt_or_eq with h | h
  · obtain ⟨k, m, h1, _⟩ := rnd_spec f h
    rw [h1]; positivity
  · rw [← h, rnd_zero]

/-- Numbers of the format are not changed. -/
theorem rnd_dyadic_pos (f : Fmt) {m : Nat} {k : ℤ} (h0 : 0 < m) (h : m < 2 ^ f.prec) (hk : -(f.qmin : ℤ) ≤ k) :
    rnd f (m * (2 : ℚ) ^ k) = m * (2 : ℚ) ^ k := by
  have hq : (0 : ℚ) < m * (2 : ℚ) ^ k := by positivity
  obtain ⟨j, m', h1, hj, h3, hc, _, h5⟩ := rnd_spec f hq
  have e : (m : ℚ) * 2 ^ k * 2 ^ (-j) = m * 2 ^ (k - j) := by
    rw [mul_assoc, ← zpow_add₀ (by norm_num)]; rfl
  rw [e] at h3 h5 hc
  have hjk : j ≤ k := by
    rcases hc with hc | hc
    · omega
    · by_contra hlt
      push Not at hlt
      have h6 : (2 : ℚ) ^ (k - j) ≤ 2 ^ (-1 : ℤ) := zpow_le_zpow_right₀ (by norm_num) (by omega)
      have h7 : (m : ℚ) < 2 ^ f.prec := by exact_mod_cast h
      have : (m : ℚ) * 2 ^ (k - j) < 2 ^ f.prec * 2 ^ (-1 : ℤ) := by
        calc (m : ℚ) * 2 ^ (k - j) ≤ m * 2 ^ (-1 : ℤ) := by gcongr
          _ < 2 ^ f.prec * 2 ^ (-1 : ℤ) := by gcongr
      norm_num at this
      linarith
  obtain ⟨i, hi⟩ := Int.eq_ofNat_of_zero_le (sub_nonneg.2 hjk)
  have h6 := h5 (m * 2 ^ i) (by rw [hi]; push_cast; rw [zpow_natCast])
  rw [h1, h6]
  push_cast
  have : (2 : ℚ) ^ i = 2 ^ (k - j) := by rw [hi, zpow_natCast]
  rw [this, mul_assoc, ← zpow_add₀ (by norm_num)]
  simp

theorem rnd_dyadic (f : Fmt) (hf : 1 ≤ f.prec) {m : Nat} {k : ℤ} (h : m ≤ 2 ^ f.prec) (hk : -(f.qmin : ℤ) ≤ k) :
    rnd f (m * (2 : ℚ) ^ k) = m * (2 : ℚ) ^ k := by
  rcases Nat.eq_zero_or_pos m with rfl | h0
  · simp [rnd_zero]
  rcases h.lt_or_eq with h | h
  · exact rnd_dyadic_pos f h0 h hk
  · have e' : 2 ^ f.prec = 2 ^ (f.prec - 1) * 2 := by rw [← pow_succ, Nat.sub_add_cancel hf]
    have := rnd_dyadic_pos f (m := 2 ^ (f.prec - 1)) (k := k + 1) (by positivity)
      (by rw [e']; have : 0 < 2 ^ (f.prec - 1) := by positivity
          omega) (by omega)
    have e : ((2 ^ (f.prec - 1) : Nat) : ℚ) * 2 ^ (k + 1) = m * 2 ^ k := by
      rw [h, e', zpow_add₀ (by norm_num)]; push_cast; ring
    rwa [e] at this

theorem rnd_dyadic_int (f : Fmt) (hf : 1 ≤ f.prec) {m : ℤ} {k : ℤ} (h : |m| ≤ 2 ^ f.prec) (hk : -(f.qmin : ℤ) ≤ k) :
    rnd f (m * (2 : ℚ) ^ k) = m * (2 : ℚ) ^ k := by
  rcases le_total 0 m with h0 | h0
  · obtain ⟨i, rfl⟩ := Int.eq_ofNat_of_zero_le h0
    rw [abs_of_nonneg h0] at h
    exact_mod_cast rnd_dyadic f hf (m := i) (k := k) (by exact_mod_cast h) hk
  · obtain ⟨i, hi⟩ := Int.eq_ofNat_of_zero_le (neg_nonneg.2 h0)
    rw [abs_of_nonpos h0, hi] at h
    have := rnd_dyadic f hf (m := i) (k := k) (by exact_mod_cast h) hk
    have e : (m : ℚ) * 2 ^ k = -((i : ℚ) * 2 ^ k) := by
      have : (m : ℚ) = -(i : ℚ) := by
        have : m = -(i : ℤ) := by omega
        rw [this]; push_cast; ring
      rw [this]; ring
    rw [e, rnd_neg, this]

theorem rnd_spec_le {f : Fmt} {q : ℚ} {k : ℤ} {m : Nat} (h3 : q * 2 ^ (-k) < 2 ^ f.prec)
    (h4 : |(m : ℚ) - q * 2 ^ (-k)| ≤ 1 / 2) : m ≤ 2 ^ f.prec := by
  by_contra hc
  push Not at hc
  have : (2 ^ f.prec + 1 : ℚ) ≤ m := by exact_mod_cast hc
  have := abs_le.1 h4
  linarith

theorem rnd_idem (f : Fmt) (hf : 1 ≤ f.prec) (q : ℚ) : rnd f (rnd f q) = rnd f q := by
  have pos : ∀ q : ℚ, 0 < q → rnd f (rnd f q) = rnd f q := by
    intro q hq
    obtain ⟨k, m, h1, hk, h3, _, h4, _⟩ := rnd_spec f hq
    rw [h1]
    exact rnd_dyadic f hf (rnd_spec_le h3 h4) hk
  rcases lt_trichotomy q 0 with h | h | h
  · have := pos (-q) (by linarith)
    rw [rnd_neg, rnd_neg] at this
    linarith
  · subst h; simp [rnd_zero]
  · exact pos q h

/-- The numbers of the format are multiples of the least positive one. -/
theorem rnd_multiple (f : Fmt) (q : ℚ) : ∃ z : ℤ, rnd f q = z * (2 : ℚ) ^ (-(f.qmin : ℤ)) := by
  have pos : ∀ q : ℚ, 0 < q → ∃ z : ℤ, rnd f q = z * (2 : ℚ) ^ (-(f.qmin : ℤ)) := by
    intro q hq
    obtain ⟨k, m, h1, hk, _⟩ := rnd_spec f hq
    obtain ⟨i, hi⟩ := Int.eq_ofNat_of_zero_le (by omega : 0 ≤ k + f.qmin)
    refine ⟨m * 2 ^ i, ?_⟩
    rw [h1]
    push_cast
    have : (2 : ℚ) ^ i = 2 ^ (k + f.qmin) := by rw [hi, zpow_natCast]
    rw [this, mul_assoc, ← zpow_add₀ (by norm_num)]
    congr 2; ring
  rcases lt_trichotomy q 0 with h | h | h
  · obtain ⟨z, hz⟩ := pos (-q) (by linarith)
    refine ⟨-z, ?_⟩
    rw [rnd_neg] at hz
    push_cast
    linarith
  · exact ⟨0, by subst h; simp [rnd_zero]⟩
  · exact pos q h

/-- The rounding of a multiple of the least positive number has a small relative error: there is no underflow. -/
theorem rnd_err_multiple (f : Fmt) (z : ℤ) :
    |rnd f (z * (2 : ℚ) ^ (-(f.qmin : ℤ))) - z * (2 : ℚ) ^ (-(f.qmin : ℤ))| ≤
      1 / 2 ^ f.prec * |z * (2 : ℚ) ^ (-(f.qmin : ℤ))| := by
  have pos : ∀ n : ℕ, |rnd f (n * (2 : ℚ) ^ (-(f.qmin : ℤ))) - n * (2 : ℚ) ^ (-(f.qmin : ℤ))| ≤
      1 / 2 ^ f.prec * |n * (2 : ℚ) ^ (-(f.qmin : ℤ))| := by
    intro n
    rcases Nat.eq_zero_or_pos n with rfl | hn
    · simp [rnd_zero]
    have hq : (0 : ℚ) < n * (2 : ℚ) ^ (-(f.qmin : ℤ)) := by positivity
    obtain ⟨k, m, h1, hk, _, hc, h4, h5⟩ := rnd_spec f hq
    rcases hc with hc | hc
    · subst hc
      have := h5 n (by rw [neg_neg, mul_assoc, ← zpow_add₀ (by norm_num)]; simp)
      rw [h1, this]; simp
    · have hp : (0 : ℚ) < 2 ^ k := by positivity
      generalize (n : ℚ) * 2 ^ (-(f.qmin : ℤ)) = q at *
      have e : rnd f q - q = (m - q * 2 ^ (-k)) * 2 ^ k := by
        rw [h1, sub_mul, mul_zpow_cancel]
      rw [e, abs_mul, abs_of_pos hp, abs_of_pos hq]
      calc |(m : ℚ) - q * 2 ^ (-k)| * 2 ^ k ≤ 1 / 2 * 2 ^ k := by gcongr
        _ = 1 / 2 ^ f.prec * (2 ^ f.prec * (1 / 2) * 2 ^ k) := by field_simp
        _ ≤ 1 / 2 ^ f.prec * (2 * (q * 2 ^ (-k)) * (1 / 2) * 2 ^ k) := by gcongr
        _ = 1 / 2 ^ f.prec * (q * 2 ^ (-k) * 2 ^ k) := by ring
        _ = 1 / 2 ^ f.prec * q := by rw [mul_zpow_cancel]
  rcases le_total 0 z with h0 | h0
  · obtain ⟨i, rfl⟩ := Int.eq_ofNat_of_zero_le h0
    exact_mod_cast pos i
  · obtain ⟨i, hi⟩ := Int.eq_ofNat_of_zero_le (neg_nonneg.2 h0)
    have := pos i
    have e : (z : ℚ) * 2 ^ (-(f.qmin : ℤ)) = -((i : ℚ) * 2 ^ (-(f.qmin : ℤ))) := by
      have : (z : ℚ) = -(i : ℚ) := by
        have : z = -(i : ℤ) := by omega
        rw [this]; push_cast; ring
      rw [this]; ring
    rw [e, rnd_neg, abs_neg, ← neg_sub', abs_neg]
    exact this

/-- Conditions on a format met by `binary32` and `binary64`. -/
class Ok (f : Fmt) : Prop where
  prec : 17 ≤ f.prec
  prec_emax : f.prec ≤ f.emax + 1
  emax : 64 ≤ f.emax
  qmin : f.prec + 7 ≤ f.qmin
  qmin' : 75 ≤ f.qmin

instance ok64 : Ok binary64 := ⟨by decide, by decide, by decide, by decide, by decide⟩
instance ok32 : Ok binary32 := ⟨by decide, by decide, by decide, by decide, by decide⟩

theorem big_eq (f : Fmt) : big f = ((2 ^ f.prec - 1 : ℕ) : ℚ) * 2 ^ (f.emax + 1 - f.prec) := by
  unfold big; push_cast; rfl

theorem big_ge (f : Fmt) [Ok f] : (2 : ℚ) ^ f.emax ≤ big f := by
  have h1 := Ok.prec (f := f)
  have h2 := Ok.prec_emax (f := f)
  rw [big_eq]
  have e : (2 : ℚ) ^ f.emax = 2 ^ (f.prec - 1) * 2 ^ (f.emax + 1 - f.prec) := by
    rw [← pow_add]; congr 1; omega
  rw [e]
  gcongr
  have : 2 ^ f.prec = 2 * 2 ^ (f.prec - 1) := by rw [← pow_succ']; congr 1; omega
  have h3 : 1 ≤ 2 ^ (f.prec - 1) := Nat.one_le_two_pow
  have h4 : 2 ^ (f.prec - 1) ≤ 2 ^ f.prec - 1 := by omega
  exact_mod_cast h4

theorem rnd_big (f : Fmt) [Ok f] : rnd f (big f) = big f := by
  have h1 := Ok.prec (f := f)
  rw [big_eq]
  have := rnd_dyadic f (by omega) (m := 2 ^ f.prec - 1) (k := ((f.emax + 1 - f.prec : ℕ) : ℤ)) (Nat.sub_le _ _) (by omega)
  rwa [zpow_natCast] at this

/-- Rounding does not overflow below the largest number. -/
theorem rnd_le_big (f : Fmt) [Ok f] {q : ℚ} (h : |q| ≤ big f) : |rnd f q| ≤ big f := by
  have hp1 := Ok.prec (f := f)
  have hp2 := Ok.prec_emax (f := f)
  have pos : ∀ q : ℚ, 0 < q → q ≤ big f → rnd f q ≤ big f := by
    intro q hq hqb
    obtain ⟨k, m, h1, hk, h3, hc, h4, h5⟩ := rnd_spec f hq
    have hm := rnd_spec_le h3 h4
    have hpk : (0 : ℚ) < 2 ^ k := by positivity
    rcases lt_or_ge k (f.emax + 1 - f.prec : ℤ) with hlt | hge
    · calc rnd f q = m * (2 : ℚ) ^ k := h1
        _ ≤ ((2 ^ f.prec : ℕ) : ℚ) * 2 ^ k := by gcongr
        _ = 2 ^ ((f.prec : ℤ) + k) := by rw [zpow_add₀ (by norm_num)]; push_cast; rw [zpow_natCast]
        _ ≤ 2 ^ (f.emax : ℤ) := zpow_le_zpow_right₀ (by norm_num) (by omega)
        _ = 2 ^ f.emax := zpow_natCast _ _
        _ ≤ big f := big_ge f
    · -- `q` is at most `2^prec - 1` units
      have hu : q * 2 ^ (-k) ≤ ((2 ^ f.prec - 1 : ℕ) : ℚ) := by
        rw [zpow_neg, ← div_eq_mul_inv, div_le_iff₀ hpk]
        refine hqb.trans ?_
        rw [big_eq]
        gcongr
        rw [← zpow_natCast]
        exact zpow_le_zpow_right₀ (by norm_num) (by omega)
      have hm' : m ≤ 2 ^ f.prec - 1 := by
        by_contra hcon
        have hge' : 2 ^ f.prec - 1 + 1 ≤ m := by omega
        have : ((2 ^ f.prec - 1 : ℕ) : ℚ) + 1 ≤ m := by exact_mod_cast hge'
        have := abs_le.1 h4
        linarith
      have hk' : k = (f.emax + 1 - f.prec : ℤ) := by
        rcases hge.lt_or_eq with hgt | he
        · exfalso
          rcases hc with hc | hc
          · omega
          · have h6 : (2 : ℚ) ^ (f.prec - 1) ≤ q * 2 ^ (-k) := by
              have : (2 : ℚ) ^ f.prec = 2 * 2 ^ (f.prec - 1) := by rw [← pow_succ']; congr 1; omega
              linarith
            have h7 : (2 : ℚ) ^ (f.prec - 1) * 2 ^ k ≤ q := by
              rw [zpow_neg, ← div_eq_mul_inv, le_div_iff₀ hpk] at h6; exact h6
            have h8 : (2 : ℚ) ^ (f.emax + 1) ≤ 2 ^ (f.prec - 1) * 2 ^ k := by
              rw [← zpow_natCast, ← zpow_natCast, ← zpow_add₀ (by norm_num)]
              exact zpow_le_zpow_right₀ (by norm_num) (by push_cast; omega)
            have h9 : big f < 2 ^ (f.emax + 1) := by
              rw [big_eq]
              have e : (2 : ℚ) ^ (f.emax + 1) = 2 ^ f.prec * 2 ^ (f.emax + 1 - f.prec) := by
                rw [← pow_add]; congr 1; omega
              rw [e]
              gcongr
              have : 2 ^ f.prec - 1 < 2 ^ f.prec := by have : 0 < 2 ^ f.prec := by positivity
                                                       omega
              exact_mod_cast this
            linarith
        · exact he.symm
      rw [h1, big_eq]
      have e : (2 : ℚ) ^ k = 2 ^ (f.emax + 1 - f.prec) := by
        rw [hk', ← zpow_natCast]; congr 1; omega
      rw [e]
      gcongr
  rcases lt_trichotomy q 0 with h' | h' | h'
  · have := pos (-q) (by linarith) ((neg_le_abs q).trans h)
    have h2 := rnd_nonneg f (q := -q) (by linarith)
    rw [rnd_neg] at this h2
    rw [abs_of_nonpos (by linarith)]; exact this
  · subst h'
    rw [rnd_zero, abs_zero]
    exact le_trans (by positivity) (big_ge f)
  · rw [abs_of_nonneg (rnd_nonneg f h'.le)]
    exact pos q h' ((le_abs_self q).trans h)

theorem mk_of_le (f : Fmt) [Ok f] {q : ℚ} (h : |q| ≤ big f) : mk f q = .fin (rnd f q) := by
  have := abs_le.1 (rnd_le_big f h)
  unfold mk
  simp only
  rw [if_neg (not_lt.2 this.2), if_neg (not_lt.2 this.1)]

end Fl
end CDT

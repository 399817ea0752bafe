import Verif.Proofs.Ieee
import Mathlib.Analysis.SpecialFunctions.Pow.NNReal

/-!
# The square root of the binary formats is correctly rounded
-/

namespace CDT
namespace Fl
variable {f : Fmt}

/-- Working precision of `sqrtRat`. -/
def sqrtBits (f : Fmt) (d : Nat) : Nat := f.prec + 3 + Nat.log2 d

/-- `sqrtRat` and the square root are on the same side of every multiple of `2^-j`. -/
theorem sqrtRat_cmp (f : Fmt) {n d : Nat} (hd : 0 < d) (c : ℤ) :
    ((c : ℚ) ≤ sqrtRat f n d * 2 ^ sqrtBits f d ↔ (c : ℝ) ≤ √((n : ℝ) / d) * 2 ^ sqrtBits f d) ∧
    (sqrtRat f n d * 2 ^ sqrtBits f d ≤ (c : ℚ) ↔ √((n : ℝ) / d) * 2 ^ sqrtBits f d ≤ (c : ℝ)) := by
  set j := sqrtBits f d with hj
  set T := √((n : ℝ) / d) * 2 ^ j with hT
  have hd' : (0 : ℝ) < d := by exact_mod_cast hd
  have hT0 : 0 ≤ T := by positivity
  have hT2 : T * T * d = n * 4 ^ j := by
    have e1 : √((n : ℝ) / d) * √((n : ℝ) / d) = n / d := Real.mul_self_sqrt (by positivity)
    have e4 : (4 : ℝ) ^ j = 2 ^ j * 2 ^ j := by rw [← mul_pow]; norm_num
    calc T * T * d = (√((n : ℝ) / d) * √((n : ℝ) / d)) * d * (2 ^ j * 2 ^ j) := by rw [hT]; ring
      _ = n * 4 ^ j := by rw [e1, e4]; field_simp
  set m := Nat.sqrt (n * 4 ^ j / d) with hm
  have m1 : m * m * d ≤ n * 4 ^ j :=
    (Nat.mul_le_mul_right d (Nat.sqrt_le _)).trans (Nat.div_mul_le_self _ _)
  have m2 : n * 4 ^ j < (m + 1) * (m + 1) * d := by
    have h : n * 4 ^ j / d < (m + 1) * (m + 1) := Nat.lt_succ_sqrt _
    exact (Nat.div_lt_iff_lt_mul hd).1 h
  have m1' : (m : ℝ) * m * d ≤ T * T * d := by rw [hT2]; exact_mod_cast m1
  have m2' : T * T * d < ((m : ℝ) + 1) * (m + 1) * d := by rw [hT2]; exact_mod_cast m2
  have l1 : (m : ℝ) ≤ T := by
    have : (m : ℝ) * m ≤ T * T := le_of_mul_le_mul_right m1' hd'
    nlinarith
  have l2 : T < m + 1 := by
    have : T * T < ((m : ℝ) + 1) * (m + 1) := lt_of_mul_lt_mul_right m2' hd'.le
    nlinarith
  have hs : sqrtRat f n d * 2 ^ j = m + (if m * m * d = n * 4 ^ j then 0 else 1 / 2 : ℚ) := by
    have e : sqrtRat f n d = mkRat (2 * m + (if m * m * d = n * 4 ^ j then 0 else 1 : ℤ)) (2 ^ (j + 1)) := rfl
    rw [e, Rat.mkRat_eq_div]
    push_cast
    rw [pow_succ]
    split
    · field_simp; ring
    · field_simp
  rw [hs]
  by_cases he : m * m * d = n * 4 ^ j
  · have hTm : T = m := by
      have h : (m : ℝ) * m * d = T * T * d := by rw [hT2]; exact_mod_cast he
      have h' : (m : ℝ) * m = T * T := mul_right_cancel₀ hd'.ne' h
      nlinarith
    rw [if_pos he, hTm]
    constructor
    · rw [add_zero]; norm_cast
    · rw [add_zero]; norm_cast
  · have hlt : (m : ℝ) < T := by
      refine lt_of_le_of_ne l1 fun h => he ?_
      have : (m : ℝ) * m * d = n * 4 ^ j := by rw [← hT2, h]
      exact_mod_cast this
    rw [if_neg he]
    rcases le_or_gt c (m : ℤ) with hc | hc
    · have c1 : (c : ℚ) ≤ m := by exact_mod_cast hc
      have c2 : (c : ℝ) ≤ m := by exact_mod_cast hc
      constructor <;> constructor <;> intro h <;> linarith
    · have c1 : (m : ℚ) + 1 ≤ c := by exact_mod_cast hc
      have c2 : (m : ℝ) + 1 ≤ c := by exact_mod_cast hc
      constructor <;> constructor <;> intro h <;> linarith

/-- The same for multiples of a power of two that is large enough. -/
theorem sqrtRat_cmp' (f : Fmt) {n d : Nat} (hd : 0 < d) {k : ℤ} (hk : -(sqrtBits f d : ℤ) ≤ k) (c : ℤ) :
    ((c : ℚ) * 2 ^ k ≤ sqrtRat f n d ↔ (c : ℝ) * 2 ^ k ≤ √((n : ℝ) / d)) ∧
    (sqrtRat f n d ≤ (c : ℚ) * 2 ^ k ↔ √((n : ℝ) / d) ≤ (c : ℝ) * 2 ^ k) := by
  obtain ⟨i, hi⟩ := Int.eq_ofNat_of_zero_le (show 0 ≤ k + sqrtBits f d by omega)
  obtain ⟨h1, h2⟩ := sqrtRat_cmp f (n := n) hd (c * 2 ^ i)
  have e1 : ((c * 2 ^ i : ℤ) : ℚ) = c * 2 ^ k * 2 ^ sqrtBits f d := by
    push_cast
    rw [mul_assoc, ← zpow_natCast, ← zpow_natCast, ← zpow_add₀ (by norm_num), hi]
  have e2 : ((c * 2 ^ i : ℤ) : ℝ) = c * 2 ^ k * 2 ^ sqrtBits f d := by
    push_cast
    rw [mul_assoc, ← zpow_natCast, ← zpow_natCast, ← zpow_add₀ (by norm_num), hi]
  rw [e1, e2, mul_le_mul_iff_left₀ (by positivity), mul_le_mul_iff_left₀ (by positivity)] at h1
  rw [e1, e2, mul_le_mul_iff_left₀ (by positivity), mul_le_mul_iff_left₀ (by positivity)] at h2
  exact ⟨h1, h2⟩

/-- A positive rational is at least `2^-(log2 den)`, and so is its root. -/
theorem sqrt_ge {n d : Nat} (hn : 0 < n) (hd : 0 < d) : (2 : ℝ) ^ (-(Nat.log2 d : ℤ)) ≤ √((n : ℝ) / d) := by
  have hd' : (0 : ℝ) < d := by exact_mod_cast hd
  have hn' : (1 : ℝ) ≤ n := by exact_mod_cast hn
  refine Real.le_sqrt_of_sq_le ?_
  have h1 : (1 : ℝ) / d ≤ n / d := by gcongr
  refine le_trans ?_ h1
  rw [← zpow_natCast, ← zpow_mul, le_div_iff₀ hd']
  set L := Nat.log2 d with hL
  have h2 : d ≤ 2 ^ (2 * L) := by
    rcases Nat.eq_zero_or_pos L with h0 | h0
    · have : d < 2 ^ (L + 1) := by rw [hL]; exact Nat.lt_log2_self
      rw [h0] at this ⊢
      simp at this ⊢; omega
    · have : d < 2 ^ (L + 1) := by rw [hL]; exact Nat.lt_log2_self
      exact this.le.trans (Nat.pow_le_pow_right (by norm_num) (by omega))
  have h3 : (d : ℝ) ≤ 2 ^ ((2 * L : ℕ) : ℤ) := by
    rw [zpow_natCast]; exact_mod_cast h2
  calc (2 : ℝ) ^ (-(L : ℤ) * (2 : ℕ)) * d ≤ 2 ^ (-(L : ℤ) * (2 : ℕ)) * 2 ^ ((2 * L : ℕ) : ℤ) := by gcongr
    _ = 1 := by
      rw [← zpow_add₀ (by norm_num)]
      have : -(L : ℤ) * (2 : ℕ) + ((2 * L : ℕ) : ℤ) = 0 := by push_cast; ring
      rw [this, zpow_zero]

theorem den_le_of_mult {q : ℚ} (h : Mult f q) : Nat.log2 q.den ≤ f.qmin := by
  obtain ⟨z, hz⟩ := h
  have e : q = Rat.divInt z (2 ^ f.qmin) := by
    rw [hz, Rat.divInt_eq_div, zpow_neg, zpow_natCast]
    push_cast
    rw [div_eq_mul_inv]
  have hdvd : ((q.den : ℕ) : ℤ) ∣ 2 ^ f.qmin := by rw [e]; exact Rat.den_dvd _ _
  have hle : q.den ≤ 2 ^ f.qmin := Nat.le_of_dvd (by positivity) (by exact_mod_cast hdvd)
  have h1 : 2 ^ Nat.log2 q.den ≤ q.den := Nat.log2_self_le q.den_nz
  exact (Nat.pow_le_pow_iff_right (by norm_num : 1 < 2)).1 (h1.trans hle)

/-- The square root of a positive number of the format is a nearest number of the format to the exact root. -/
theorem sqrt_nearest [Ok f] {q : ℚ} (hq : 0 < q) (hn : f.Number q) :
    ∃ r : ℚ, sqrt (.fin q : Fl f) = .fin r ∧ f.Number r ∧ ∀ x : ℚ, f.Number x → |(r : ℝ) - √(q : ℝ)| ≤ |(x : ℝ) - √(q : ℝ)| := by
  have hp := Ok.prec (f := f)
  have hpe := Ok.prec_emax (f := f)
  have hf : 1 ≤ f.prec := by omega
  set n := q.num.toNat with hnn
  set d := q.den with hdd
  have hd : 0 < d := q.den_pos
  have hnum : 0 < q.num := Rat.num_pos.2 hq
  have hn0 : 0 < n := by omega
  have hqr : (q : ℝ) = (n : ℝ) / d := by
    rw [Rat.cast_def]
    congr 1
    have : ((n : ℕ) : ℤ) = q.num := by omega
    rw [← this]; simp
  rw [hqr]
  set t := √((n : ℝ) / d) with ht
  set s := sqrtRat f n d with hs
  set L := Nat.log2 d with hL
  have hLq : L ≤ f.qmin := den_le_of_mult (mult_of_rnd (rnd_of_number hn))
  have hj : sqrtBits f d = f.prec + 3 + L := rfl
  have cmp := fun (k : ℤ) (hk : -(sqrtBits f d : ℤ) ≤ k) (c : ℤ) => sqrtRat_cmp' f (n := n) hd hk c
  have hsL : (2 : ℚ) ^ (-(L : ℤ)) ≤ s := by
    have := (cmp (-(L : ℤ)) (by omega) 1).1.2 (by simpa using sqrt_ge hn0 hd)
    simpa using this
  have hs0 : 0 < s := lt_of_lt_of_le (by positivity) hsL
  obtain ⟨e, he1, he2⟩ := exists_exp hs0
  have heL : -(L : ℤ) ≤ e := by
    have h : (2 : ℚ) ^ (-(L : ℤ)) < 2 ^ (e + 1) := hsL.trans_lt he2
    rw [zpow_lt_zpow_iff_right₀ (by norm_num)] at h
    omega
  -- no overflow
  have hbig : s ≤ 2 ^ f.emax := by
    have h1 : t ≤ 2 ^ f.emax := by
      refine Real.sqrt_le_iff.2 ⟨by positivity, ?_⟩
      rw [← hqr]
      have hlt : q < 2 ^ (f.emax + 1) := by
        refine lt_of_le_of_lt ((le_abs_self q).trans (number_le hn)) ?_
        rw [big_eq]
        have e : (2 : ℚ) ^ (f.emax + 1) = 2 ^ f.prec * 2 ^ (f.emax + 1 - f.prec) := by
          rw [← pow_add]; congr 1; omega
        rw [e]
        gcongr
        have : 2 ^ f.prec - 1 < 2 ^ f.prec := by
          have : (1 : ℕ) ≤ 2 ^ f.prec := Nat.one_le_two_pow
          omega
        exact_mod_cast this
      have hlt' : (q : ℝ) < 2 ^ (f.emax + 1) := by exact_mod_cast hlt
      refine hlt'.le.trans ?_
      rw [← pow_mul]
      exact pow_le_pow_right₀ (by norm_num) (by omega)
    have := (cmp 0 (by omega) (2 ^ f.emax)).2.2 (by push_cast; rw [zpow_zero, mul_one]; exact h1)
    push_cast at this
    rwa [mul_one] at this
  have hsb : |s| ≤ big f := by rw [abs_of_pos hs0]; exact hbig.trans (big_ge f)
  have hrn : f.Number (rnd f s) := number_iff.2 ⟨rnd_idem f hf s, rnd_le_big f hsb⟩
  refine ⟨rnd f s, ?_, hrn, ?_⟩
  · show (if q < 0 then _ else if q = 0 then _ else mk f (sqrtRat f q.num.toNat q.den)) = _
    rw [if_neg (by linarith), if_neg hq.ne']
    exact mk_of_le f hsb
  -- the result is a multiple of the spacing
  have hr := rnd_eq f hs0 he1 he2
  have hlb : e + 1 - (f.prec : ℤ) ≤ lastBit f e := le_max_left _ _
  have grid : ∀ x : ℚ, (∃ z : ℤ, ∃ k : ℤ, e + 1 - (f.prec : ℤ) ≤ k ∧ x = z * 2 ^ k) → ∃ z : ℤ, x = z * 2 ^ (e + 1 - (f.prec : ℤ)) := by
    rintro x ⟨z, k, hk, rfl⟩
    obtain ⟨i, hi⟩ := Int.eq_ofNat_of_zero_le (sub_nonneg.2 hk)
    refine ⟨z * 2 ^ i, ?_⟩
    push_cast
    rw [mul_assoc, ← zpow_natCast, ← hi, ← zpow_add₀ (by norm_num)]
    congr 2; ring
  obtain ⟨zr, hzr⟩ := grid (rnd f s) ⟨_, _, hlb, by rw [hr]; rfl⟩
  -- comparison with a multiple of the spacing
  have key : ∀ x : ℚ, f.Number x → (∃ z : ℤ, x = z * 2 ^ (e + 1 - (f.prec : ℤ))) → |(rnd f s : ℝ) - t| ≤ |(x : ℝ) - t| := by
    rintro x hx ⟨z, hz⟩
    have near := rnd_nearest f hf s x (rnd_of_number hx)
    have hmid : (rnd f s + x) / 2 = ((zr + z : ℤ) : ℚ) * 2 ^ (e - (f.prec : ℤ)) := by
      rw [hzr, hz]
      push_cast
      rw [show e + 1 - (f.prec : ℤ) = (e - f.prec) + 1 by ring, zpow_add₀ (by norm_num), zpow_one]
      ring
    have hmid' : ((rnd f s : ℝ) + x) / 2 = ((zr + z : ℤ) : ℝ) * 2 ^ (e - (f.prec : ℤ)) := by
      have := congrArg (Rat.cast : ℚ → ℝ) hmid
      push_cast at this ⊢
      exact this
    obtain ⟨c1, c2⟩ := cmp (e - f.prec) (by omega) (zr + z)
    rw [← hmid, ← hmid'] at c1 c2
    rcases lt_trichotomy x (rnd f s) with hlt | heq | hgt
    · have hlt' : (x : ℝ) < rnd f s := by exact_mod_cast hlt
      have h1 : (rnd f s + x) / 2 ≤ s := by
        rcases abs_cases (rnd f s - s) with ⟨a1, a2⟩ | ⟨a1, a2⟩ <;> rcases abs_cases (x - s) with ⟨b1, b2⟩ | ⟨b1, b2⟩ <;>
          rw [a1, b1] at near <;> linarith
      have h2 := c1.1 h1
      rcases abs_cases ((rnd f s : ℝ) - t) with ⟨a1, a2⟩ | ⟨a1, a2⟩ <;> rcases abs_cases ((x : ℝ) - t) with ⟨b1, b2⟩ | ⟨b1, b2⟩ <;>
        rw [a1, b1] <;> linarith
    · rw [heq]
    · have hgt' : (rnd f s : ℝ) < x := by exact_mod_cast hgt
      have h1 : s ≤ (rnd f s + x) / 2 := by
        rcases abs_cases (rnd f s - s) with ⟨a1, a2⟩ | ⟨a1, a2⟩ <;> rcases abs_cases (x - s) with ⟨b1, b2⟩ | ⟨b1, b2⟩ <;>
          rw [a1, b1] at near <;> linarith
      have h2 := c2.1 h1
      rcases abs_cases ((rnd f s : ℝ) - t) with ⟨a1, a2⟩ | ⟨a1, a2⟩ <;> rcases abs_cases ((x : ℝ) - t) with ⟨b1, b2⟩ | ⟨b1, b2⟩ <;>
        rw [a1, b1] <;> linarith
  -- the power of two below
  have hpw : rnd f (2 ^ e) = 2 ^ e := by
    have := rnd_dyadic_int f hf (m := 1) (k := e) (by rw [abs_one]; exact one_le_pow₀ (by norm_num)) (by omega)
    simpa using this
  have hpn : f.Number (2 ^ e) := by
    refine number_iff.2 ⟨hpw, ?_⟩
    rw [abs_of_pos (by positivity)]
    exact he1.trans (hbig.trans (big_ge f))
  have hte : (2 : ℝ) ^ e ≤ t := by
    have := (cmp e (by omega) 1).1.1 (by rw [Int.cast_one, one_mul]; exact he1)
    rwa [Int.cast_one, one_mul] at this
  have hpow := key (2 ^ e) hpn (grid _ ⟨1, e, by omega, by simp⟩)
  intro x hx
  rcases lt_or_ge x (2 ^ e) with hlt | hge
  · have hlt' : (x : ℝ) < 2 ^ e := by
      have : (x : ℝ) < ((2 ^ e : ℚ) : ℝ) := by exact_mod_cast hlt
      push_cast at this
      exact this
    refine hpow.trans ?_
    push_cast
    rw [abs_of_nonpos (by linarith), abs_of_nonpos (by linarith)]
    linarith
  · refine key x hx (grid x ?_)
    obtain ⟨m, k, h1, h2, h3, h4⟩ := hx
    refine ⟨m, k, ?_, h1⟩
    have hm : (m : ℚ) < 2 ^ f.prec := by
      have : (|m| : ℤ) < 2 ^ f.prec := h2
      exact_mod_cast (le_abs_self m).trans_lt this
    have h5 : (2 : ℚ) ^ e < 2 ^ ((f.prec : ℤ) + k) := by
      calc (2 : ℚ) ^ e ≤ x := hge
        _ = m * 2 ^ k := h1
        _ < 2 ^ f.prec * 2 ^ k := by gcongr
        _ = _ := by rw [zpow_add₀ (by norm_num), zpow_natCast]
    rw [zpow_lt_zpow_iff_right₀ (by norm_num)] at h5
    omega

/-- A number of the format in `[2^e, 2^(e+1))` is a multiple of `2^(e+1-prec)`. -/
theorem number_grid {x : ℚ} (hx : f.Number x) {e : ℤ} (he : (2 : ℚ) ^ e ≤ x) : ∃ z : ℤ, x = z * 2 ^ (e + 1 - (f.prec : ℤ)) := by
  obtain ⟨m, k, h1, h2, h3, h4⟩ := hx
  have hm : (m : ℚ) < 2 ^ f.prec := by
    have : (|m| : ℤ) < 2 ^ f.prec := h2
    exact_mod_cast (le_abs_self m).trans_lt this
  have h5 : (2 : ℚ) ^ e < 2 ^ ((f.prec : ℤ) + k) := by
    calc (2 : ℚ) ^ e ≤ x := he
      _ = m * 2 ^ k := h1
      _ < 2 ^ f.prec * 2 ^ k := by gcongr
      _ = _ := by rw [zpow_add₀ (by norm_num), zpow_natCast]
  rw [zpow_lt_zpow_iff_right₀ (by norm_num)] at h5
  obtain ⟨i, hi⟩ := Int.eq_ofNat_of_zero_le (show 0 ≤ k - (e + 1 - (f.prec : ℤ)) by omega)
  refine ⟨m * 2 ^ i, ?_⟩
  rw [h1]
  push_cast
  rw [mul_assoc, ← zpow_natCast, ← hi, ← zpow_add₀ (by norm_num)]
  congr 2; ring

/-- The root of the rounded square is the number itself, if the square neither underflows nor overflows. -/
theorem sqrt_mul_self [Ok f] {d : ℚ} (hd : 0 < d) (hn : f.Number d) (hm : Mult f (d * d)) (hb : d * d ≤ big f) :
    sqrt (mul (.fin d : Fl f) (.fin d)) = .fin d := by
  have hp := Ok.prec (f := f)
  have hf : 1 ≤ f.prec := by omega
  have hdd : 0 < d * d := mul_pos hd hd
  have hmul : mul (.fin d : Fl f) (.fin d) = .fin (rnd f (d * d)) := mk_of_le f (by rw [abs_of_pos hdd]; exact hb)
  rw [hmul]
  set q := rnd f (d * d) with hq
  have herr : |q - d * d| ≤ 1 / 2 ^ f.prec * (d * d) := by
    obtain ⟨z, hz⟩ := hm
    have := rnd_err_multiple f z
    rw [← hz, abs_of_pos hdd] at this
    exact this
  have hu : (0 : ℚ) < 1 / 2 ^ f.prec := by positivity
  have hu1 : (1 : ℚ) / 2 ^ f.prec < 1 := by
    rw [div_lt_one (by positivity)]
    exact one_lt_pow₀ (by norm_num) (by omega)
  set u : ℚ := 1 / 2 ^ f.prec with hudef
  have hqpos : 0 < q := by
    rw [abs_le] at herr
    nlinarith
  have hqn : f.Number q := number_iff.2 ⟨rnd_idem f hf _, rnd_le_big f (by rw [abs_of_pos hdd]; exact hb)⟩
  obtain ⟨r, h1, h2, h3⟩ := sqrt_nearest hqpos hqn
  rw [h1]
  have near := h3 d hn
  obtain ⟨e, he1, he2⟩ := exists_exp hd
  suffices h : r = d by rw [h]
  rcases he1.eq_or_lt with he | he
  · -- a power of two: the square is exact
    have hsq : q = d * d := by
      rw [hq, ← he, ← zpow_add₀ (by norm_num)]
      have hk : -(f.qmin : ℤ) ≤ e + e := by
        obtain ⟨z, hz⟩ := hm
        rw [← he, ← zpow_add₀ (by norm_num)] at hz
        have hz1 : 1 ≤ z := by
          have : (0 : ℚ) < z := by
            have h0 : (0 : ℚ) < z * 2 ^ (-(f.qmin : ℤ)) := by rw [← hz]; positivity
            exact pos_of_mul_pos_left h0 (by positivity)
          exact_mod_cast this
        have h5 : (2 : ℚ) ^ (-(f.qmin : ℤ)) ≤ 2 ^ (e + e) := by
          rw [hz]
          have : (1 : ℚ) ≤ z := by exact_mod_cast hz1
          have hp : (0 : ℚ) < 2 ^ (-(f.qmin : ℤ)) := by positivity
          nlinarith
        exact (zpow_le_zpow_iff_right₀ (by norm_num)).1 h5
      have := rnd_dyadic_int f hf (m := 1) (k := e + e) (by rw [abs_one]; exact one_le_pow₀ (by norm_num)) hk
      simpa using this
    have hd' : (0 : ℝ) ≤ d := by exact_mod_cast hd.le
    have : √((q : ℚ) : ℝ) = d := by
      rw [hsq]; push_cast
      exact Real.sqrt_mul_self hd'
    rw [this, sub_self, abs_zero] at near
    have := abs_nonpos_iff.1 near
    have h' : (r : ℝ) = d := by linarith
    exact_mod_cast h'
  · obtain ⟨zd, hzd⟩ := number_grid hn he1
    set h : ℚ := 2 ^ (e + 1 - (f.prec : ℤ)) with hh
    have hh0 : 0 < h := by positivity
    have hhu : h = 2 ^ (e + 1) * u := by
      rw [hh, zpow_sub₀ (by norm_num), zpow_natCast, hudef]; ring
    have hpe : (2 : ℚ) ^ (e + 1) = 2 * 2 ^ e := by rw [zpow_add₀ (by norm_num), zpow_one]; ring
    -- neighbours on the grid
    have eP : (2 : ℚ) ^ (e + 1) = ((2 ^ f.prec : ℤ) : ℚ) * h := by
      push_cast
      rw [hhu, hudef]; field_simp
    have eQ : (2 : ℚ) ^ e = ((2 ^ (f.prec - 1) : ℤ) : ℚ) * h := by
      have : (2 : ℤ) ^ f.prec = 2 * 2 ^ (f.prec - 1) := by rw [← pow_succ']; congr 1; omega
      rw [this] at eP
      push_cast at eP ⊢
      linarith
    have up : d ≤ 2 ^ (e + 1) - h := by
      rw [hzd, eP] at he2
      have hlt : zd < 2 ^ f.prec := by exact_mod_cast lt_of_mul_lt_mul_right he2 hh0.le
      have hle : (zd : ℚ) + 1 ≤ ((2 ^ f.prec : ℤ) : ℚ) := by exact_mod_cast hlt
      rw [hzd, eP]
      nlinarith
    have lo : 2 ^ e + h ≤ d := by
      rw [hzd, eQ] at he
      have hlt : (2 : ℤ) ^ (f.prec - 1) < zd := by exact_mod_cast lt_of_mul_lt_mul_right he hh0.le
      have hle : (((2 : ℤ) ^ (f.prec - 1) : ℤ) : ℚ) + 1 ≤ zd := by exact_mod_cast hlt
      rw [hzd, eQ]
      nlinarith
    -- the exact root is less than half a step away
    have b1 : q < (d + h / 2) * (d + h / 2) := by
      have := (abs_le.1 herr).2
      have h5 : u * d < h := by rw [hhu]; nlinarith
      nlinarith
    have b2 : (d - h / 2) * (d - h / 2) < q := by
      have := (abs_le.1 herr).1
      have h5 : u * d ≤ h - u * h := by rw [hhu] at up ⊢; nlinarith
      have h6 : h < 4 * d * u := by
        rw [hhu, hpe]
        have h7 : (2 : ℚ) ^ e < d := he
        have h8 : (0 : ℚ) < 2 ^ e := by positivity
        nlinarith
      nlinarith
    have hd2 : 0 < d - h / 2 := by
      have : (0 : ℚ) < 2 ^ e := by positivity
      linarith
    have t1 : √((q : ℚ) : ℝ) < d + h / 2 := by
      rw [Real.sqrt_lt' (by exact_mod_cast (by linarith : (0 : ℚ) < d + h / 2)), sq]
      exact_mod_cast b1
    have t2 : (d : ℝ) - h / 2 < √((q : ℚ) : ℝ) := by
      refine (Real.lt_sqrt (by exact_mod_cast hd2.le)).2 ?_
      rw [sq]
      exact_mod_cast b2
    have n1 : |(r : ℝ) - d| < h := by
      have a := abs_lt.2 (⟨by linarith, by linarith⟩ : -((h : ℝ) / 2) < (d : ℝ) - √((q : ℚ) : ℝ) ∧ (d : ℝ) - √((q : ℚ) : ℝ) < h / 2)
      have tri := abs_sub_le (r : ℝ) (√((q : ℚ) : ℝ)) d
      rw [abs_sub_comm (√((q : ℚ) : ℝ)) (d : ℝ)] at tri
      linarith
    have n2 : |r - d| < h := by exact_mod_cast n1
    have n3 := abs_lt.1 n2
    obtain ⟨zr, hzr⟩ := number_grid h2 (e := e) (by linarith)
    rw [← hh] at hzr
    have : |((zr - zd : ℤ) : ℚ)| * h < 1 * h := by
      rw [one_mul]
      calc |((zr - zd : ℤ) : ℚ)| * h = |((zr - zd : ℤ) : ℚ) * h| := by rw [abs_mul, abs_of_pos hh0]
        _ = |r - d| := by rw [hzr, hzd]; push_cast; congr 1; ring
        _ < h := n2
    have h9 : |((zr - zd : ℤ) : ℚ)| < 1 := lt_of_mul_lt_mul_right this hh0.le
    have h10 : |zr - zd| < 1 := by exact_mod_cast h9
    have h11 : zr = zd := by have := Int.abs_lt_one_iff.1 h10; omega
    rw [hzr, hzd, h11]

end Fl
end CDT

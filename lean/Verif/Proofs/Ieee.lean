import Verif.Spec.Ieee
import Verif.Model.Rounded

/-!
# The rounding function is IEEE rounding

`Fl.rnd` is monotone, leaves the numbers of the format unchanged, returns a nearest number of the format, and commutes with
exact scaling by powers of two.
-/

namespace CDT
namespace Fl

/-- Nearest integer of a positive rational, ties to even. -/
def rndRat (x : ℚ) : Nat := rndNat x.num.toNat x.den

theorem rndNat_mul (n : Nat) {d g : Nat} (hg : 0 < g) : rndNat (n * g) (d * g) = rndNat n d := by
  unfold rndNat
  simp only [Nat.mul_div_mul_right _ _ hg, Nat.mul_mod_mul_right]
  have e1 : 2 * (n % d * g) < d * g ↔ 2 * (n % d) < d := by
    rw [← Nat.mul_assoc]; exact Nat.mul_lt_mul_right hg
  have e2 : d * g < 2 * (n % d * g) ↔ d < 2 * (n % d) := by
    rw [← Nat.mul_assoc]; exact Nat.mul_lt_mul_right hg
  simp only [e1, e2]

theorem rndNat_eq (n : Nat) {d : Nat} (hd : 0 < d) : rndNat n d = rndRat ((n : ℚ) / d) := by
  have hd' : (d : ℚ) ≠ 0 := by positivity
  set x : ℚ := (n : ℚ) / d with hx
  have h0 : 0 ≤ x := by positivity
  have hn : ((x.num.toNat : Nat) : ℤ) = x.num := Int.toNat_of_nonneg (Rat.num_nonneg.2 h0)
  have e : x.num.toNat * d = n * x.den := by
    have h1 : x * x.den = x.num := Rat.mul_den_eq_num x
    have h2 : x * d = n := by rw [hx]; field_simp
    have h3 : (x.num : ℚ) * d = n * x.den := by rw [← h1, ← h2]; ring
    rw [← hn] at h3
    exact_mod_cast h3
  unfold rndRat
  rw [← rndNat_mul n x.den_pos, ← e, Nat.mul_comm d x.den, rndNat_mul _ hd]

theorem ilog2_unique {n d : Nat} (hn : 0 < n) (hd : 0 < d) {e : ℤ} (h1 : (2 : ℚ) ^ e ≤ n / d) (h2 : (n / d : ℚ) < 2 ^ (e + 1)) :
    ilog2 n d = e := by
  obtain ⟨h3, h4⟩ := ilog2_spec hn hd
  have a : (2 : ℚ) ^ e < 2 ^ (ilog2 n d + 1) := h1.trans_lt h4
  have b : (2 : ℚ) ^ ilog2 n d < 2 ^ (e + 1) := h3.trans_lt h2
  rw [zpow_lt_zpow_iff_right₀ (by norm_num)] at a b
  omega

/-- Exponent of the last bit. -/
def lastBit (f : Fmt) (e : ℤ) : ℤ := Max.max (e + 1 - (f.prec : ℤ)) (-(f.qmin : ℤ))

/-- The rounding function, on numbers. -/
theorem rnd_eq (f : Fmt) {q : ℚ} {e : ℤ} (hq : 0 < q) (h1 : (2 : ℚ) ^ e ≤ q) (h2 : q < 2 ^ (e + 1)) :
    rnd f q = rndRat (q * 2 ^ (-lastBit f e)) * (2 : ℚ) ^ lastBit f e := by
  have h : 0 < q.num := Rat.num_pos.2 hq
  have e0 : ((q.num.toNat : Nat) : ℚ) / (q.den : ℚ) = q := by
    have : ((q.num.toNat : Nat) : ℤ) = q.num := Int.toNat_of_nonneg h.le
    have : ((q.num.toNat : Nat) : ℚ) = (q.num : ℚ) := by exact_mod_cast this
    rw [this, Rat.num_div_den]
  have he : ilog2 q.num.toNat q.den = e := ilog2_unique (by omega) q.den_pos (by rw [e0]; exact h1) (by rw [e0]; exact h2)
  rw [rnd_pos f hq]
  have hk : ulpExp f q.num.toNat q.den = lastBit f e := by unfold ulpExp lastBit; rw [he]
  unfold rndPos
  rw [hk]
  cases hi : lastBit f e with
  | ofNat i =>
    have hpd : 0 < q.den * 2 ^ i := by have := q.den_pos; positivity
    simp only [Int.ofNat_eq_natCast, zpow_natCast]
    rw [rndNat_eq _ hpd]
    have : ((q.num.toNat : Nat) : ℚ) / ((q.den * 2 ^ i : Nat) : ℚ) = q * 2 ^ (-(i : ℤ)) := by
      rw [zpow_neg, zpow_natCast]; push_cast; rw [← div_div, e0, div_eq_mul_inv]
    rw [this]; push_cast; rfl
  | negSucc i =>
    simp only [Rat.mkRat_eq_div]
    rw [rndNat_eq _ q.den_pos]
    have : ((q.num.toNat * 2 ^ (i + 1) : Nat) : ℚ) / (q.den : ℚ) = q * 2 ^ (-(Int.negSucc i)) := by
      rw [Int.neg_negSucc, zpow_natCast]; push_cast; rw [mul_div_right_comm, e0]
    rw [this, zpow_negSucc]; push_cast; rw [div_eq_mul_inv]

/-- A positive number has a binary exponent. -/
theorem exists_exp {q : ℚ} (hq : 0 < q) : ∃ e : ℤ, (2 : ℚ) ^ e ≤ q ∧ q < 2 ^ (e + 1) := by
  have h : 0 < q.num := Rat.num_pos.2 hq
  have e0 : ((q.num.toNat : Nat) : ℚ) / (q.den : ℚ) = q := by
    have : ((q.num.toNat : Nat) : ℤ) = q.num := Int.toNat_of_nonneg h.le
    have : ((q.num.toNat : Nat) : ℚ) = (q.num : ℚ) := by exact_mod_cast this
    rw [this, Rat.num_div_den]
  have := ilog2_spec (n := q.num.toNat) (d := q.den) (by omega) q.den_pos
  rw [e0] at this
  exact ⟨_, this⟩

/-- `rnd` commutes with a doubling that is repeated `j` times, on multiples of the least positive number. -/
theorem rnd_scale_nat (f : Fmt) (hf : 1 ≤ f.prec) (z : ℤ) (j : ℕ) :
    rnd f (2 ^ j * (z * (2 : ℚ) ^ (-(f.qmin : ℤ)))) = 2 ^ j * rnd f (z * (2 : ℚ) ^ (-(f.qmin : ℤ))) := by
  have pos : ∀ n : ℕ, rnd f (2 ^ j * (n * (2 : ℚ) ^ (-(f.qmin : ℤ)))) = 2 ^ j * rnd f (n * (2 : ℚ) ^ (-(f.qmin : ℤ))) := by
    intro n
    rcases Nat.eq_zero_or_pos n with rfl | hn
    · simp [rnd_zero]
    set q : ℚ := n * (2 : ℚ) ^ (-(f.qmin : ℤ)) with hqd
    have hq : 0 < q := by positivity
    obtain ⟨e, h1, h2⟩ := exists_exp hq
    rcases le_total (e + 1 - f.prec : ℤ) (-f.qmin) with hc | hc
    · -- the number is subnormal or has the last bit in the same place
      have hlt : n < 2 ^ f.prec := by
        have : (n : ℚ) < 2 ^ (f.prec : ℤ) := by
          have h3 : (n : ℚ) = q * 2 ^ (f.qmin : ℤ) := by
            rw [hqd, mul_assoc, ← zpow_add₀ (by norm_num)]; simp
          rw [h3]
          calc q * 2 ^ (f.qmin : ℤ) < 2 ^ (e + 1) * 2 ^ (f.qmin : ℤ) := by gcongr
            _ = 2 ^ (e + 1 + f.qmin) := by rw [← zpow_add₀ (by norm_num)]
            _ ≤ 2 ^ (f.prec : ℤ) := zpow_le_zpow_right₀ (by norm_num) (by omega)
        rw [zpow_natCast] at this
        exact_mod_cast this
      have r1 := rnd_dyadic f hf (m := n) (k := -(f.qmin : ℤ)) hlt.le le_rfl
      have r2 := rnd_dyadic f hf (m := n) (k := j + -(f.qmin : ℤ)) hlt.le (by omega)
      have e3 : (2 : ℚ) ^ j * q = n * 2 ^ ((j : ℤ) + -(f.qmin : ℤ)) := by
        rw [zpow_add₀ (by norm_num), zpow_natCast, hqd]; ring
      rw [e3, r2, hqd, r1, ← e3]
    · have hq' : 0 < 2 ^ j * q := by positivity
      have e2 : (2 : ℚ) ^ ((j : ℤ) + e) ≤ 2 ^ j * q := by
        rw [zpow_add₀ (by norm_num), zpow_natCast]; gcongr
      have e3 : 2 ^ j * q < (2 : ℚ) ^ ((j : ℤ) + e + 1) := by
        rw [add_assoc, zpow_add₀ (by norm_num), zpow_natCast]; gcongr
      rw [rnd_eq f hq' e2 e3, rnd_eq f hq h1 h2]
      have k1 : lastBit f e = e + 1 - f.prec := max_eq_left hc
      have k2 : lastBit f (j + e) = j + lastBit f e := by
        rw [k1]; unfold lastBit; rw [max_eq_left (by omega)]; ring
      rw [k2]
      have k3 : 2 ^ j * q * (2 : ℚ) ^ (-(j + lastBit f e)) = q * 2 ^ (-lastBit f e) := by
        rw [neg_add, zpow_add₀ (by norm_num), zpow_neg, zpow_natCast]; field_simp
      rw [k3, zpow_add₀ (by norm_num), zpow_natCast]; ring
  rcases le_total 0 z with h0 | h0
  · obtain ⟨i, rfl⟩ := Int.eq_ofNat_of_zero_le h0
    exact_mod_cast pos i
  · obtain ⟨i, hi⟩ := Int.eq_ofNat_of_zero_le (neg_nonneg.2 h0)
    have := pos i
    have e : (z : ℚ) = -(i : ℚ) := by
      have : z = -(i : ℤ) := by omega
      rw [this]; push_cast; ring
    rw [e, neg_mul, mul_neg, rnd_neg, rnd_neg, this]; ring

/-- A multiple of the least positive number of the format. -/
def Mult (f : Fmt) (q : ℚ) : Prop := ∃ z : ℤ, q = z * (2 : ℚ) ^ (-(f.qmin : ℤ))

theorem Mult.sub {f : Fmt} {a b : ℚ} (ha : Mult f a) (hb : Mult f b) : Mult f (a - b) := by
  obtain ⟨z, rfl⟩ := ha
  obtain ⟨w, rfl⟩ := hb
  exact ⟨z - w, by push_cast; ring⟩

/-- `rnd` commutes with scaling by a power of two, if there is no underflow. -/
theorem rnd_scale (f : Fmt) (hf : 1 ≤ f.prec) (k : ℤ) {q : ℚ} (h : Mult f q) (h' : Mult f (2 ^ k * q)) :
    rnd f (2 ^ k * q) = 2 ^ k * rnd f q := by
  rcases le_total 0 k with h0 | h0
  · obtain ⟨i, rfl⟩ := Int.eq_ofNat_of_zero_le h0
    obtain ⟨z, rfl⟩ := h
    rw [zpow_natCast]
    exact rnd_scale_nat f hf z i
  · obtain ⟨i, hi⟩ := Int.eq_ofNat_of_zero_le (neg_nonneg.2 h0)
    obtain ⟨z, hz⟩ := h'
    have hk : k = -(i : ℤ) := by omega
    have e1 : q = 2 ^ i * (2 ^ k * q) := by
      rw [hk, zpow_neg, zpow_natCast]; field_simp
    have e2 : (2 : ℚ) ^ k * 2 ^ i = 1 := by
      rw [hk, zpow_neg, zpow_natCast, inv_mul_cancel₀ (by positivity)]
    conv_rhs => rw [e1, hz]
    rw [hz, rnd_scale_nat f hf z i, ← mul_assoc, e2, one_mul]

/-! ## Numbers of the format -/

variable {f : Fmt}

theorem mult_of_rnd {q : ℚ} (h : rnd f q = q) : Mult f q := by
  obtain ⟨z, hz⟩ := rnd_multiple f q
  exact ⟨z, h ▸ hz⟩

theorem rnd_of_number [Ok f] {q : ℚ} (h : f.Number q) : rnd f q = q := by
  obtain ⟨m, e, rfl, h1, h2, -⟩ := h
  exact rnd_dyadic_int f (by have := Ok.prec (f := f); omega) h1.le h2

theorem number_le [Ok f] {q : ℚ} (h : f.Number q) : |q| ≤ big f := by
  obtain ⟨m, e, rfl, h1, h2, h3⟩ := h
  have hp := Ok.prec_emax (f := f)
  rw [big_eq, abs_mul, abs_of_pos (by positivity : (0 : ℚ) < 2 ^ e)]
  have h4 : |(m : ℚ)| ≤ ((2 ^ f.prec - 1 : ℕ) : ℚ) := by
    have h5 : |m| ≤ ((2 ^ f.prec - 1 : ℕ) : ℤ) := by
      have : (1 : ℕ) ≤ 2 ^ f.prec := Nat.one_le_two_pow
      push_cast [this]; omega
    calc |(m : ℚ)| = ((|m| : ℤ) : ℚ) := by push_cast; rfl
      _ ≤ _ := by exact_mod_cast h5
  gcongr
  rw [← zpow_natCast]
  exact zpow_le_zpow_right₀ (by norm_num) (by omega)

/-- The numbers of the format are the fixed points of rounding below the overflow threshold. -/
theorem number_iff [Ok f] {q : ℚ} : f.Number q ↔ rnd f q = q ∧ |q| ≤ big f := by
  constructor
  · exact fun h => ⟨rnd_of_number h, number_le h⟩
  · have hp1 := Ok.prec (f := f)
    have hp2 := Ok.prec_emax (f := f)
    have hp3 := Ok.qmin (f := f)
    have pos : ∀ q : ℚ, 0 < q → rnd f q = q → q ≤ big f → f.Number q := by
      intro q hq h hb
      obtain ⟨k, m, h1, hk, h3, hc, h4, h5⟩ := rnd_spec f hq
      have hm : (m : ℚ) = q * 2 ^ (-k) := by
        have : q = m * 2 ^ k := by rw [← h1, h]
        conv_rhs => rw [this]
        rw [mul_assoc, ← zpow_add₀ (by norm_num)]; simp
      refine ⟨m, k, by rw [← h1.symm.trans h]; push_cast; rfl, ?_, hk, ?_⟩
      · rw [← hm] at h3
        rw [abs_of_nonneg (by positivity)]
        exact_mod_cast h3
      · rcases hc with hc | hc
        · omega
        · by_contra hcon
          have h6 : (2 : ℚ) ^ (f.emax + 1) ≤ q := by
            calc (2 : ℚ) ^ (f.emax + 1) = 2 ^ ((f.emax : ℤ) + 1) := by rw [← zpow_natCast]; push_cast; rfl
              _ ≤ 2 ^ ((f.prec : ℤ) - 1 + k) := zpow_le_zpow_right₀ (by norm_num) (by omega)
              _ = 2 ^ f.prec / 2 * 2 ^ k := by
                rw [zpow_add₀ (by norm_num), zpow_sub₀ (by norm_num), zpow_natCast]; norm_num
              _ ≤ (2 * (q * 2 ^ (-k))) / 2 * 2 ^ k := by gcongr
              _ = q * 2 ^ (-k) * 2 ^ k := by ring
              _ = q := mul_zpow_cancel _ _
          have h7 : big f < 2 ^ (f.emax + 1) := by
            rw [big_eq]
            have e : (2 : ℚ) ^ (f.emax + 1) = 2 ^ f.prec * 2 ^ (f.emax + 1 - f.prec) := by
              rw [← pow_add]; congr 1; omega
            rw [e]
            gcongr
            have : 2 ^ f.prec - 1 < 2 ^ f.prec := by
              have : (1 : ℕ) ≤ 2 ^ f.prec := Nat.one_le_two_pow
              omega
            exact_mod_cast this
          linarith
    rintro ⟨h, hb⟩
    rcases lt_trichotomy q 0 with h0 | h0 | h0
    · obtain ⟨m, e, h1, h2, h3⟩ := pos (-q) (by linarith) (by rw [rnd_neg, h]) (by rw [abs_of_neg h0] at hb; exact hb)
      exact ⟨-m, e, by push_cast; linarith, by rw [abs_neg]; exact h2, h3⟩
    · exact ⟨0, 0, by simp [h0], by positivity, by omega, by omega⟩
    · exact pos q h0 h (by rw [abs_of_pos h0] at hb; exact hb)

/-! ## Nearest number -/

theorem nearest_int {t : ℚ} {m j : ℤ} (h : |(m : ℚ) - t| ≤ 1 / 2) : |(m : ℚ) - t| ≤ |(j : ℚ) - t| := by
  by_cases e : m = j
  · rw [e]
  · have h1 : (1 : ℚ) ≤ |(m : ℚ) - j| := by
      have : 1 ≤ |m - j| := Int.one_le_abs (sub_ne_zero.2 e)
      exact_mod_cast this
    have h2 : |(m : ℚ) - j| ≤ |(m : ℚ) - t| + |(j : ℚ) - t| := by
      have := abs_sub_le (m : ℚ) t j
      rwa [abs_sub_comm t] at this
    linarith

/-- `rnd q` is at least as close to `q` as any other number of the format (without overflow). -/
theorem rnd_nearest (f : Fmt) (hf : 1 ≤ f.prec) (q x : ℚ) (hx : rnd f x = x) : |rnd f q - q| ≤ |x - q| := by
  have pos : ∀ q x : ℚ, 0 < q → rnd f x = x → |rnd f q - q| ≤ |x - q| := by
    intro q x hq hx
    obtain ⟨k, m, h1, hk, h3, hc, h4, h5⟩ := rnd_spec f hq
    have hp : (0 : ℚ) < 2 ^ k := by positivity
    have e : rnd f q - q = (m - q * 2 ^ (-k)) * 2 ^ k := by rw [h1, sub_mul, mul_zpow_cancel]
    -- compared with a multiple of the spacing
    have key : ∀ j : ℤ, |rnd f q - q| ≤ |j * 2 ^ k - q| := by
      intro j
      have e' : j * (2 : ℚ) ^ k - q = (j - q * 2 ^ (-k)) * 2 ^ k := by rw [sub_mul, mul_zpow_cancel]
      rw [e, e', abs_mul, abs_mul]
      have := nearest_int (m := (m : ℤ)) (j := j) (t := q * 2 ^ (-k)) (by exact_mod_cast h4)
      exact mul_le_mul_of_nonneg_right (by exact_mod_cast this) (abs_nonneg _)
    rcases hc with hc | hc
    · obtain ⟨z, hz⟩ := mult_of_rnd hx
      rw [hc] at key
      have := key z
      rwa [← hz] at this
    · have hb : (2 : ℚ) ^ (k + f.prec - 1) ≤ q := by
        calc (2 : ℚ) ^ (k + f.prec - 1) = 2 ^ f.prec / 2 * 2 ^ k := by
              rw [zpow_sub₀ (by norm_num), zpow_add₀ (by norm_num), zpow_natCast]; norm_num; ring
          _ ≤ (2 * (q * 2 ^ (-k))) / 2 * 2 ^ k := by gcongr
          _ = q * 2 ^ (-k) * 2 ^ k := by ring
          _ = q := mul_zpow_cancel _ _
      rcases lt_or_ge x (2 ^ (k + f.prec - 1)) with hlt | hge
      · have := key (2 ^ (f.prec - 1))
        have e2 : (((2 : ℤ) ^ (f.prec - 1) : ℤ) : ℚ) * 2 ^ k = 2 ^ (k + f.prec - 1) := by
          push_cast
          rw [← zpow_natCast, ← zpow_add₀ (by norm_num)]
          congr 1; omega
        rw [e2] at this
        refine this.trans ?_
        rw [abs_of_nonpos (by linarith), abs_of_nonpos (by linarith)]
        linarith
      · have hx0 : 0 < x := lt_of_lt_of_le (by positivity) hge
        obtain ⟨k', m', g1, -, g3, -⟩ := rnd_spec f hx0
        have hkk : k ≤ k' := by
          have h7 : x < (2 : ℚ) ^ ((f.prec : ℤ) + k') := by
            calc x = x * 2 ^ (-k') * 2 ^ k' := (mul_zpow_cancel _ _).symm
              _ < 2 ^ f.prec * 2 ^ k' := by gcongr
              _ = _ := by rw [zpow_add₀ (by norm_num), zpow_natCast]
          have h8 := hge.trans_lt h7
          rw [zpow_lt_zpow_iff_right₀ (by norm_num)] at h8
          omega
        obtain ⟨i, hi⟩ := Int.eq_ofNat_of_zero_le (sub_nonneg.2 hkk)
        have := key (m' * 2 ^ i)
        have e3 : (((m' : ℤ) * 2 ^ i : ℤ) : ℚ) * 2 ^ k = x := by
          push_cast
          rw [← hx, g1, mul_assoc, ← zpow_natCast, ← hi, ← zpow_add₀ (by norm_num)]
          congr 2; ring
        rwa [e3] at this
  rcases lt_trichotomy q 0 with h | h | h
  · have := pos (-q) (-x) (by linarith) (by rw [rnd_neg, hx])
    rw [rnd_neg] at this
    have e1 : -rnd f q - -q = -(rnd f q - q) := by ring
    have e2 : -x - -q = -(x - q) := by ring
    rwa [e1, e2, abs_neg, abs_neg] at this
  · subst h; simp [rnd_zero]
  · exact pos q x h hx

/-- Rounding is monotone. -/
theorem rnd_mono (f : Fmt) (hf : 1 ≤ f.prec) {q r : ℚ} (h : q ≤ r) : rnd f q ≤ rnd f r := by
  rcases h.eq_or_lt with rfl | h
  · exact le_rfl
  by_contra hc
  push Not at hc
  have h1 := rnd_nearest f hf q (rnd f r) (rnd_idem f hf r)
  have h2 := rnd_nearest f hf r (rnd f q) (rnd_idem f hf q)
  rcases abs_cases (rnd f q - q) with ⟨a1, a2⟩ | ⟨a1, a2⟩ <;> rcases abs_cases (rnd f r - q) with ⟨b1, b2⟩ | ⟨b1, b2⟩ <;>
    rcases abs_cases (rnd f r - r) with ⟨c1, c2⟩ | ⟨c1, c2⟩ <;> rcases abs_cases (rnd f q - r) with ⟨d1, d2⟩ | ⟨d1, d2⟩ <;>
    rw [a1, b1] at h1 <;> rw [c1, d1] at h2 <;> linarith

theorem fin_sub [Ok f] {a b : ℚ} (h : |a - b| ≤ big f) : FloatOps.sub (.fin a : Fl f) (.fin b) = .fin (rnd f (a - b)) :=
  mk_of_le f h

end Fl
end CDT

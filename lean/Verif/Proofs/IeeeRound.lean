import Verif.Spec.IeeeRound
import Verif.Proofs.Sqrt

/-!
# The rounding function meets the definition of IEEE 754
-/

namespace CDT
namespace Fl
variable {f : Fmt}

/-! ## Ties -/

theorem rndNat_even (n : Nat) {d : Nat} (hd : 0 < d) (h : |((rndNat n d : Nat) : ℚ) - n / d| = 1 / 2) : rndNat n d % 2 = 0 := by
  have hd' : (0 : ℚ) < d := by exact_mod_cast hd
  have hdiv : (n : ℚ) = d * (n / d : Nat) + (n % d : Nat) := by exact_mod_cast (Nat.div_add_mod n d).symm
  have key : (n : ℚ) / d = (n / d : Nat) + ((n % d : Nat) : ℚ) / d := by
    conv_lhs => rw [hdiv]
    field_simp
  have hr : (n % d : Nat) < d := Nat.mod_lt _ hd
  have hr' : ((n % d : Nat) : ℚ) < d := by exact_mod_cast hr
  have lo : (0 : ℚ) ≤ ((n % d : Nat) : ℚ) / d := by positivity
  have hi : ((n % d : Nat) : ℚ) / d < 1 := by rw [div_lt_one hd']; exact hr'
  rw [key] at h
  have e := mul_div_cancel₀ ((n % d : Nat) : ℚ) hd'.ne'
  unfold rndNat at h ⊢
  simp only at h ⊢
  split at h
  · rename_i h1
    have h1' : (2 : ℚ) * ((n % d : Nat) : ℚ) < d := by exact_mod_cast h1
    have : ((n % d : Nat) : ℚ) / d < 1 / 2 := by rw [div_lt_div_iff₀ hd' (by norm_num)]; linarith
    rw [show ((n / d : Nat) : ℚ) - ((n / d : Nat) + ((n % d : Nat) : ℚ) / d) = -(((n % d : Nat) : ℚ) / d) by ring, abs_neg, abs_of_nonneg lo] at h
    linarith
  · rename_i h1
    rw [if_neg h1]
    split at h
    · rename_i h2
      have h2' : (d : ℚ) < 2 * ((n % d : Nat) : ℚ) := by exact_mod_cast h2
      have : 1 / 2 < ((n % d : Nat) : ℚ) / d := by rw [div_lt_div_iff₀ (by norm_num) hd']; linarith
      push_cast at h
      rw [show ((n / d : Nat) : ℚ) + 1 - ((n / d : Nat) + ((n % d : Nat) : ℚ) / d) = 1 - ((n % d : Nat) : ℚ) / d by ring,
        abs_of_nonneg (by linarith)] at h
      linarith
    · rename_i h2
      rw [if_neg h2]
      split <;> omega

/-- As `rnd_spec`, with the rule for ties. -/
theorem rnd_shape (f : Fmt) {q : ℚ} (hq : 0 < q) :
    ∃ (k : ℤ) (m : Nat), rnd f q = m * (2 : ℚ) ^ k ∧ -(f.qmin : ℤ) ≤ k ∧ q * 2 ^ (-k) < 2 ^ f.prec ∧
      (k = -(f.qmin : ℤ) ∨ (2 : ℚ) ^ f.prec ≤ 2 * (q * 2 ^ (-k))) ∧
      |(m : ℚ) - q * 2 ^ (-k)| ≤ 1 / 2 ∧ (|(m : ℚ) - q * 2 ^ (-k)| = 1 / 2 → m % 2 = 0) := by
  obtain ⟨e, he1, he2⟩ := exists_exp hq
  have hr := rnd_eq f hq he1 he2
  set k := lastBit f e with hk
  set x := q * 2 ^ (-k) with hx
  have hx0 : 0 < x := by positivity
  have hnum : ((x.num.toNat : Nat) : ℚ) / x.den = x := by
    have h : 0 < x.num := Rat.num_pos.2 hx0
    have : ((x.num.toNat : Nat) : ℤ) = x.num := Int.toNat_of_nonneg h.le
    have : ((x.num.toNat : Nat) : ℚ) = (x.num : ℚ) := by exact_mod_cast this
    rw [this, Rat.num_div_den]
  refine ⟨k, rndRat x, hr, le_max_right _ _, ?_, ?_, ?_, ?_⟩
  · have hle : e + 1 + -k ≤ (f.prec : ℤ) := by
      have : e + 1 - f.prec ≤ k := le_max_left _ _
      omega
    calc q * 2 ^ (-k) < 2 ^ (e + 1) * 2 ^ (-k) := by gcongr
      _ = 2 ^ (e + 1 + -k) := by rw [← zpow_add₀ (by norm_num)]
      _ ≤ 2 ^ (f.prec : ℤ) := zpow_le_zpow_right₀ (by norm_num) hle
      _ = 2 ^ f.prec := zpow_natCast _ _
  · rcases max_choice (e + 1 - (f.prec : ℤ)) (-(f.qmin : ℤ)) with h' | h'
    · right
      have hk' : k = e + 1 - f.prec := h'
      calc (2 : ℚ) ^ f.prec = 2 ^ (f.prec : ℤ) := (zpow_natCast _ _).symm
        _ = 2 ^ (1 + (e + -k)) := by congr 1; omega
        _ = 2 * (2 ^ e * 2 ^ (-k)) := by rw [zpow_add₀ (by norm_num), zpow_add₀ (by norm_num)]; norm_num
        _ ≤ 2 * (q * 2 ^ (-k)) := by gcongr
    · left; exact h'
  · have := rndNat_err x.num.toNat x.den_pos
    rwa [hnum] at this
  · intro h
    refine rndNat_even _ x.den_pos ?_
    rw [hnum]; exact h

/-- A tie is rounded to an even significand. -/
theorem rnd_tie_pos [Ok f] {q s : ℚ} (hq : 0 < q) (hs : f.Number s) (hne : s ≠ rnd f q) (he : |s - q| = |rnd f q - q|) : f.Even (rnd f q) := by
  have hp := Ok.prec (f := f)
  obtain ⟨k, m, h1, hk, h3, hc, h4, h5⟩ := rnd_shape f hq
  have hp2 : (0 : ℚ) < 2 ^ k := by positivity
  have e0 : rnd f q - q = (m - q * 2 ^ (-k)) * 2 ^ k := by rw [h1, sub_mul, mul_zpow_cancel]
  -- compared with a multiple of the spacing
  have key : ∀ j : ℤ, j * (2 : ℚ) ^ k ≠ rnd f q → |j * (2 : ℚ) ^ k - q| = |rnd f q - q| → m % 2 = 0 := by
    intro j hj hjq
    have e' : j * (2 : ℚ) ^ k - q = (j - q * 2 ^ (-k)) * 2 ^ k := by rw [sub_mul, mul_zpow_cancel]
    rw [e0, e', abs_mul, abs_mul] at hjq
    have hjq := mul_right_cancel₀ (abs_pos.2 hp2.ne').ne' hjq
    have hjm : j ≠ (m : ℤ) := by rintro rfl; exact hj (by rw [h1]; push_cast; rfl)
    have h6 : (1 : ℚ) ≤ |(m : ℚ) - j| := by
      have : 1 ≤ |(m : ℤ) - j| := Int.one_le_abs (sub_ne_zero.2 hjm.symm)
      exact_mod_cast this
    have h7 := abs_sub_le (m : ℚ) (q * 2 ^ (-k)) j
    rw [abs_sub_comm (q * 2 ^ (-k)) (j : ℚ), hjq] at h7
    exact h5 (by linarith)
  have even : m % 2 = 0 := by
    rcases hc with hc | hc
    · obtain ⟨z, hz⟩ := mult_of_rnd (rnd_of_number hs)
      rw [hc] at key
      rw [hz] at hne he
      exact key z hne he
    · have hb : (2 : ℚ) ^ (k + f.prec - 1) ≤ q := by
        calc (2 : ℚ) ^ (k + f.prec - 1) = 2 ^ f.prec / 2 * 2 ^ k := by
              rw [zpow_sub₀ (by norm_num), zpow_add₀ (by norm_num), zpow_natCast]; norm_num; ring
          _ ≤ (2 * (q * 2 ^ (-k))) / 2 * 2 ^ k := by gcongr
          _ = q * 2 ^ (-k) * 2 ^ k := by ring
          _ = q := mul_zpow_cancel _ _
      rcases lt_or_ge s (2 ^ (k + f.prec - 1)) with hlt | hge
      · exfalso
        have hfix : rnd f (2 ^ (k + f.prec - 1)) = 2 ^ (k + f.prec - 1) := by
          have := rnd_dyadic_int f (by omega) (m := 1) (k := k + f.prec - 1) (by rw [abs_one]; exact one_le_pow₀ (by norm_num)) (by omega)
          simpa using this
        have near := rnd_nearest f (by omega) q _ hfix
        rw [abs_of_nonpos (by linarith : (2 : ℚ) ^ (k + f.prec - 1) - q ≤ 0)] at near
        rw [abs_of_nonpos (by linarith : s - q ≤ 0)] at he
        linarith
      · obtain ⟨z, hz⟩ := number_grid hs (e := k + f.prec - 1) hge
        rw [show k + (f.prec : ℤ) - 1 + 1 - f.prec = k by ring] at hz
        rw [hz] at hne he
        exact key z hne he
  obtain ⟨m', rfl⟩ : ∃ m', m = 2 * m' := ⟨m / 2, by omega⟩
  have hle : 2 * m' ≤ 2 ^ f.prec := by
    have h8 := (abs_le.1 h4).2
    have : ((2 * m' : Nat) : ℚ) < 2 ^ f.prec + 1 := by linarith
    have : 2 * m' < 2 ^ f.prec + 1 := by exact_mod_cast this
    omega
  have hpow : (2 : ℤ) ^ f.prec = 2 * 2 ^ (f.prec - 1) := by rw [← pow_succ']; congr 1; omega
  have hpow' : (2 : ℤ) ^ (f.prec - 1) = 2 * 2 ^ (f.prec - 2) := by rw [← pow_succ']; congr 1; omega
  rcases hle.eq_or_lt with h8 | h8
  · refine ⟨2 ^ (f.prec - 2), k + 1, ?_, ?_, by omega, .inr ?_⟩
    · rw [h1, h8, ← hpow']
      have : ((2 ^ f.prec : ℕ) : ℚ) = 2 * (2 ^ (f.prec - 1) : ℤ) := by exact_mod_cast hpow
      rw [this, zpow_add₀ (by norm_num), zpow_one]; push_cast; ring
    · rw [← hpow', abs_of_pos (by positivity), hpow]
      have : (0 : ℤ) < 2 ^ (f.prec - 1) := by positivity
      omega
    · rw [← hpow', abs_of_pos (by positivity)]
  · refine ⟨m', k, by rw [h1]; push_cast; rfl, ?_, hk, ?_⟩
    · rw [abs_of_nonneg (by positivity)]; exact_mod_cast h8
    · rcases hc with hc | hc
      · exact .inl hc
      · right
        rw [abs_of_nonneg (by positivity)]
        have h9 := (abs_le.1 h4).1
        have e2 : (2 : ℚ) ^ f.prec = 2 * 2 ^ (f.prec - 1) := by exact_mod_cast hpow
        have h10 : (2 : ℚ) ^ (f.prec - 1) < ((2 * m' : Nat) : ℚ) + 1 := by linarith
        have h11 : 2 ^ (f.prec - 1) < 2 * m' + 1 := by exact_mod_cast h10
        have h12 : 2 ^ (f.prec - 1) ≤ 2 * m' := by omega
        exact_mod_cast h12

theorem even_neg {q : ℚ} (h : f.Even q) : f.Even (-q) := by
  obtain ⟨m, e, h1, h2, h3, h4⟩ := h
  refine ⟨-m, e, by rw [h1]; push_cast; ring, ?_, h3, ?_⟩
  · rw [mul_neg, abs_neg]; exact h2
  · rw [mul_neg, abs_neg]; exact h4

theorem number_neg {q : ℚ} (h : f.Number q) : f.Number (-q) := by
  obtain ⟨m, e, h1, h2, h3⟩ := h
  exact ⟨-m, e, by rw [h1]; push_cast; ring, by rw [abs_neg]; exact h2, h3⟩

theorem rnd_tie [Ok f] {q s : ℚ} (hs : f.Number s) (hne : s ≠ rnd f q) (he : |s - q| = |rnd f q - q|) : f.Even (rnd f q) := by
  rcases lt_trichotomy q 0 with h | h | h
  · have := rnd_tie_pos (f := f) (q := -q) (s := -s) (by linarith) (number_neg hs) (by rw [rnd_neg]; exact fun h => hne (neg_injective h))
      (by rw [rnd_neg, ← neg_sub', ← neg_sub', abs_neg, abs_neg]; exact he)
    rw [rnd_neg] at this
    have := even_neg this
    rwa [neg_neg] at this
  · subst h
    rw [rnd_zero] at hne he
    simp only [sub_zero, abs_zero, abs_eq_zero] at he
    exact absurd he hne
  · exact rnd_tie_pos h hs hne he

/-! ## Overflow -/

/-- The overflow threshold as a rational. -/
def over (f : Fmt) : ℚ := 2 ^ (f.emax + 1) - 2 ^ ((f.emax : ℤ) - f.prec)

theorem over_cast (f : Fmt) : ((over f : ℚ) : ℝ) = f.overflow := by
  unfold over Fmt.overflow; push_cast; rfl

/-- The steps at the top of the range. -/
theorem top_eq (f : Fmt) [Ok f] : (2 : ℚ) ^ (f.emax + 1) = 2 ^ f.prec * 2 ^ ((f.emax : ℤ) + 1 - f.prec) ∧
    (2 : ℚ) ^ ((f.emax : ℤ) - f.prec) = 1 / 2 * 2 ^ ((f.emax : ℤ) + 1 - f.prec) ∧
    big f = (2 ^ f.prec - 1) * 2 ^ ((f.emax : ℤ) + 1 - f.prec) := by
  have hp2 := Ok.prec_emax (f := f)
  refine ⟨?_, ?_, ?_⟩
  · rw [← zpow_natCast, ← zpow_natCast, ← zpow_add₀ (by norm_num)]; congr 1; push_cast; ring
  · rw [show (f.emax : ℤ) + 1 - f.prec = (f.emax - f.prec) + 1 by ring, zpow_add₀ (by norm_num), zpow_one]; ring
  · rw [big_eq]
    have : (1 : ℕ) ≤ 2 ^ f.prec := Nat.one_le_two_pow
    push_cast [this]
    congr 1
    rw [← zpow_natCast]; congr 1; omega

theorem big_lt_over (f : Fmt) [Ok f] : big f < over f := by
  obtain ⟨h1, h2, h3⟩ := top_eq f
  unfold over
  rw [h1, h2, h3]
  have : (0 : ℚ) < 2 ^ ((f.emax : ℤ) + 1 - f.prec) := by positivity
  linarith

/-- The exponent and the significand of the rounding of a number of the top binade. -/
theorem rnd_top [Ok f] {q : ℚ} (h1 : 2 ^ f.emax ≤ q) (h2 : q < 2 ^ (f.emax + 1)) : ∃ m : Nat, rnd f q = m * (2 : ℚ) ^ ((f.emax : ℤ) + 1 - f.prec) ∧
    |(m : ℚ) - q * 2 ^ (-((f.emax : ℤ) + 1 - f.prec))| ≤ 1 / 2 ∧ (|(m : ℚ) - q * 2 ^ (-((f.emax : ℤ) + 1 - f.prec))| = 1 / 2 → m % 2 = 0) := by
  have hp1 := Ok.prec (f := f)
  have hp2 := Ok.prec_emax (f := f)
  have hp3 := Ok.qmin (f := f)
  have hq : 0 < q := lt_of_lt_of_le (by positivity) h1
  obtain ⟨k, m, g1, hk, g3, hc, g4, g5⟩ := rnd_shape f hq
  have lo : (2 : ℚ) ^ (f.emax : ℤ) < 2 ^ ((f.prec : ℤ) + k) := by
    calc (2 : ℚ) ^ (f.emax : ℤ) ≤ q := by rw [zpow_natCast]; exact h1
      _ = q * 2 ^ (-k) * 2 ^ k := (mul_zpow_cancel _ _).symm
      _ < 2 ^ f.prec * 2 ^ k := by gcongr
      _ = _ := by rw [zpow_add₀ (by norm_num), zpow_natCast]
  rw [zpow_lt_zpow_iff_right₀ (by norm_num)] at lo
  have hk' : k = (f.emax : ℤ) + 1 - f.prec := by
    rcases hc with hc | hc
    · omega
    · have hi : (2 : ℚ) ^ ((f.prec : ℤ) + k) < 2 ^ ((f.emax : ℤ) + 2) := by
        calc (2 : ℚ) ^ ((f.prec : ℤ) + k) = 2 ^ f.prec * 2 ^ k := by rw [zpow_add₀ (by norm_num), zpow_natCast]
          _ ≤ 2 * (q * 2 ^ (-k)) * 2 ^ k := by gcongr
          _ = 2 * q := by rw [mul_assoc, mul_zpow_cancel]
          _ < 2 * 2 ^ (f.emax + 1) := by gcongr
          _ = 2 ^ ((f.emax : ℤ) + 2) := by
            rw [← pow_succ', ← zpow_natCast]; congr 1
      rw [zpow_lt_zpow_iff_right₀ (by norm_num)] at hi
      omega
  rw [hk'] at g1 g4 g5
  exact ⟨m, g1, g4, g5⟩

theorem rnd_not_over [Ok f] {q : ℚ} (h0 : 0 ≤ q) (h : q < over f) : rnd f q ≤ big f := by
  obtain ⟨t1, t2, t3⟩ := top_eq f
  have hp : (0 : ℚ) < 2 ^ ((f.emax : ℤ) + 1 - f.prec) := by positivity
  rcases le_or_gt q (big f) with hb | hb
  · exact (le_abs_self _).trans (rnd_le_big f (by rw [abs_of_nonneg h0]; exact hb))
  · obtain ⟨m, g1, g2, -⟩ := rnd_top (f := f) ((big_ge f).trans hb.le) (h.trans (by unfold over; linarith [(by positivity : (0 : ℚ) < 2 ^ ((f.emax : ℤ) - f.prec))]))
    rw [g1, t3]
    have hm : (m : ℚ) < 2 ^ f.prec := by
      have h1 := (abs_le.1 g2).2
      have h2 : q * 2 ^ (-((f.emax : ℤ) + 1 - f.prec)) < 2 ^ f.prec - 1 / 2 := by
        rw [zpow_neg, ← div_eq_mul_inv, div_lt_iff₀ hp]
        unfold over at h
        rw [t1, t2] at h
        linarith
      linarith
    have hm' : (m : ℚ) ≤ 2 ^ f.prec - 1 := by
      have h1 : m < 2 ^ f.prec := by exact_mod_cast hm
      have h2 : m + 1 ≤ 2 ^ f.prec := h1
      have h3 : (m : ℚ) + 1 ≤ 2 ^ f.prec := by exact_mod_cast h2
      linarith
    gcongr

theorem rnd_over [Ok f] {q : ℚ} (h : over f ≤ q) : big f < rnd f q := by
  have hp1 := Ok.prec (f := f)
  obtain ⟨t1, t2, t3⟩ := top_eq f
  have hp : (0 : ℚ) < 2 ^ ((f.emax : ℤ) + 1 - f.prec) := by positivity
  refine lt_of_lt_of_le ?_ (rnd_mono f (by omega) h)
  have hlt : over f < 2 ^ (f.emax + 1) := by unfold over; linarith [(by positivity : (0 : ℚ) < 2 ^ ((f.emax : ℤ) - f.prec))]
  obtain ⟨m, g1, g2, g3⟩ := rnd_top (f := f) ((big_ge f).trans (big_lt_over f).le) hlt
  have hx : over f * 2 ^ (-((f.emax : ℤ) + 1 - f.prec)) = 2 ^ f.prec - 1 / 2 := by
    rw [zpow_neg, ← div_eq_mul_inv, div_eq_iff hp.ne']
    unfold over
    rw [t1, t2]; ring
  rw [hx] at g2 g3
  have hpow : 2 ^ f.prec = 2 * 2 ^ (f.prec - 1) := by rw [← pow_succ']; congr 1; omega
  have hm : 2 ^ f.prec ≤ m := by
    have h1 := (abs_le.1 g2).1
    have h2 : (2 : ℚ) ^ f.prec ≤ (m : ℚ) + 1 := by linarith
    have h3 : 2 ^ f.prec ≤ m + 1 := by exact_mod_cast h2
    by_contra hcon
    have h4 : m + 1 = 2 ^ f.prec := by omega
    have h5 : (m : ℚ) + 1 = 2 ^ f.prec := by exact_mod_cast h4
    have := g3 (by
      rw [show (m : ℚ) - (2 ^ f.prec - 1 / 2) = -(1 / 2) by linarith, abs_neg]; norm_num)
    omega
  rw [g1, t3]
  have hm' : (2 : ℚ) ^ f.prec ≤ m := by exact_mod_cast hm
  gcongr
  linarith

/-! ## The definition of IEEE 754 is met -/

theorem abs_cast_sub (a b : ℚ) : |(a : ℝ) - (b : ℝ)| = ((|a - b| : ℚ) : ℝ) := by push_cast; rfl

/-- Rounding with overflow is as IEEE 754 demands. -/
theorem mk_roundsTo (f : Fmt) [Ok f] (q : ℚ) : Spec.RoundsTo f (q : ℝ) (mk f q) := by
  have hp := Ok.prec (f := f)
  have neg : ∀ {q : ℚ}, rnd f (-q) = -rnd f q := fun {q} => rnd_neg f q
  unfold mk
  simp only
  by_cases h1 : big f < rnd f q
  · rw [if_pos h1]
    show f.overflow ≤ if false = true then _ else _
    rw [if_neg (by decide), ← over_cast]
    by_contra hcon
    rw [not_le] at hcon
    have hlt : q < over f := by exact_mod_cast hcon
    rcases le_total 0 q with h0 | h0
    · exact absurd (rnd_not_over h0 hlt) (not_le.2 h1)
    · have := rnd_nonneg f (q := -q) (by linarith)
      rw [neg] at this
      have := big_ge f
      have : (0 : ℚ) < 2 ^ f.emax := by positivity
      linarith
  rw [if_neg h1]
  by_cases h2 : rnd f q < -big f
  · rw [if_pos h2]
    show f.overflow ≤ if true = true then _ else _
    rw [if_pos rfl, ← over_cast]
    by_contra hcon
    rw [not_le] at hcon
    have hlt : -q < over f := by exact_mod_cast hcon
    rcases le_total q 0 with h0 | h0
    · have := rnd_not_over (f := f) (by linarith) hlt
      rw [neg] at this
      linarith
    · have := rnd_nonneg f h0
      have := big_ge f
      have : (0 : ℚ) < 2 ^ f.emax := by positivity
      linarith
  rw [if_neg h2]
  refine ⟨?_, number_iff.2 ⟨rnd_idem f (by omega) q, abs_le.2 ⟨not_lt.1 h2, not_lt.1 h1⟩⟩, ?_, ?_⟩
  · rw [← over_cast]
    by_contra hcon
    have hge : over f ≤ |q| := by
      have : ((over f : ℚ) : ℝ) ≤ ((|q| : ℚ) : ℝ) := by push_cast; exact not_lt.1 hcon
      exact_mod_cast this
    rcases abs_cases q with ⟨a1, a2⟩ | ⟨a1, a2⟩
    · rw [a1] at hge; exact h1 (rnd_over hge)
    · rw [a1] at hge
      have := rnd_over (f := f) hge
      rw [neg] at this
      exact h2 (by linarith)
  · intro s hs
    rw [abs_cast_sub, abs_cast_sub]
    exact_mod_cast rnd_nearest f (by omega) q s (rnd_of_number hs)
  · intro s hs hne he
    rw [abs_cast_sub, abs_cast_sub] at he
    exact rnd_tie hs hne (by exact_mod_cast he)

/-! ## The definition determines the result -/

/-- The next number above a nonnegative one with an even significand is not even. -/
theorem even_adjacent [Ok f] {r s : ℚ} (hr : f.Even r) (hs : f.Even s) (hsn : f.Number s) (h0 : 0 ≤ r) (hlt : r < s)
    (hno : ∀ x, f.Number x → r < x → s ≤ x) : False := by
  have hp := Ok.prec (f := f)
  obtain ⟨m, e, h1, h2, h3, h4⟩ := hr
  obtain ⟨m', e', g1, g2, g3, g4⟩ := hs
  have hpe : (0 : ℚ) < 2 ^ e := by positivity
  have hpe' : (0 : ℚ) < 2 ^ e' := by positivity
  have hm0 : 0 ≤ m := by
    rw [h1] at h0
    have : (0 : ℚ) ≤ ((2 * m : ℤ) : ℚ) := nonneg_of_mul_nonneg_left h0 hpe
    have : (0 : ℤ) ≤ 2 * m := by exact_mod_cast this
    omega
  have hm0' : 0 < m' := by
    rw [g1] at hlt
    have : (0 : ℚ) < ((2 * m' : ℤ) : ℚ) := pos_of_mul_pos_left (h0.trans_lt hlt) hpe'.le
    have : (0 : ℤ) < 2 * m' := by exact_mod_cast this
    omega
  rw [abs_of_nonneg (by omega)] at h2 h4 g2 g4
  have hpow : (2 : ℤ) ^ f.prec = 2 * 2 ^ (f.prec - 1) := by rw [← pow_succ']; congr 1; omega
  -- the exponents
  have hsle : s ≤ ((2 * m + 1 : ℤ) : ℚ) * 2 ^ e ∨ (f.emax : ℤ) + 1 < e + f.prec := by
    by_cases hov : e + f.prec ≤ (f.emax : ℤ) + 1
    · left
      refine hno _ ⟨2 * m + 1, e, rfl, ?_, h3, hov⟩ ?_
      · rw [abs_of_nonneg (by omega)]; omega
      · rw [h1]; gcongr; omega
    · right; omega
  have key : s ≤ ((2 * m + 1 : ℤ) : ℚ) * 2 ^ e := by
    rcases hsle with h | h
    · exact h
    · -- `r` would be above the largest number
      exfalso
      rcases h4 with h4 | h4
      · have := Ok.qmin (f := f); omega
      · have hb := (le_abs_self s).trans (number_le hsn)
        have h5 : (2 : ℚ) ^ (f.emax + 1) ≤ r := by
          calc (2 : ℚ) ^ (f.emax + 1) = 2 ^ ((f.emax : ℤ) + 1) := by rw [← zpow_natCast]; push_cast; rfl
            _ ≤ 2 ^ (((f.prec - 1 : ℕ) : ℤ) + e) := zpow_le_zpow_right₀ (by norm_num) (by omega)
            _ = ((2 ^ (f.prec - 1) : ℤ) : ℚ) * 2 ^ e := by rw [zpow_add₀ (by norm_num), zpow_natCast]; push_cast; rfl
            _ ≤ ((2 * m : ℤ) : ℚ) * 2 ^ e := by gcongr
            _ = r := h1.symm
        have h6 := big_lt_over f
        have h7 : over f ≤ 2 ^ (f.emax + 1) := by unfold over; linarith [(by positivity : (0 : ℚ) < 2 ^ ((f.emax : ℤ) - f.prec))]
        linarith
  -- compare the two exponents
  rcases le_or_gt e e' with hee | hee
  · obtain ⟨i, hi⟩ := Int.eq_ofNat_of_zero_le (sub_nonneg.2 hee)
    have e1 : s = ((2 * (m' * 2 ^ i) : ℤ) : ℚ) * 2 ^ e := by
      rw [g1, show e' = (i : ℤ) + e by omega, zpow_add₀ (by norm_num), zpow_natCast]; push_cast; ring
    rw [e1] at key hlt
    rw [h1] at hlt
    have k1 := le_of_mul_le_mul_right key hpe
    have k2 := lt_of_mul_lt_mul_right hlt hpe.le
    have k1 : 2 * (m' * 2 ^ i) ≤ 2 * m + 1 := by exact_mod_cast k1
    have k2 : 2 * m < 2 * (m' * 2 ^ i) := by exact_mod_cast k2
    omega
  · obtain ⟨i, hi⟩ := Int.eq_ofNat_of_zero_le (sub_nonneg.2 hee.le)
    have h5 : 2 ^ (f.prec - 1) ≤ 2 * m := h4.resolve_left (by omega)
    have e1 : r = ((2 * (m * 2 ^ i) : ℤ) : ℚ) * 2 ^ e' := by
      rw [h1, show e = (i : ℤ) + e' by omega, zpow_add₀ (by norm_num), zpow_natCast]; push_cast; ring
    rw [e1, g1] at hlt
    have k2 := lt_of_mul_lt_mul_right hlt hpe'.le
    have k2 : 2 * (m * 2 ^ i) < 2 * m' := by exact_mod_cast k2
    have h6 : (2 : ℤ) ≤ 2 ^ i := by
      have : 1 ≤ i := by omega
      calc (2 : ℤ) = 2 ^ 1 := by norm_num
        _ ≤ 2 ^ i := pow_le_pow_right₀ (by norm_num) this
    nlinarith

/-- Two different nearest numbers cannot both have even significands. -/
theorem nearest_even_unique [Ok f] {t : ℝ} {r s : ℚ} (hr : f.Number r) (hs : f.Number s) (her : f.Even r) (hes : f.Even s) (hlt : r < s)
    (nr : ∀ x, f.Number x → |(r : ℝ) - t| ≤ |(x : ℝ) - t|) (ns : ∀ x, f.Number x → |(s : ℝ) - t| ≤ |(x : ℝ) - t|) : False := by
  have hlt' : (r : ℝ) < s := by exact_mod_cast hlt
  -- no number strictly between
  have hno : ∀ x : ℚ, f.Number x → r < x → s ≤ x := by
    intro x hx hrx
    by_contra hcon
    rw [not_le] at hcon
    have h1 : (r : ℝ) < x := by exact_mod_cast hrx
    have h2 : (x : ℝ) < s := by exact_mod_cast hcon
    have a1 := nr x hx
    have a2 := ns x hx
    rcases le_total t x with h | h
    · rw [abs_of_nonneg (by linarith : 0 ≤ (x : ℝ) - t), abs_of_nonneg (by linarith : 0 ≤ (s : ℝ) - t)] at a2
      linarith
    · rw [abs_of_nonpos (by linarith : (x : ℝ) - t ≤ 0), abs_of_nonpos (by linarith : (r : ℝ) - t ≤ 0)] at a1
      linarith
  have zero : f.Number 0 := ⟨0, 0, by simp, by positivity, by omega, by have := Ok.prec_emax (f := f); omega⟩
  rcases le_or_gt 0 r with h0 | h0
  · exact even_adjacent her hes hs h0 hlt hno
  · have hs0 : s ≤ 0 := hno 0 zero h0
    refine even_adjacent (even_neg hes) (even_neg her) (number_neg hr) (by linarith) (by linarith) fun x hx hsx => ?_
    by_contra hcon
    rw [not_le] at hcon
    have := hno (-x) (number_neg hx) (by linarith)
    linarith

/-- **The definition determines the result.** -/
theorem roundsTo_unique [Ok f] {t : ℝ} {x y : Fl f} (hx : Spec.RoundsTo f t x) (hy : Spec.RoundsTo f t y) : x = y := by
  have hov : (0 : ℝ) < f.overflow := by
    rw [← over_cast]
    have h1 := big_lt_over f
    have h2 := big_ge f
    have h3 : (0 : ℚ) < 2 ^ f.emax := by positivity
    exact_mod_cast (by linarith : (0 : ℚ) < over f)
  cases x with
  | nan => exact absurd hx id
  | inf b =>
    cases y with
    | nan => exact absurd hy id
    | inf b' =>
      simp only [Spec.RoundsTo] at hx hy
      cases b <;> cases b' <;> simp at hx hy ⊢ <;> linarith
    | fin s =>
      simp only [Spec.RoundsTo] at hx hy
      have := abs_lt.1 hy.1
      cases b <;> simp at hx <;> linarith [this.1, this.2]
  | fin r =>
    cases y with
    | nan => exact absurd hy id
    | inf b' =>
      simp only [Spec.RoundsTo] at hx hy
      have := abs_lt.1 hx.1
      cases b' <;> simp at hy <;> linarith [this.1, this.2]
    | fin s =>
      obtain ⟨-, hr, nr, er⟩ := hx
      obtain ⟨-, hs, ns, es⟩ := hy
      by_contra hne
      have hrs : s ≠ r := fun h => hne (by rw [h])
      have he : |(s : ℝ) - t| = |(r : ℝ) - t| := le_antisymm (ns r hr) (nr s hs)
      have her := er s hs hrs he
      have hes := es r hr hrs.symm he.symm
      rcases lt_or_gt_of_ne hrs with h | h
      · exact nearest_even_unique hs hr hes her h ns nr
      · exact nearest_even_unique hr hs her hes h nr ns

/-! ## The square root -/

theorem sqrt_roundsTo [Ok f] {q : ℚ} (hq : 0 ≤ q) (hn : f.Number q) : Spec.RoundsTo f (√(q : ℝ)) (sqrt (.fin q)) := by
  have hp := Ok.prec (f := f)
  rcases hq.eq_or_lt with rfl | hq
  · have e0 : sqrt (.fin 0 : Fl f) = .fin 0 := by simp [sqrt]
    rw [e0]
    have := mk_roundsTo f 0
    have e : mk f 0 = .fin 0 := by
      have := mk_of_le f (q := 0) (by rw [abs_zero]; exact (by positivity : (0 : ℚ) ≤ 2 ^ f.emax).trans (big_ge f))
      rw [this, rnd_zero]
    rw [e] at this
    simpa using this
  by_cases hrat : ∃ t : ℚ, √(q : ℝ) = t
  · obtain ⟨t, ht⟩ := hrat
    have ht0 : (0 : ℝ) ≤ t := by rw [← ht]; exact Real.sqrt_nonneg _
    have htt : q = t * t := by
      have := Real.mul_self_sqrt (show (0 : ℝ) ≤ q by exact_mod_cast hq.le)
      rw [ht] at this
      exact_mod_cast this.symm
    have hnum : 0 < q.num := Rat.num_pos.2 hq
    have hqr : (q : ℝ) = ((q.num.toNat : ℕ) : ℝ) / (q.den : ℕ) := by
      rw [Rat.cast_def]
      congr 1
      have : ((q.num.toNat : ℕ) : ℤ) = q.num := by omega
      exact_mod_cast this.symm
    have hden : q.den = t.den * t.den := by rw [htt, Rat.mul_self_den]
    -- the denominators are powers of two
    obtain ⟨i, hi⟩ : ∃ i, t.den = 2 ^ i := by
      obtain ⟨z, hz⟩ := mult_of_rnd (rnd_of_number hn)
      have e : q = Rat.divInt z (2 ^ f.qmin) := by
        rw [hz, Rat.divInt_eq_div, zpow_neg, zpow_natCast]
        push_cast
        rw [div_eq_mul_inv]
      have hdvd : ((q.den : ℕ) : ℤ) ∣ 2 ^ f.qmin := by rw [e]; exact Rat.den_dvd _ _
      have hdvd : q.den ∣ 2 ^ f.qmin := by exact_mod_cast hdvd
      have : t.den ∣ 2 ^ f.qmin := (Dvd.intro _ hden.symm).trans hdvd
      obtain ⟨i, -, h⟩ := (Nat.dvd_prime_pow Nat.prime_two).1 this
      exact ⟨i, h⟩
    have hlog : Nat.log2 q.den = i + i := by rw [hden, hi, ← pow_add, Nat.log2_two_pow]
    have htc : t = (t.num : ℚ) * 2 ^ (-(i : ℤ)) := by
      conv_lhs => rw [← Rat.num_div_den t]
      rw [hi, zpow_neg, zpow_natCast, div_eq_mul_inv]; push_cast; rfl
    have cmp := sqrtRat_cmp' f (n := q.num.toNat) q.den_pos (k := -(i : ℤ)) (by unfold sqrtBits; rw [hlog]; push_cast; omega) t.num
    rw [← hqr, ht] at cmp
    have htc' : (t : ℝ) = (t.num : ℝ) * 2 ^ (-(i : ℤ)) := by
      have := congrArg (Rat.cast : ℚ → ℝ) htc
      push_cast at this ⊢
      exact this
    have hs : sqrtRat f q.num.toNat q.den = t := by
      rw [← htc, ← htc'] at cmp
      exact le_antisymm (cmp.2.2 le_rfl) (cmp.1.2 le_rfl)
    show Spec.RoundsTo f _ (if q < 0 then _ else if q = 0 then _ else mk f (sqrtRat f q.num.toNat q.den))
    rw [if_neg (by linarith), if_neg hq.ne', hs, ht]
    exact mk_roundsTo f t
  · obtain ⟨r, h1, h2, h3⟩ := sqrt_nearest hq hn
    rw [h1]
    refine ⟨?_, h2, h3, ?_⟩
    · rw [abs_of_nonneg (Real.sqrt_nonneg _), ← over_cast]
      have hb : q ≤ big f := (le_abs_self q).trans (number_le hn)
      have h5 := big_lt_over f
      have h6 : (1 : ℚ) ≤ big f := (one_le_pow₀ (by norm_num)).trans (big_ge f)
      have h7 : √(q : ℝ) ≤ ((big f : ℚ) : ℝ) := by
        rw [Real.sqrt_le_left (by exact_mod_cast (by linarith : (0 : ℚ) ≤ big f))]
        exact_mod_cast (by nlinarith : q ≤ big f ^ 2)
      exact h7.trans_lt (by exact_mod_cast h5)
    · intro s hs hne he
      exfalso
      apply hrat
      have hne' : (s : ℝ) ≠ r := by exact_mod_cast hne
      refine ⟨(r + s) / 2, ?_⟩
      push_cast
      rcases abs_eq_abs.1 he with h | h
      · exact absurd (by linarith) hne'
      · linarith

end Fl
end CDT

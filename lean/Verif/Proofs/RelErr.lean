import Verif.Props.Axis

/-!
# Accumulated errors of the operations on floating point vectors in space
-/

set_option linter.unusedSectionVars false

namespace CDT
open FloatOps

/-- Relative error of one operation: half a unit in the last place. -/
noncomputable def Fmt.ulp (f : Fmt) : ℝ := 1 / 2 ^ f.prec
/-- Absolute error of one operation near 0: half of the least positive number. -/
noncomputable def Fmt.tin (f : Fmt) : ℝ := 1 / 2 * 2 ^ (-(f.qmin : ℤ))

/-- `y` is a number at distance at most `α ulp c + τ` from `x`, and `|x| ≤ c`. -/
def Ap (f : Fmt) (α c τ : ℝ) (y : Fl f) (x : ℝ) : Prop :=
  ∃ q : ℚ, y = .fin q ∧ f.Number q ∧ |x| ≤ c ∧ |(q : ℝ) - x| ≤ α * f.ulp * c + τ

section
variable {f : Fmt} [Fl.Ok f]

theorem ulp_pos : 0 < f.ulp := by unfold Fmt.ulp; positivity
theorem tin_pos : 0 < f.tin := by unfold Fmt.tin; positivity

theorem ulp_le : f.ulp ≤ 1 / 131072 := by
  unfold Fmt.ulp
  have h : (2 : ℝ) ^ 17 ≤ 2 ^ f.prec := pow_le_pow_right₀ (by norm_num) Fl.Ok.prec
  apply one_div_le_one_div_of_le (by norm_num)
  calc (131072 : ℝ) = 2 ^ 17 := by norm_num
    _ ≤ _ := h

theorem tin_le : f.tin ≤ f.ulp / 256 := by
  unfold Fmt.tin Fmt.ulp
  have h : (2 : ℝ) ^ (-(f.qmin : ℤ)) ≤ 2 ^ (-((f.prec + 7 : ℕ) : ℤ)) :=
    zpow_le_zpow_right₀ (by norm_num) (by have := Fl.Ok.qmin (f := f); omega)
  have e : (2 : ℝ) ^ (-((f.prec + 7 : ℕ) : ℤ)) = 1 / 2 ^ f.prec / 128 := by
    rw [zpow_neg, zpow_natCast, pow_add]; field_simp; norm_num
  rw [e] at h
  linarith

/-- Rounding, over the reals. -/
theorem mk_err {q : ℚ} (h : |(q : ℝ)| ≤ (Fl.big f : ℚ)) :
    ∃ r : ℚ, Fl.mk f q = .fin r ∧ f.Number r ∧ |(r : ℝ) - q| ≤ f.ulp * |(q : ℝ)| + f.tin := by
  have h' : |q| ≤ Fl.big f := by exact_mod_cast h
  have hf : 1 ≤ f.prec := by have := Fl.Ok.prec (f := f); omega
  refine ⟨_, Fl.mk_of_le f h', Fl.number_iff.2 ⟨Fl.rnd_idem f hf q, Fl.rnd_le_big f h'⟩, ?_⟩
  have := (Rat.cast_le (K := ℝ)).2 (Fl.rnd_err f q)
  unfold Fmt.ulp Fmt.tin
  push_cast at this
  exact this

/-- Rounding of sums and differences of numbers: the error is relative. -/
theorem mk_err_mult {q : ℚ} (hm : Fl.Mult f q) (h : |(q : ℝ)| ≤ (Fl.big f : ℚ)) :
    ∃ r : ℚ, Fl.mk f q = .fin r ∧ f.Number r ∧ |(r : ℝ) - q| ≤ f.ulp * |(q : ℝ)| := by
  have h' : |q| ≤ Fl.big f := by exact_mod_cast h
  have hf : 1 ≤ f.prec := by have := Fl.Ok.prec (f := f); omega
  refine ⟨_, Fl.mk_of_le f h', Fl.number_iff.2 ⟨Fl.rnd_idem f hf q, Fl.rnd_le_big f h'⟩, ?_⟩
  obtain ⟨z, rfl⟩ := hm
  have := (Rat.cast_le (K := ℝ)).2 (Fl.rnd_err_multiple f z)
  unfold Fmt.ulp
  push_cast at this ⊢
  exact this

theorem mult_number {q : ℚ} (h : f.Number q) : Fl.Mult f q := Fl.mult_of_rnd (Fl.rnd_of_number h)

theorem mult_add {a b : ℚ} (ha : Fl.Mult f a) (hb : Fl.Mult f b) : Fl.Mult f (a + b) := by
  obtain ⟨x, rfl⟩ := ha; obtain ⟨y, rfl⟩ := hb
  exact ⟨x + y, by push_cast; ring⟩

theorem Ap.mono {α α' c c' τ τ' : ℝ} {y : Fl f} {x : ℝ} (h : Ap f α c τ y x) (h0 : 0 ≤ α) (ha : α ≤ α') (hc : c ≤ c') (ht : τ ≤ τ') :
    Ap f α' c' τ' y x := by
  obtain ⟨q, h1, h2, h3, h4⟩ := h
  have hu := ulp_pos (f := f)
  have hc0 : 0 ≤ c := (abs_nonneg x).trans h3
  refine ⟨q, h1, h2, h3.trans hc, h4.trans ?_⟩
  have : α * f.ulp * c ≤ α' * f.ulp * c' := by
    have := h0.trans ha
    gcongr
  linarith

theorem Ap.exact {q : ℚ} (h : f.Number q) : Ap f 0 |(q : ℝ)| 0 (.fin q) q := ⟨q, rfl, h, le_rfl, by simp⟩

theorem Ap.neg {α c τ : ℝ} {y : Fl f} {x : ℝ} (h : Ap f α c τ y x) : Ap f α c τ (FloatOps.neg y) (-x) := by
  obtain ⟨q, rfl, h2, h3, h4⟩ := h
  refine ⟨-q, rfl, number_neg h2, by rwa [abs_neg], ?_⟩
  rw [Rat.cast_neg, ← neg_sub', abs_neg]; exact h4

theorem Ap.add {α c1 τ1 c2 τ2 : ℝ} {y1 y2 : Fl f} {x1 x2 : ℝ} (h1 : Ap f α c1 τ1 y1 x1) (h2 : Ap f α c2 τ2 y2 x2)
    (hb : (1 + α * f.ulp) * (c1 + c2) + (τ1 + τ2) ≤ (Fl.big f : ℚ)) :
    Ap f (α + 1 + α * f.ulp) (c1 + c2) ((1 + f.ulp) * (τ1 + τ2)) (FloatOps.add y1 y2) (x1 + x2) := by
  obtain ⟨q1, rfl, n1, a1, e1⟩ := h1
  obtain ⟨q2, rfl, n2, a2, e2⟩ := h2
  have hu := ulp_pos (f := f)
  have k0 : |((q1 : ℝ) + q2) - (x1 + x2)| ≤ α * f.ulp * (c1 + c2) + (τ1 + τ2) := by
    have e : ((q1 : ℝ) + q2) - (x1 + x2) = (q1 - x1) + (q2 - x2) := by ring
    rw [e]
    refine (abs_add_le _ _).trans ?_
    linarith
  have k1 : |x1 + x2| ≤ c1 + c2 := (abs_add_le _ _).trans (add_le_add a1 a2)
  have k2 : |((q1 + q2 : ℚ) : ℝ)| ≤ (1 + α * f.ulp) * (c1 + c2) + (τ1 + τ2) := by
    push_cast
    have e : (q1 : ℝ) + q2 = (((q1 : ℝ) + q2) - (x1 + x2)) + (x1 + x2) := by ring
    rw [e]
    refine (abs_add_le _ _).trans ?_
    linarith
  obtain ⟨r, hr, hn, he⟩ := mk_err_mult (f := f) (mult_add (mult_number n1) (mult_number n2)) (k2.trans hb)
  refine ⟨r, hr, hn, k1, ?_⟩
  have e : (r : ℝ) - (x1 + x2) = (r - ((q1 + q2 : ℚ) : ℝ)) + (((q1 : ℝ) + q2) - (x1 + x2)) := by push_cast; ring
  rw [e]
  refine (abs_add_le _ _).trans ?_
  have := mul_le_mul_of_nonneg_left k2 hu.le
  nlinarith

theorem Ap.sub {α c1 τ1 c2 τ2 : ℝ} {y1 y2 : Fl f} {x1 x2 : ℝ} (h1 : Ap f α c1 τ1 y1 x1) (h2 : Ap f α c2 τ2 y2 x2)
    (hb : (1 + α * f.ulp) * (c1 + c2) + (τ1 + τ2) ≤ (Fl.big f : ℚ)) :
    Ap f (α + 1 + α * f.ulp) (c1 + c2) ((1 + f.ulp) * (τ1 + τ2)) (FloatOps.sub y1 y2) (x1 - x2) := by
  have h := h1.add h2.neg hb
  obtain ⟨q1, rfl, n1, a1, e1⟩ := h1
  obtain ⟨q2, rfl, n2, a2, e2⟩ := h2
  rw [subFin]
  rw [negFin, addFin, ← sub_eq_add_neg, ← sub_eq_add_neg] at h
  exact h

/-- Difference of two numbers. -/
theorem Ap.sub_exact {a b : ℚ} (ha : f.Number a) (hb : f.Number b) (h : |((a - b : ℚ) : ℝ)| ≤ (Fl.big f : ℚ)) :
    Ap f 1 |((a - b : ℚ) : ℝ)| 0 (FloatOps.sub (.fin a : Fl f) (.fin b)) ((a - b : ℚ) : ℝ) := by
  have hm : Fl.Mult f (a - b) := by
    rw [sub_eq_add_neg]; exact mult_add (mult_number ha) (mult_number (number_neg hb))
  obtain ⟨r, hr, hn, he⟩ := mk_err_mult (f := f) hm h
  exact ⟨r, hr, hn, le_rfl, by linarith⟩

/-- Product of two values with relative errors. -/
theorem Ap.mul {α1 c1 α2 c2 : ℝ} {y1 y2 : Fl f} {x1 x2 : ℝ} (h1 : Ap f α1 c1 0 y1 x1) (h2 : Ap f α2 c2 0 y2 x2)
    (h01 : 0 ≤ α1) (hb : (1 + α1 * f.ulp) * (1 + α2 * f.ulp) * (c1 * c2) ≤ (Fl.big f : ℚ)) :
    Ap f ((α1 + α2 + α1 * α2 * f.ulp) * (1 + f.ulp) + 1) (c1 * c2) f.tin (FloatOps.mul y1 y2) (x1 * x2) := by
  obtain ⟨q1, rfl, n1, a1, e1⟩ := h1
  obtain ⟨q2, rfl, n2, a2, e2⟩ := h2
  have hu := ulp_pos (f := f)
  have hc1 : 0 ≤ c1 := (abs_nonneg _).trans a1
  have hc2 : 0 ≤ c2 := (abs_nonneg _).trans a2
  have k1 : |x1 * x2| ≤ c1 * c2 := by rw [abs_mul]; gcongr
  have b1 : |(q1 : ℝ)| ≤ (1 + α1 * f.ulp) * c1 := by
    have e : (q1 : ℝ) = (q1 - x1) + x1 := by ring
    rw [e]; refine (abs_add_le _ _).trans ?_; linarith
  have b2 : |(q2 : ℝ)| ≤ (1 + α2 * f.ulp) * c2 := by
    have e : (q2 : ℝ) = (q2 - x2) + x2 := by ring
    rw [e]; refine (abs_add_le _ _).trans ?_; linarith
  have k0 : |(q1 : ℝ) * q2 - x1 * x2| ≤ (α1 + α2 + α1 * α2 * f.ulp) * f.ulp * (c1 * c2) := by
    have e : (q1 : ℝ) * q2 - x1 * x2 = q1 * (q2 - x2) + (q1 - x1) * x2 := by ring
    rw [e]
    refine (abs_add_le _ _).trans ?_
    rw [abs_mul, abs_mul]
    have m1 : |(q1 : ℝ)| * |(q2 : ℝ) - x2| ≤ ((1 + α1 * f.ulp) * c1) * (α2 * f.ulp * c2) := by
      have : |(q2 : ℝ) - x2| ≤ α2 * f.ulp * c2 := by linarith
      gcongr
    have m2 : |(q1 : ℝ) - x1| * |x2| ≤ (α1 * f.ulp * c1) * c2 := by
      have : |(q1 : ℝ) - x1| ≤ α1 * f.ulp * c1 := by linarith
      gcongr
    calc _ ≤ ((1 + α1 * f.ulp) * c1) * (α2 * f.ulp * c2) + (α1 * f.ulp * c1) * c2 := add_le_add m1 m2
      _ = _ := by ring
  have k2 : |((q1 * q2 : ℚ) : ℝ)| ≤ (1 + α1 * f.ulp) * (1 + α2 * f.ulp) * (c1 * c2) := by
    push_cast
    rw [abs_mul]
    calc |(q1 : ℝ)| * |(q2 : ℝ)| ≤ ((1 + α1 * f.ulp) * c1) * ((1 + α2 * f.ulp) * c2) := by gcongr
      _ = _ := by ring
  obtain ⟨r, hr, hn, he⟩ := mk_err (f := f) (k2.trans hb)
  refine ⟨r, hr, hn, k1, ?_⟩
  have e : (r : ℝ) - x1 * x2 = (r - ((q1 * q2 : ℚ) : ℝ)) + ((q1 : ℝ) * q2 - x1 * x2) := by push_cast; ring
  rw [e]
  refine (abs_add_le _ _).trans ?_
  have := mul_le_mul_of_nonneg_left k2 hu.le
  calc _ ≤ f.ulp * ((1 + α1 * f.ulp) * (1 + α2 * f.ulp) * (c1 * c2)) + f.tin + (α1 + α2 + α1 * α2 * f.ulp) * f.ulp * (c1 * c2) := by
        linarith
    _ = _ := by ring

/-- Product of a number and a value with an error. -/
theorem Ap.mul_exact {α c τ : ℝ} {a : ℚ} {y : Fl f} {x : ℝ} (h : Ap f α c τ y x)
    (hb : |(a : ℝ)| * ((1 + α * f.ulp) * c + τ) ≤ (Fl.big f : ℚ)) :
    Ap f (α + 1 + α * f.ulp) (|(a : ℝ)| * c) ((1 + f.ulp) * (|(a : ℝ)| * τ) + f.tin) (FloatOps.mul (.fin a) y) (a * x) := by
  obtain ⟨q, rfl, n, a2, e2⟩ := h
  have hu := ulp_pos (f := f)
  have k1 : |(a : ℝ) * x| ≤ |(a : ℝ)| * c := by rw [abs_mul]; gcongr
  have b2 : |(q : ℝ)| ≤ (1 + α * f.ulp) * c + τ := by
    have e : (q : ℝ) = (q - x) + x := by ring
    rw [e]; refine (abs_add_le _ _).trans ?_; linarith
  have k0 : |(a : ℝ) * q - a * x| ≤ |(a : ℝ)| * (α * f.ulp * c + τ) := by
    rw [← mul_sub, abs_mul]; gcongr
  have k2 : |((a * q : ℚ) : ℝ)| ≤ |(a : ℝ)| * ((1 + α * f.ulp) * c + τ) := by
    push_cast
    rw [abs_mul]
    gcongr
  obtain ⟨r, hr, hn, he⟩ := mk_err (f := f) (k2.trans hb)
  refine ⟨r, hr, hn, k1, ?_⟩
  have e : (r : ℝ) - a * x = (r - ((a * q : ℚ) : ℝ)) + ((a : ℝ) * q - a * x) := by push_cast; ring
  rw [e]
  refine (abs_add_le _ _).trans ?_
  have := mul_le_mul_of_nonneg_left k2 hu.le
  calc _ ≤ f.ulp * (|(a : ℝ)| * ((1 + α * f.ulp) * c + τ)) + f.tin + |(a : ℝ)| * (α * f.ulp * c + τ) := by linarith
    _ = _ := by ring

theorem mul_comm_fin (a : ℚ) {y : Fl f} {q : ℚ} (h : y = .fin q) : FloatOps.mul y (.fin a) = FloatOps.mul (.fin a) y := by
  subst h; rw [mulFin, mulFin, mul_comm]

theorem Ap.mul_exact' {α c τ : ℝ} {a : ℚ} {y : Fl f} {x : ℝ} (h : Ap f α c τ y x)
    (hb : |(a : ℝ)| * ((1 + α * f.ulp) * c + τ) ≤ (Fl.big f : ℚ)) :
    Ap f (α + 1 + α * f.ulp) (|(a : ℝ)| * c) ((1 + f.ulp) * (|(a : ℝ)| * τ) + f.tin) (FloatOps.mul y (.fin a)) (a * x) := by
  have := Ap.mul_exact h hb
  obtain ⟨q, hq, _⟩ := h
  rwa [mul_comm_fin a hq]

/-- The square root of a number. -/
theorem sqrt_err {q : ℚ} (hq : 0 < q) (hn : f.Number q) :
    ∃ r : ℚ, FloatOps.sqrt (.fin q : Fl f) = .fin r ∧ f.Number r ∧ |(r : ℝ) - √(q : ℝ)| ≤ f.ulp * √(q : ℝ) + f.tin := by
  obtain ⟨r, hr, hnr, hx⟩ := Fl.sqrt_nearest hq hn
  refine ⟨r, hr, hnr, ?_⟩
  have hu := ulp_pos (f := f)
  have hu' := ulp_le (f := f)
  have hf : 1 ≤ f.prec := by have := Fl.Ok.prec (f := f); omega
  set s := √(q : ℝ) with hs
  have hs0 : 0 < s := Real.sqrt_pos.2 (by exact_mod_cast hq)
  have hqb : (q : ℝ) ≤ (Fl.big f : ℚ) := by
    have := Fl.number_le hn; rw [abs_of_pos hq] at this; exact_mod_cast this
  have hbig : (4 : ℝ) ≤ (Fl.big f : ℚ) := by
    have h1 := Fl.big_ge f
    have h2 : (2 : ℚ) ^ 2 ≤ 2 ^ f.emax := pow_le_pow_right₀ (by norm_num) (by have := Fl.Ok.emax (f := f); omega)
    have h3 : (4 : ℚ) ≤ Fl.big f := by linarith
    exact_mod_cast h3
  -- the root is in range
  have hsb : s < (Fl.big f : ℚ) := by
    have h1 : s * s = q := Real.mul_self_sqrt (by exact_mod_cast hq.le)
    by_contra hcon
    rw [not_lt] at hcon
    nlinarith
  refine le_of_forall_pos_le_add fun ε hε => ?_
  obtain ⟨p, hp1, hp2⟩ := exists_rat_btwn (show s < Min.min ((Fl.big f : ℚ) : ℝ) (s + ε / 2) from lt_min hsb (by linarith))
  have hp0 : (0 : ℝ) < p := hs0.trans hp1
  have hpb : |(p : ℝ)| ≤ (Fl.big f : ℚ) := by rw [abs_of_pos hp0]; exact (hp2.le.trans (min_le_left _ _))
  obtain ⟨z, -, hz, he⟩ := mk_err (f := f) hpb
  have h1 := hx z hz
  rw [abs_of_pos hp0] at he
  have hpe : (p : ℝ) ≤ s + ε / 2 := hp2.le.trans (min_le_right _ _)
  have h2 : |(z : ℝ) - s| ≤ |(z : ℝ) - p| + |(p : ℝ) - s| := abs_sub_le _ _ _
  have h3 : |(p : ℝ) - s| ≤ ε / 2 := by rw [abs_of_pos (by linarith)]; linarith
  have h4 : f.ulp * p ≤ f.ulp * s + ε / 2 := by nlinarith
  linarith

end

end CDT

import Verif.Proofs.SoftFloat

/-!
# Rounded arithmetic

The laws of IEEE arithmetic used for theorems about `f32` and `f64` runs: every finite value is a rational number; the
operations round the exact result, as long as it is not larger than `Float::MAX`; comparisons are exact. The laws are
satisfied by the IEEE formats of `Model/SoftFloat.lean`. They are hypotheses (class fields), not axioms.
-/

namespace CDT
open FloatOps

/-- Arithmetic with correct rounding: `u` is the unit roundoff (`2^-53` for `f64`, `2^-24` for `f32`), `tiny` bounds the
error of an underflow, `big` is `Float::MAX`, `cap` is `usize::MAX`. `val` is undefined for NaN and infinities. -/
class Rounded (F : Type) [FloatOps F] where
  val : F → Option ℚ
  rnd : ℚ → ℚ
  u : ℚ
  tiny : ℚ
  big : ℚ
  cap : ℚ
  u_pos : 0 < u
  u_le : u ≤ 1 / 100000
  tiny_nonneg : 0 ≤ tiny
  tiny_le : tiny ≤ u / 4
  tiny_cap : tiny * cap ≤ 1 / 1000
  big_ge : 100 ≤ big
  cap_le : cap ≤ big
  rnd_zero : rnd 0 = 0
  rnd_nonneg : ∀ {a : ℚ}, 0 ≤ a → 0 ≤ rnd a
  rnd_idem : ∀ a : ℚ, rnd (rnd a) = rnd a
  rnd_err : ∀ a : ℚ, |rnd a - a| ≤ u * |a| + tiny
  /-- numbers with few digits are not rounded -/
  rnd_dyadic : ∀ z e : ℤ, |(z : ℚ)| * u ≤ 1 → 2 * tiny ≤ 2 ^ e → rnd (z * 2 ^ e) = z * 2 ^ e
  /-- sums and differences of floating point numbers do not underflow -/
  add_err : ∀ {x y : F} {a b : ℚ}, val x = some a → val y = some b → |rnd (a + b) - (a + b)| ≤ u * |a + b|
  sub_err : ∀ {x y : F} {a b : ℚ}, val x = some a → val y = some b → |rnd (a - b) - (a - b)| ≤ u * |a - b|
  val_add : ∀ {x y : F} {a b : ℚ}, val x = some a → val y = some b → |a + b| ≤ big → val (add x y) = some (rnd (a + b))
  val_sub : ∀ {x y : F} {a b : ℚ}, val x = some a → val y = some b → |a - b| ≤ big → val (sub x y) = some (rnd (a - b))
  val_mul : ∀ {x y : F} {a b : ℚ}, val x = some a → val y = some b → |a * b| ≤ big → val (mul x y) = some (rnd (a * b))
  val_div : ∀ {x y : F} {a b : ℚ}, val x = some a → val y = some b → b ≠ 0 → |a / b| ≤ big →
    val (div x y) = some (rnd (a / b))
  val_neg : ∀ {x : F} {a : ℚ}, val x = some a → val (neg x) = some (-a)
  val_abs : ∀ {x : F} {a : ℚ}, val x = some a → val (FloatOps.abs x) = some |a|
  val_max : ∀ {x y : F} {a b : ℚ}, val x = some a → val y = some b → val (FloatOps.max x y) = some (Max.max a b)
  val_min : ∀ {x y : F} {a b : ℚ}, val x = some a → val y = some b → val (FloatOps.min x y) = some (Min.min a b)
  lt_iff : ∀ {x y : F} {a b : ℚ}, val x = some a → val y = some b → FloatOps.lt x y = decide (a < b)
  le_iff : ∀ {x y : F} {a b : ℚ}, val x = some a → val y = some b → FloatOps.le x y = decide (a ≤ b)
  eq_iff : ∀ {x y : F} {a b : ℚ}, val x = some a → val y = some b → FloatOps.eq x y = decide (a = b)
  val_zero : val (zero : F) = some 0
  val_eps : val (eps : F) = some (2 * u)
  val_delta : ∃ d, val (delta : F) = some d ∧ |d - 142 / 100| ≤ 2 * u
  val_c099 : ∃ c, val (c099 : F) = some c ∧ |c - 99 / 100| ≤ u
  val_fmax : val (fmax : F) = some big
  val_fmin : val (fmin : F) = some (-big)
  val_ofNat : ∀ n : Nat, (n : ℚ) ≤ cap → val (ofNat n : F) = some (rnd n)
  toUsize_eq : ∀ {x : F} {a : ℚ}, val x = some a → 0 ≤ a → a ≤ cap → toUsize x = ⌊a⌋₊

/-- The value of a finite floating point number that its format can represent (`Fl.number_iff` in `Proofs/Ieee.lean`). -/
def Fl.value {f : Fmt} : Fl f → Option ℚ
  | .fin q => if Fl.rnd f q = q ∧ |q| ≤ Fl.big f then some q else none
  | _ => none

theorem Fl.value_eq {f : Fmt} {x : Fl f} {a : ℚ} : x.value = some a ↔ x = .fin a ∧ Fl.rnd f a = a ∧ |a| ≤ Fl.big f := by
  cases x with
  | nan => simp [Fl.value]
  | inf s => simp [Fl.value]
  | fin q =>
    simp only [Fl.value, Fl.fin.injEq]
    split
    · rename_i h
      simp only [Option.some.injEq]
      exact ⟨fun e => ⟨e, e ▸ h⟩, fun e => e.1⟩
    · rename_i h
      simp only [reduceCtorEq, false_iff, not_and]
      rintro rfl; exact fun h1 h2 => h ⟨h1, h2⟩

theorem Fl.value_mk {f : Fmt} [Fl.Ok f] {q : ℚ} (h : |q| ≤ Fl.big f) : (Fl.mk f q).value = some (Fl.rnd f q) := by
  rw [Fl.mk_of_le f h, Fl.value_eq]
  exact ⟨rfl, Fl.rnd_idem f (by have := Fl.Ok.prec (f := f); omega) q, Fl.rnd_le_big f h⟩

theorem Fl.value_fin {f : Fmt} {q : ℚ} (h : Fl.rnd f q = q) (hb : |q| ≤ Fl.big f) : (Fl.fin q : Fl f).value = some q :=
  Fl.value_eq.2 ⟨rfl, h, hb⟩

theorem Fl.big_nonneg (f : Fmt) : 0 ≤ Fl.big f := by unfold Fl.big; positivity

theorem Fl.sum_err {f : Fmt} {x y : Fl f} {a b : ℚ} (hx : x.value = some a) (hy : y.value = some b) (c : ℚ)
    (hc : c = a + b ∨ c = a - b) : |Fl.rnd f c - c| ≤ 1 / 2 ^ f.prec * |c| := by
  obtain ⟨-, ha, -⟩ := Fl.value_eq.1 hx
  obtain ⟨-, hb, -⟩ := Fl.value_eq.1 hy
  obtain ⟨z, hz⟩ := Fl.rnd_multiple f a
  obtain ⟨w, hw⟩ := Fl.rnd_multiple f b
  rw [ha] at hz
  rw [hb] at hw
  rcases hc with e | e
  · have : c = ((z + w : ℤ) : ℚ) * (2 : ℚ) ^ (-(f.qmin : ℤ)) := by rw [e, hz, hw]; push_cast; ring
    rw [this]
    exact Fl.rnd_err_multiple f _
  · have : c = ((z - w : ℤ) : ℚ) * (2 : ℚ) ^ (-(f.qmin : ℤ)) := by rw [e, hz, hw]; push_cast; ring
    rw [this]
    exact Fl.rnd_err_multiple f _

/-- IEEE arithmetic satisfies the laws. -/
instance flRounded {f : Fmt} [Fl.Ok f] : Rounded (Fl f) where
  val := Fl.value
  rnd := Fl.rnd f
  u := 1 / 2 ^ f.prec
  tiny := 1 / 2 * 2 ^ (-(f.qmin : ℤ))
  big := Fl.big f
  cap := Fl.usizeMax
  u_pos := by positivity
  u_le := by
    have h := Fl.Ok.prec (f := f)
    have : (2 : ℚ) ^ 17 ≤ 2 ^ f.prec := pow_le_pow_right₀ (by norm_num) h
    rw [div_le_div_iff₀ (by positivity) (by norm_num)]
    linarith
  tiny_nonneg := by positivity
  tiny_le := by
    have h := Fl.Ok.qmin (f := f)
    have e : (1 : ℚ) / 2 ^ f.prec / 4 = 1 / 2 * (2 : ℚ) ^ (-((f.prec + 1 : ℕ) : ℤ)) := by
      rw [zpow_neg, zpow_natCast, pow_succ]; field_simp; norm_num
    rw [e]
    gcongr
    · norm_num
    · omega
  tiny_cap := by
    have h := Fl.Ok.qmin' (f := f)
    have e : (2 : ℚ) ^ (-(f.qmin : ℤ)) ≤ 2 ^ (-((75 : ℕ) : ℤ)) := zpow_le_zpow_right₀ (by norm_num) (by omega)
    have e' : (2 : ℚ) ^ (-((75 : ℕ) : ℤ)) = (2 ^ 75)⁻¹ := by rw [zpow_neg, zpow_natCast]
    rw [e'] at e
    have : (Fl.usizeMax : ℚ) ≤ 2 ^ 64 := by unfold Fl.usizeMax; norm_num
    calc (1 : ℚ) / 2 * 2 ^ (-(f.qmin : ℤ)) * Fl.usizeMax ≤ 1 / 2 * (2 ^ 75)⁻¹ * 2 ^ 64 := by gcongr
      _ ≤ 1 / 1000 := by norm_num
  big_ge := by
    have h := Fl.Ok.emax (f := f)
    refine le_trans ?_ (Fl.big_ge f)
    exact le_trans (by norm_num) (pow_le_pow_right₀ (by norm_num) h : (2 : ℚ) ^ 64 ≤ 2 ^ f.emax)
  cap_le := by
    have h := Fl.Ok.emax (f := f)
    refine le_trans ?_ (Fl.big_ge f)
    exact le_trans (by unfold Fl.usizeMax; norm_num) (pow_le_pow_right₀ (by norm_num) h : (2 : ℚ) ^ 64 ≤ 2 ^ f.emax)
  rnd_zero := Fl.rnd_zero f
  rnd_nonneg := Fl.rnd_nonneg f
  rnd_idem := Fl.rnd_idem f (by have := Fl.Ok.prec (f := f); omega)
  rnd_err := Fl.rnd_err f
  rnd_dyadic := by
    intro z e hz he
    refine Fl.rnd_dyadic_int f (by have := Fl.Ok.prec (f := f); omega) ?_ ?_
    · rw [mul_one_div, div_le_one (by positivity)] at hz
      exact_mod_cast hz
    · have : (2 : ℚ) ^ (-(f.qmin : ℤ)) ≤ 2 ^ e := by linarith
      exact (zpow_le_zpow_iff_right₀ (by norm_num)).1 this
  add_err := fun hx hy => Fl.sum_err hx hy _ (.inl rfl)
  sub_err := fun hx hy => Fl.sum_err hx hy _ (.inr rfl)
  val_add := by
    intro x y a b hx hy h
    obtain ⟨rfl, -⟩ := Fl.value_eq.1 hx
    obtain ⟨rfl, -⟩ := Fl.value_eq.1 hy
    exact Fl.value_mk h
  val_sub := by
    intro x y a b hx hy h
    obtain ⟨rfl, -⟩ := Fl.value_eq.1 hx
    obtain ⟨rfl, -⟩ := Fl.value_eq.1 hy
    exact Fl.value_mk h
  val_mul := by
    intro x y a b hx hy h
    obtain ⟨rfl, -⟩ := Fl.value_eq.1 hx
    obtain ⟨rfl, -⟩ := Fl.value_eq.1 hy
    exact Fl.value_mk h
  val_div := by
    intro x y a b hx hy hb h
    obtain ⟨rfl, -⟩ := Fl.value_eq.1 hx
    obtain ⟨rfl, -⟩ := Fl.value_eq.1 hy
    show (if b = 0 then (_ : Fl f) else Fl.mk f (a / b)).value = _
    rw [if_neg hb]
    exact Fl.value_mk h
  val_neg := by
    intro x a hx
    obtain ⟨rfl, h, hb⟩ := Fl.value_eq.1 hx
    exact Fl.value_fin (by rw [Fl.rnd_neg, h]) (by rwa [abs_neg])
  val_abs := by
    intro x a hx
    obtain ⟨rfl, h, hb⟩ := Fl.value_eq.1 hx
    show (Fl.fin (if a < 0 then -a else a) : Fl f).value = some |a|
    split
    · rw [abs_of_neg ‹_›]; exact Fl.value_fin (by rw [Fl.rnd_neg, h]) (by rwa [abs_neg])
    · rw [abs_of_nonneg (not_lt.1 ‹_›)]; exact Fl.value_fin h hb
  val_max := by
    intro x y a b hx hy
    obtain ⟨rfl, ha⟩ := Fl.value_eq.1 hx
    obtain ⟨rfl, hb⟩ := Fl.value_eq.1 hy
    show (if decide (a < b) = true then (Fl.fin b : Fl f) else .fin a).value = _
    simp only [decide_eq_true_eq]
    split
    · rw [max_eq_right (le_of_lt ‹_›)]; exact hy
    · rw [max_eq_left (not_lt.1 ‹_›)]; exact hx
  val_min := by
    intro x y a b hx hy
    obtain ⟨rfl, ha⟩ := Fl.value_eq.1 hx
    obtain ⟨rfl, hb⟩ := Fl.value_eq.1 hy
    show (if decide (b < a) = true then (Fl.fin b : Fl f) else .fin a).value = _
    simp only [decide_eq_true_eq]
    split
    · rw [min_eq_right (le_of_lt ‹_›)]; exact hy
    · rw [min_eq_left (not_lt.1 ‹_›)]; exact hx
  lt_iff := by
    intro x y a b hx hy
    obtain ⟨rfl, -⟩ := Fl.value_eq.1 hx
    obtain ⟨rfl, -⟩ := Fl.value_eq.1 hy
    rfl
  le_iff := by
    intro x y a b hx hy
    obtain ⟨rfl, -⟩ := Fl.value_eq.1 hx
    obtain ⟨rfl, -⟩ := Fl.value_eq.1 hy
    rfl
  eq_iff := by
    intro x y a b hx hy
    obtain ⟨rfl, -⟩ := Fl.value_eq.1 hx
    obtain ⟨rfl, -⟩ := Fl.value_eq.1 hy
    rfl
  val_zero := Fl.value_fin (Fl.rnd_zero f) (by simp [Fl.big_nonneg])
  val_eps := by
    have h := Fl.Ok.prec (f := f)
    have h2 := Fl.Ok.qmin (f := f)
    have e : mkRat 1 (2 ^ (f.prec - 1)) = ((1 : ℕ) : ℚ) * 2 ^ (-((f.prec - 1 : ℕ) : ℤ)) := by
      rw [Rat.mkRat_eq_div, zpow_neg, zpow_natCast]; push_cast; ring
    have hb : |mkRat 1 (2 ^ (f.prec - 1))| ≤ Fl.big f := by
      have h3 : (1 : ℚ) ≤ 2 ^ (f.prec - 1) := one_le_pow₀ (by norm_num)
      rw [Rat.mkRat_eq_div, abs_of_nonneg (by positivity)]
      refine le_trans ?_ ((one_le_pow₀ (by norm_num)).trans (Fl.big_ge f))
      push_cast
      exact div_le_one_of_le₀ h3 (by positivity)
    show (Fl.fin (mkRat 1 (2 ^ (f.prec - 1))) : Fl f).value = _
    rw [Fl.value_fin (by rw [e]; exact Fl.rnd_dyadic f (by omega) Nat.one_le_two_pow (by omega)) hb]
    have e2 : (2 : ℚ) ^ f.prec = 2 ^ (f.prec - 1) * 2 := by rw [← pow_succ, Nat.sub_add_cancel (by omega)]
    rw [Rat.mkRat_eq_div, e2]
    push_cast
    congr 1
    field_simp
  val_delta := by
    have h := Fl.Ok.prec (f := f)
    have h2 := Fl.Ok.qmin (f := f)
    refine ⟨_, Fl.value_mk ?_, (Fl.rnd_err f _).trans ?_⟩
    · refine le_trans ?_ (Fl.big_ge f)
      have : (2 : ℚ) ^ 64 ≤ 2 ^ f.emax := pow_le_pow_right₀ (by norm_num) (Fl.Ok.emax (f := f))
      exact le_trans (by norm_num [abs_of_pos]) this
    · have e : (2 : ℚ) ^ (-(f.qmin : ℤ)) ≤ 2 ^ (-((f.prec + 7 : ℕ) : ℤ)) :=
        zpow_le_zpow_right₀ (by norm_num) (by omega)
      have e' : (2 : ℚ) ^ (-((f.prec + 7 : ℕ) : ℤ)) = (2 ^ f.prec)⁻¹ / 128 := by
        rw [zpow_neg, zpow_natCast, pow_add]; field_simp; norm_num
      rw [e'] at e
      have e3 : |(142 / 100 : ℚ)| = 142 / 100 := abs_of_pos (by norm_num)
      rw [e3, one_div]
      have : (0 : ℚ) < (2 ^ f.prec)⁻¹ := by positivity
      linarith
  val_c099 := by
    have h := Fl.Ok.prec (f := f)
    have h2 := Fl.Ok.qmin (f := f)
    refine ⟨_, Fl.value_mk ?_, (Fl.rnd_err f _).trans ?_⟩
    · refine le_trans ?_ (Fl.big_ge f)
      have : (2 : ℚ) ^ 64 ≤ 2 ^ f.emax := pow_le_pow_right₀ (by norm_num) (Fl.Ok.emax (f := f))
      exact le_trans (by norm_num [abs_of_pos]) this
    · have e : (2 : ℚ) ^ (-(f.qmin : ℤ)) ≤ 2 ^ (-((f.prec + 7 : ℕ) : ℤ)) :=
        zpow_le_zpow_right₀ (by norm_num) (by omega)
      have e' : (2 : ℚ) ^ (-((f.prec + 7 : ℕ) : ℤ)) = (2 ^ f.prec)⁻¹ / 128 := by
        rw [zpow_neg, zpow_natCast, pow_add]; field_simp; norm_num
      rw [e'] at e
      have e3 : |(99 / 100 : ℚ)| = 99 / 100 := abs_of_pos (by norm_num)
      rw [e3, one_div]
      have : (0 : ℚ) < (2 ^ f.prec)⁻¹ := by positivity
      linarith
  val_fmax := Fl.value_fin (Fl.rnd_big f) (abs_of_nonneg (Fl.big_nonneg f)).le
  val_fmin := Fl.value_fin (by rw [Fl.rnd_neg, Fl.rnd_big]) (by rw [abs_neg]; exact (abs_of_nonneg (Fl.big_nonneg f)).le)
  val_ofNat := by
    intro n hn
    refine Fl.value_mk ?_
    rw [abs_of_nonneg (by positivity)]
    refine hn.trans (le_trans ?_ (Fl.big_ge f))
    exact le_trans (by unfold Fl.usizeMax; norm_num)
      (pow_le_pow_right₀ (by norm_num) (Fl.Ok.emax (f := f)) : (2 : ℚ) ^ 64 ≤ 2 ^ f.emax)
  toUsize_eq := by
    intro x a hx h0 hc
    obtain ⟨rfl, -⟩ := Fl.value_eq.1 hx
    show Nat.min (a.floor).toNat Fl.usizeMax = ⌊a⌋₊
    have e : (a.floor).toNat = ⌊a⌋₊ := rfl
    rw [e]
    apply Nat.min_eq_left
    have h1 : (⌊a⌋₊ : ℚ) ≤ a := Nat.floor_le h0
    exact_mod_cast h1.trans hc

end CDT

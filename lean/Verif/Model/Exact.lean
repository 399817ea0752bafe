import Mathlib.Algebra.Order.Field.Basic
import Mathlib.Algebra.Order.Field.Rat
import Mathlib.Data.Rat.Floor
import Mathlib.Analysis.Real.Sqrt
import Verif.Model.Constrained

/-!
# Exact arithmetic

`FloatOps` for a linearly ordered field: no rounding, no NaN. The constants `EPSILON`, `Float::MAX`
and the functions `sqrt`, `as usize` are parameters with the few laws the proofs use.
-/

namespace CDT

/-- Parameters of exact arithmetic over an ordered field. -/
class ExactParams (K : Type) [Field K] [LinearOrder K] where
  eps : K
  fmax : K
  sqrt : K → K
  toUsize : K → Nat
  eps_pos : 0 < eps
  eps_le_one : eps ≤ 1
  /-- rounding down; the slack leaves room for the rounding of the value to be cast -/
  toUsize_le : ∀ x, 0 ≤ x → (toUsize x : K) ≤ 201 / 200 * x

/-- Exact operations (`f64` without rounding). -/
instance exactOps {K : Type} [Field K] [LinearOrder K] [ExactParams K] : FloatOps K where
  add a b := a + b
  sub a b := a - b
  mul a b := a * b
  div a b := a / b
  neg a := -a
  abs a := if a < 0 then -a else a
  sqrt := ExactParams.sqrt
  max a b := if a < b then b else a
  min a b := if b < a then b else a
  lt a b := decide (a < b)
  le a b := decide (a ≤ b)
  eq a b := decide (a = b)
  isNan _ := false
  isFinite _ := true
  zero := 0
  one := 1
  two := 2
  c099 := 99 / 100
  eps := ExactParams.eps
  delta := 142 / 100
  fmax := ExactParams.fmax
  fmin := -ExactParams.fmax
  ofNat n := n
  toUsize := ExactParams.toUsize

section
variable {K : Type} [Field K] [LinearOrder K] [ExactParams K]
open FloatOps

@[simp] theorem exact_add (a b : K) : add a b = a + b := rfl
@[simp] theorem exact_sub (a b : K) : sub a b = a - b := rfl
@[simp] theorem exact_mul (a b : K) : mul a b = a * b := rfl
@[simp] theorem exact_div (a b : K) : div a b = a / b := rfl
@[simp] theorem exact_neg (a : K) : neg a = -a := rfl
@[simp] theorem exact_lt (a b : K) : lt a b = decide (a < b) := rfl
@[simp] theorem exact_le (a b : K) : le a b = decide (a ≤ b) := rfl
@[simp] theorem exact_eq (a b : K) : FloatOps.eq a b = decide (a = b) := rfl
@[simp] theorem exact_zero : (zero : K) = 0 := rfl
@[simp] theorem exact_one : (one : K) = 1 := rfl
@[simp] theorem exact_two : (two : K) = 2 := rfl
@[simp] theorem exact_eps : (eps : K) = ExactParams.eps := rfl
@[simp] theorem exact_delta : (delta : K) = 142 / 100 := rfl
@[simp] theorem exact_c099 : (c099 : K) = 99 / 100 := rfl
@[simp] theorem exact_fmax : (fmax : K) = ExactParams.fmax := rfl
@[simp] theorem exact_fmin : (fmin : K) = -ExactParams.fmax := rfl
@[simp] theorem exact_ofNat (n : Nat) : (ofNat n : K) = n := rfl
@[simp] theorem exact_max (a b : K) : FloatOps.max a b = Max.max a b := by
  show (if a < b then b else a) = _
  split
  · rw [max_eq_right]; exact le_of_lt ‹_›
  · rw [max_eq_left]; exact not_lt.1 ‹_›
@[simp] theorem exact_min (a b : K) : FloatOps.min a b = Min.min a b := by
  show (if b < a then b else a) = _
  split
  · rw [min_eq_right]; exact le_of_lt ‹_›
  · rw [min_eq_left]; exact not_lt.1 ‹_›
@[simp] theorem exact_abs [IsStrictOrderedRing K] (a : K) : FloatOps.abs a = |a| := by
  show (if a < 0 then -a else a) = _
  split
  · rw [abs_of_neg ‹_›]
  · rw [abs_of_nonneg (not_lt.1 ‹_›)]

end

/-- `f64` constants over the rationals; `sqrt` is not available (only `check_circumcircles` and the 3d
entry points use it). -/
instance ratParams : ExactParams ℚ where
  eps := 1 / 4503599627370496
  fmax := 179769313486231570814527423731704356798070567525844996598917476803157260780028538760589558632766878171540458953514382464234321326889464182768467546703537516986049910576551282076245490090389328944075868508455133942304583236903222948165808559332123348274797826204144723168738177180919299881250404026184124858368
  sqrt := fun x => x
  toUsize := fun x => x.floor.toNat
  eps_pos := by norm_num
  eps_le_one := by norm_num
  toUsize_le := by
    intro x hx
    have h1 : (0 : ℤ) ≤ x.floor := by
      rw [Rat.le_floor_iff]; simpa using hx
    have h2 : ((x.floor.toNat : ℤ) : ℚ) = (x.floor : ℚ) := by rw [Int.toNat_of_nonneg h1]
    have h3 : (x.floor : ℚ) ≤ x := Rat.floor_le x
    calc ((x.floor.toNat : ℕ) : ℚ) = ((x.floor.toNat : ℤ) : ℚ) := by norm_cast
      _ = (x.floor : ℚ) := h2
      _ ≤ x := h3
      _ ≤ 201 / 200 * x := by linarith

/-- `f64` constants over the reals, with the real square root. -/
noncomputable instance realParams : ExactParams ℝ where
  eps := 1 / 4503599627370496
  fmax := 179769313486231570814527423731704356798070567525844996598917476803157260780028538760589558632766878171540458953514382464234321326889464182768467546703537516986049910576551282076245490090389328944075868508455133942304583236903222948165808559332123348274797826204144723168738177180919299881250404026184124858368
  sqrt := Real.sqrt
  toUsize := fun x => ⌊x⌋₊
  eps_pos := by norm_num
  eps_le_one := by norm_num
  toUsize_le := fun x hx => le_trans (Nat.floor_le hx) (by linarith)

end CDT

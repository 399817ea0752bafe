import Verif.Spec.Ieee
import Mathlib.Data.EReal.Basic
import Mathlib.Data.Real.Basic

/-!
# What the operations of IEEE 754 return

Round to nearest, ties to even, overflow to infinity, for a real number `t` as the exact result. Nothing here refers to the
rounding function of `Model/SoftFloat.lean`.
-/

namespace CDT

/-- `q` is a number of the format whose significand is even, written with the least exponent possible. -/
def Fmt.Even (f : Fmt) (q : ℚ) : Prop :=
  ∃ m e : ℤ, q = (2 * m : ℤ) * (2 : ℚ) ^ e ∧ |2 * m| < 2 ^ f.prec ∧ -(f.qmin : ℤ) ≤ e ∧ (e = -(f.qmin : ℤ) ∨ 2 ^ (f.prec - 1) ≤ |2 * m|)

/-- From here on numbers are rounded to infinity: half a step above the largest number. -/
noncomputable def Fmt.overflow (f : Fmt) : ℝ := 2 ^ (f.emax + 1) - 2 ^ ((f.emax : ℤ) - f.prec)

/-- `x` is the exact result `t` rounded to nearest, ties to even. -/
def Spec.RoundsTo (f : Fmt) (t : ℝ) : Fl f → Prop
  | .nan => False
  | .inf neg => f.overflow ≤ if neg then -t else t
  | .fin r => |t| < f.overflow ∧ f.Number r ∧ (∀ s, f.Number s → |(r : ℝ) - t| ≤ |(s : ℝ) - t|) ∧
      ∀ s, f.Number s → s ≠ r → |(s : ℝ) - t| = |(r : ℝ) - t| → f.Even r

/-- The extended real number that a value denotes; none for NaN. -/
noncomputable def Spec.denotes {f : Fmt} : Fl f → Option EReal
  | .nan => none
  | .inf true => some ⊥
  | .inf false => some ⊤
  | .fin q => some ((q : ℝ) : EReal)

end CDT

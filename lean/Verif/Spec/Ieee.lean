import Verif.Model.SoftFloat
import Mathlib.Data.Rat.Floor

/-!
# The finite numbers of a binary format

The definition of IEEE 754, independent of the rounding function of `Model/SoftFloat.lean`.
-/

namespace CDT

/-- `q` is a finite number of the format: a significand of `prec` bits times a power of two, at least `2^-qmin`, below the
overflow threshold. -/
def Fmt.Number (f : Fmt) (q : ℚ) : Prop :=
  ∃ m e : ℤ, q = m * (2 : ℚ) ^ e ∧ |m| < 2 ^ f.prec ∧ -(f.qmin : ℤ) ≤ e ∧ e + f.prec ≤ f.emax + 1

end CDT

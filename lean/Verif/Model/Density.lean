import Verif.Model.SoftFloat
import Mathlib.Analysis.SpecialFunctions.Pow.Real
import Mathlib.Algebra.Order.Floor.Semiring

/-!
# The number of bins per row (`/repo/src/triangulation.rs:620-622`)
-/

namespace CDT

/-- `(vertices.len() as f64).powf(vertex_density_power / 2.).round() as usize` (`triangulation.rs:620-622`), with the power of
real numbers. Simplification: Rust does not specify the last bits of `powf`, and `as f64` rounds above `2^53`. `round` goes to
the nearest integer, halves up (the power is not negative); `as usize` saturates. -/
noncomputable def binsPerRow (power : ℝ) (n : Nat) : Nat := Nat.min ⌊(n : ℝ) ^ (power / 2) + 1 / 2⌋₊ Fl.usizeMax

end CDT

import Verif.Model.Exact

/-!
# A kernel-computable model of IEEE 754 binary arithmetic

`Fl f` is the set of values of the binary format `f` (`binary64`: Rust `f64`; `binary32`: Rust `f32`): round to nearest,
ties to even, subnormal numbers, overflow, infinities, NaN. Two simplifications: there is one NaN, and the sign of zero is
not represented. The sign of zero is observable only by a division by zero. The modelled code divides by the scale factor
(`triangulation.rs:207-211`; the extrema of equal coordinates are the same value, so a zero difference is `+0.`), by the
length of a vector (glam `normalize`; the root of a sum of squares, never `-0.`), and, in a quality checker, by twice an area
(`utils.rs:268-271`; the sign of the infinite center disappears in the squared distances). So `x / 0.` is modelled with the
divisor `+0.`.
-/

namespace CDT

/-- A binary format: `prec` significant bits, least positive number `2^-qmin`, numbers below `2^(emax + 1)`. -/
structure Fmt where
  prec : Nat
  qmin : Nat
  emax : Nat
  deriving DecidableEq, Repr

/-- `f64`. -/
def binary64 : Fmt := ⟨53, 1074, 1023⟩
/-- `f32`. -/
def binary32 : Fmt := ⟨24, 149, 127⟩

/-- A value of the format `f`. The operations only produce finite values that `f` can represent. -/
inductive Fl (f : Fmt) where
  | nan
  /-- `-∞` if the flag is set -/
  | inf (neg : Bool)
  | fin (q : ℚ)
  deriving DecidableEq, Repr

namespace Fl

/-- Round half to even: nearest integer of `n / d`. -/
def rndNat (n d : Nat) : Nat :=
  let q := n / d
  let r := n % d
  if 2 * r < d then q
  else if d < 2 * r then q + 1
  else if q % 2 = 0 then q else q + 1

/-- The `e` with `2^e ≤ n / d < 2^(e+1)`. -/
def ilog2 (n d : Nat) : Int :=
  let a := Nat.log2 n
  let b := Nat.log2 d
  if 2 ^ a * d ≤ n * 2 ^ b then (a : Int) - b else (a : Int) - b - 1

/-- Exponent of the last bit of the rounded `n / d`. -/
def ulpExp (f : Fmt) (n d : Nat) : Int := max (ilog2 n d + 1 - f.prec) (-f.qmin)

/-- Round the positive rational `n / d`, without overflow. -/
def rndPos (f : Fmt) (n d : Nat) : ℚ :=
  match ulpExp f n d with
  | .ofNat i => (rndNat n (d * 2 ^ i) * 2 ^ i : ℕ)
  | .negSucc i => mkRat (rndNat (n * 2 ^ (i + 1)) d) (2 ^ (i + 1))

/-- Round to nearest even, without overflow. -/
def rnd (f : Fmt) (q : ℚ) : ℚ :=
  match q.num with
  | .ofNat 0 => 0
  | .ofNat n => rndPos f n q.den
  | .negSucc n => -rndPos f (n + 1) q.den

/-- The largest number of the format. -/
def big (f : Fmt) : ℚ := ((2 ^ f.prec - 1) * 2 ^ (f.emax + 1 - f.prec) : ℕ)

/-- Round with overflow. -/
def mk (f : Fmt) (q : ℚ) : Fl f :=
  let r := rnd f q
  if big f < r then .inf false else if r < -big f then .inf true else .fin r

variable {f : Fmt}

/-- Negation. -/
def neg : Fl f → Fl f
  | .nan => .nan
  | .inf s => .inf !s
  | .fin q => .fin (-q)

/-- Addition. -/
def add : Fl f → Fl f → Fl f
  | .nan, _ => .nan
  | .inf _, .nan => .nan
  | .inf s, .inf t => if s = t then .inf s else .nan
  | .inf s, .fin _ => .inf s
  | .fin _, .nan => .nan
  | .fin _, .inf t => .inf t
  | .fin a, .fin b => mk f (a + b)

/-- Subtraction. -/
def sub : Fl f → Fl f → Fl f
  | .nan, _ => .nan
  | .inf _, .nan => .nan
  | .inf s, .inf t => if s = t then .nan else .inf s
  | .inf s, .fin _ => .inf s
  | .fin _, .nan => .nan
  | .fin _, .inf t => .inf !t
  | .fin a, .fin b => mk f (a - b)

/-- Multiplication. -/
def mul : Fl f → Fl f → Fl f
  | .nan, _ => .nan
  | .inf _, .nan => .nan
  | .inf s, .inf t => .inf (s != t)
  | .inf s, .fin b => if b = 0 then .nan else .inf (s != decide (b < 0))
  | .fin _, .nan => .nan
  | .fin a, .inf t => if a = 0 then .nan else .inf (t != decide (a < 0))
  | .fin a, .fin b => mk f (a * b)

/-- Division; a divisor zero is `+0`. -/
def div : Fl f → Fl f → Fl f
  | .nan, _ => .nan
  | .inf _, .nan => .nan
  | .inf _, .inf _ => .nan
  | .inf s, .fin b => .inf (s != decide (b < 0))
  | .fin _, .nan => .nan
  | .fin _, .inf _ => .fin 0
  | .fin a, .fin b => if b = 0 then (if a = 0 then .nan else .inf (decide (a < 0))) else mk f (a / b)

/-- `<` -/
def lt : Fl f → Fl f → Bool
  | .nan, _ => false
  | .inf _, .nan => false
  | .inf s, .inf t => s && !t
  | .inf s, .fin _ => s
  | .fin _, .nan => false
  | .fin _, .inf t => !t
  | .fin a, .fin b => decide (a < b)

/-- `<=` -/
def le : Fl f → Fl f → Bool
  | .nan, _ => false
  | .inf _, .nan => false
  | .inf s, .inf t => s || !t
  | .inf s, .fin _ => s
  | .fin _, .nan => false
  | .fin _, .inf t => !t
  | .fin a, .fin b => decide (a ≤ b)

/-- `==` -/
def eq : Fl f → Fl f → Bool
  | .inf s, .inf t => s == t
  | .fin a, .fin b => decide (a = b)
  | _, _ => false

/-- `f64::max` -/
def max : Fl f → Fl f → Fl f
  | .nan, b => b
  | a, .nan => a
  | a, b => if lt a b then b else a

/-- `f64::min` -/
def min : Fl f → Fl f → Fl f
  | .nan, b => b
  | a, .nan => a
  | a, b => if lt b a then b else a

/-- A rational that rounds like the square root of `n / d`: its bits up to the second one after the last bit of the result,
and one more bit that says whether the root continues. -/
def sqrtRat (f : Fmt) (n d : Nat) : ℚ :=
  let j := f.prec + 3 + Nat.log2 d
  let m := Nat.sqrt (n * 4 ^ j / d)
  mkRat (2 * m + if m * m * d = n * 4 ^ j then 0 else 1) (2 ^ (j + 1))

/-- Square root. -/
def sqrt : Fl f → Fl f
  | .nan => .nan
  | .inf s => if s then .nan else .inf false
  | .fin q => if q < 0 then .nan else if q = 0 then .fin 0 else mk f (sqrtRat f q.num.toNat q.den)

/-- `usize::MAX` -/
def usizeMax : Nat := 2 ^ 64 - 1

/-- `as usize`: truncation, saturating; NaN gives 0. -/
def toUsize : Fl f → Nat
  | .nan => 0
  | .inf s => if s then 0 else usizeMax
  | .fin q => Nat.min q.floor.toNat usizeMax

instance : FloatOps (Fl f) where
  add := add
  sub := sub
  mul := mul
  div := div
  neg := neg
  abs x := match x with
    | .nan => .nan
    | .inf _ => .inf false
    | .fin q => .fin (if q < 0 then -q else q)
  sqrt := sqrt
  max := max
  min := min
  lt := lt
  le := le
  eq := eq
  isNan x := match x with
    | .nan => true
    | _ => false
  isFinite x := match x with
    | .fin _ => true
    | _ => false
  zero := .fin 0
  one := .fin 1
  two := .fin 2
  c099 := mk f (99 / 100)
  eps := .fin (mkRat 1 (2 ^ (f.prec - 1)))
  delta := mk f (142 / 100)
  fmax := .fin (big f)
  fmin := .fin (-big f)
  ofNat n := mk f n
  toUsize := toUsize

end Fl

/-- `f64` -/
abbrev F64 := Fl binary64
/-- `f32` -/
abbrev F32 := Fl binary32

end CDT

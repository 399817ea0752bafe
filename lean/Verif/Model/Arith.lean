/-!
# Arithmetic and outcomes

`Float` (`/repo/src/types/f64.rs:1`, `/repo/src/types/f32.rs:1`) is abstracted by a class of
operations *without laws*, so that theorems stated for every `FloatOps` hold for every rounding
mode, for NaN and for overflow.
-/

namespace CDT

/-- The floating point operations used by the crate (`Float` in `/repo/src/types/f64.rs`,
`/repo/src/types/f32.rs`). No laws. -/
class FloatOps (F : Type) where
  add : F → F → F
  sub : F → F → F
  mul : F → F → F
  div : F → F → F
  neg : F → F
  abs : F → F
  sqrt : F → F
  /-- `Float::max` -/
  max : F → F → F
  /-- `Float::min` -/
  min : F → F → F
  /-- `<` -/
  lt : F → F → Bool
  /-- `<=` -/
  le : F → F → Bool
  /-- `==` -/
  eq : F → F → Bool
  isNan : F → Bool
  isFinite : F → Bool
  /-- literal `0.` -/
  zero : F
  /-- literal `1.` (only inside glam's `normalize`) -/
  one : F
  /-- literal `2.` (`utils.rs:268`) -/
  two : F
  /-- literal `0.99` (`triangulation.rs:657-658`) -/
  c099 : F
  /-- `Float::EPSILON` -/
  eps : F
  /-- `EXTRAPOLATION_DELTA_VALUE = 1.42` (`infinite.rs:27`) -/
  delta : F
  /-- `Float::MAX` -/
  fmax : F
  /-- `Float::MIN` -/
  fmin : F
  /-- `usize as Float` -/
  ofNat : Nat → F
  /-- `Float as usize` (saturating) -/
  toUsize : F → Nat

/-- The reasons for which the crate returns a `TriangulationError`. The message text
(`triangulation.rs:76-81`) is replaced by an enumeration. -/
inductive Err where
  /-- `triangulation.rs:479-486` -/
  | placementNotFound
  /-- `constrained_triangulation.rs:419-425` -/
  | cycleAroundVertex
  /-- `constrained_triangulation.rs:456-461` -/
  | crossedEdgeWithoutNeighbor
  /-- `constrained_triangulation.rs:546-551` -/
  | firstIntersectionNotFound
  /-- `constrained_triangulation.rs:580-587` -/
  | nextIntersectionNotFound
  /-- `constrained_triangulation.rs:852-858` -/
  | noConvexQuad
  deriving DecidableEq, Repr

/-- Outcome of a Rust function: a value, a returned error, a panic, or out of fuel
(used for `while` loops, stands for non-termination). -/
inductive Res (α : Type) where
  | ok (a : α)
  | err (e : Err)
  | panic
  | diverge
  deriving DecidableEq, Repr

namespace Res

/-- Sequencing: the `?` operator for errors; panic and divergence propagate. -/
@[simp] def bind {α β : Type} : Res α → (α → Res β) → Res β
  | ok a, f => f a
  | err e, _ => err e
  | panic, _ => panic
  | diverge, _ => diverge

instance : Monad Res where
  pure := ok
  bind := bind

@[simp] theorem pure_eq {α : Type} (a : α) : (pure a : Res α) = ok a := rfl
@[simp] theorem ok_bind {α β : Type} (a : α) (f : α → Res β) : (ok a >>= f) = f a := rfl
@[simp] theorem err_bind {α β : Type} (e : Err) (f : α → Res β) : (err e >>= f) = err e := rfl
@[simp] theorem panic_bind {α β : Type} (f : α → Res β) : ((panic : Res α) >>= f) = panic := rfl
@[simp] theorem diverge_bind {α β : Type} (f : α → Res β) :
    ((diverge : Res α) >>= f) = diverge := rfl

/-- `?` on a value: continue with the success value. -/
theorem bind_eq_ok {α β : Type} {x : Res α} {f : α → Res β} {b : β} :
    (x >>= f) = ok b ↔ ∃ a, x = ok a ∧ f a = ok b := by
  cases x <;> simp

end Res

/-- Slice indexing `l[i]`: out of bounds is a panic. -/
def getI {α : Type} (l : List α) (i : Nat) : Res α :=
  match l[i]? with
  | some a => .ok a
  | none => .panic

/-- Assignment `l[i] = a`: out of bounds is a panic. -/
def setI {α : Type} (l : List α) (i : Nat) (a : α) : Res (List α) :=
  if i < l.length then .ok (l.set i a) else .panic

end CDT

import Mathlib.Data.List.Perm.Subperm
import Mathlib.Algebra.BigOperators.Group.List.Basic
import Mathlib.Algebra.Order.BigOperators.Group.List
import Mathlib.Algebra.Order.Ring.Nat
import Mathlib.Tactic.Linarith
import Mathlib.Tactic.Ring
import Mathlib.Tactic.Positivity
import Mathlib.Tactic.FieldSimp
import Mathlib.Tactic.LinearCombination
import Mathlib.Tactic.FinCases
import Mathlib.Tactic.Push
import Verif.Model.Constrained

/-! Shared lemmas on the outcome monad and list access. -/

set_option linter.unusedSectionVars false

namespace CDT

theorem getI_eq_ok {α : Type} {l : List α} {i : Nat} {a : α} :
    getI l i = .ok a ↔ l[i]? = some a := by
  unfold getI; cases l[i]? <;> simp

theorem getI_of {α : Type} {l : List α} {i : Nat} {a : α} (h : l[i]? = some a) :
    getI l i = .ok a := getI_eq_ok.2 h

theorem getI_cases {α : Type} (l : List α) (i : Nat) :
    (∃ a, l[i]? = some a ∧ getI l i = .ok a) ∨ (l.length ≤ i ∧ getI l i = .panic) := by
  unfold getI
  cases h : l[i]? with
  | some a => exact .inl ⟨a, rfl, rfl⟩
  | none => exact .inr ⟨List.getElem?_eq_none_iff.1 h, rfl⟩

theorem getI_lt {α : Type} {l : List α} {i : Nat} (h : i < l.length) :
    ∃ a, l[i]? = some a ∧ getI l i = .ok a := by
  rcases getI_cases l i with h' | ⟨h', _⟩
  · exact h'
  · omega

theorem setI_eq_ok {α : Type} {l l' : List α} {i : Nat} {a : α} :
    setI l i a = .ok l' ↔ i < l.length ∧ l' = l.set i a := by
  unfold setI
  by_cases h : i < l.length
  · simp [h, eq_comm]
  · simp [h]

theorem lt_of_getElem? {α : Type} {l : List α} {i : Nat} {a : α} (h : l[i]? = some a) :
    i < l.length := (List.getElem?_eq_some_iff.1 h).1

theorem isInf_iff [IdCfg] {v : Nat} : isInf v = true ↔ INF0 ≤ v := decide_eq_true_iff
theorem isInf_false_iff [IdCfg] {v : Nat} : isInf v = false ↔ v < INF0 := by
  rw [← Bool.not_eq_true, isInf_iff]; omega
theorem isFin_iff [IdCfg] {v : Nat} : isFin v = true ↔ v < INF0 := decide_eq_true_iff
theorem isFin_false_iff [IdCfg] {v : Nat} : isFin v = false ↔ INF0 ≤ v := by
  rw [← Bool.not_eq_true, isFin_iff]; omega

/-- A result that is `ok` with a value satisfying `P`, or an error; never panic or divergence. -/
def Res.Safe {α : Type} (P : α → Prop) : Res α → Prop
  | .ok a => P a
  | .err _ => True
  | .panic => False
  | .diverge => False

theorem Res.Safe.bind {α β : Type} {P : α → Prop} {Q : β → Prop} {x : Res α} {f : α → Res β}
    (hx : x.Safe P) (hf : ∀ a, P a → (f a).Safe Q) : (x >>= f).Safe Q := by
  cases x with
  | ok a => exact hf a hx
  | err e => trivial
  | panic => exact hx
  | diverge => exact hx

theorem Res.Safe.mono {α : Type} {P Q : α → Prop} {x : Res α} (hx : x.Safe P) (h : ∀ a, P a → Q a) :
    x.Safe Q := by
  cases x with
  | ok a => exact h a hx
  | err e => trivial
  | panic => exact hx
  | diverge => exact hx

theorem Res.Safe.of_ok {α : Type} {P : α → Prop} {x : Res α} {a : α} (hx : x.Safe P)
    (h : x = .ok a) : P a := by subst h; exact hx

theorem Res.Safe.ne_panic {α : Type} {P : α → Prop} {x : Res α} (hx : x.Safe P) : x ≠ .panic := by
  rintro rfl; exact hx

theorem Res.Safe.ne_diverge {α : Type} {P : α → Prop} {x : Res α} (hx : x.Safe P) :
    x ≠ .diverge := by
  rintro rfl; exact hx

/-- If a result is not `diverge` then none of its parts is. -/
theorem Res.bind_ne_diverge {α β : Type} {x : Res α} {f : α → Res β} (hx : x ≠ .diverge)
    (hf : ∀ a, x = .ok a → f a ≠ .diverge) : (x >>= f) ≠ .diverge := by
  cases x with
  | ok a => exact hf a rfl
  | err e => simp
  | panic => simp
  | diverge => exact absurd rfl hx

theorem getI_ne_diverge {α : Type} (l : List α) (i : Nat) : getI l i ≠ .diverge := by
  unfold getI; cases l[i]? <;> simp

end CDT

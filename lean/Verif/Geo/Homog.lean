import Mathlib.Tactic.Ring
import Mathlib.Tactic.Linarith
import Mathlib.Tactic.FieldSimp
import Mathlib.Tactic.Positivity
import Verif.Model.Exact
import Verif.Proofs.Generic

/-!
# Homogeneous coordinates

Real vertices are points `(x, y, 1)`, the four artificial vertices are the directions `(-1,0,0)`,
`(0,1,0)`, `(1,0,0)`, `(0,-1,0)`. With this reading all side tests of the code, on finite and on
semi-infinite edges, are values of one determinant.
-/

set_option linter.unusedSectionVars false
set_option linter.unusedSimpArgs false
set_option linter.unusedVariables false

namespace CDT

/-- Homogeneous point. -/
@[ext] structure HP (K : Type) where
  x : K
  y : K
  w : K

section
variable {K : Type} [Field K] [LinearOrder K] [IsStrictOrderedRing K]

/-- Positive iff `a, b, c` turn clockwise. -/
def HP.o (a b c : HP K) : K :=
  -(a.x * (b.y * c.w - b.w * c.y) - a.y * (b.x * c.w - b.w * c.x) + a.w * (b.x * c.y - b.y * c.x))

theorem HP.o_cyc (a b c : HP K) : HP.o b c a = HP.o a b c := by simp only [HP.o]; ring
theorem HP.o_cyc' (a b c : HP K) : HP.o c a b = HP.o a b c := by simp only [HP.o]; ring
theorem HP.o_swap (a b c : HP K) : HP.o b a c = - HP.o a b c := by simp only [HP.o]; ring
theorem HP.o_swap' (a b c : HP K) : HP.o a c b = - HP.o a b c := by simp only [HP.o]; ring
theorem HP.o_swap'' (a b c : HP K) : HP.o c b a = - HP.o a b c := by simp only [HP.o]; ring
theorem HP.o_same (a b : HP K) : HP.o a a b = 0 := by simp only [HP.o]; ring
theorem HP.o_same' (a b : HP K) : HP.o a b b = 0 := by simp only [HP.o]; ring
theorem HP.o_same'' (a b : HP K) : HP.o a b a = 0 := by simp only [HP.o]; ring

/-- Barycentric identity, third coordinate. -/
theorem HP.bary_w (a b c p : HP K) :
    HP.o a b c * p.w = HP.o b c p * a.w + HP.o c a p * b.w + HP.o a b p * c.w := by
  simp only [HP.o]; ring
theorem HP.bary_x (a b c p : HP K) :
    HP.o a b c * p.x = HP.o b c p * a.x + HP.o c a p * b.x + HP.o a b p * c.x := by
  simp only [HP.o]; ring
theorem HP.bary_y (a b c p : HP K) :
    HP.o a b c * p.y = HP.o b c p * a.y + HP.o c a p * b.y + HP.o a b p * c.y := by
  simp only [HP.o]; ring
/-- Barycentric identity, inside an orientation. -/
theorem HP.bary_o (a b c p d e : HP K) :
    HP.o a b c * HP.o d e p = HP.o b c p * HP.o d e a + HP.o c a p * HP.o d e b + HP.o a b p * HP.o d e c := by
  simp only [HP.o]; ring

/-- A clockwise triangle has at least one finite vertex; with nonnegative weights. -/
theorem HP.o_inf3 {a b c : HP K} (ha : a.w = 0) (hb : b.w = 0) (hc : c.w = 0) : HP.o a b c = 0 := by
  simp only [HP.o, ha, hb, hc]; ring

/-- The orientation of two infinite and one finite vertex does not depend on the finite one. -/
theorem HP.o_inf2 {a b p q : HP K} (ha : a.w = 0) (hb : b.w = 0) (hp : p.w = 1) (hq : q.w = 1) :
    HP.o a b p = HP.o a b q := by
  simp only [HP.o, ha, hb, hp, hq]; ring

end

section
variable {K : Type} [Field K] [LinearOrder K] [IsStrictOrderedRing K] [ExactParams K] [IdCfg]

/-- A real point. -/
def HP.ofVtx (v : Vtx K) : HP K := ⟨v.x, v.y, 1⟩

/-- The four directions. -/
def HP.dir : Fin 4 → HP K
  | 0 => ⟨-1, 0, 0⟩
  | 1 => ⟨0, 1, 0⟩
  | 2 => ⟨1, 0, 0⟩
  | 3 => ⟨0, -1, 0⟩

/-- Homogeneous coordinates of a vertex id. -/
def hp (vs : List (Vtx K)) (i : Nat) : HP K :=
  if i < INF0 then HP.ofVtx (vs[i]?.getD ⟨0, 0⟩)
  else if i = INF0 then HP.dir 0
  else if i = INF1 then HP.dir 1
  else if i = INF2 then HP.dir 2
  else HP.dir 3

theorem hp_fin {vs : List (Vtx K)} {i : Nat} {v : Vtx K} (hi : i < INF0) (h : vs[i]? = some v) :
    hp vs i = HP.ofVtx v := by simp [hp, hi, h]

theorem hp_w_fin (vs : List (Vtx K)) {i : Nat} (hi : i < INF0) : (hp vs i).w = 1 := by
  simp [hp, hi, HP.ofVtx]

theorem hp_w_inf (vs : List (Vtx K)) {i : Nat} (hi : ¬ i < INF0) : (hp vs i).w = 0 := by
  unfold hp; rw [if_neg hi]; split <;> [rfl; split <;> [rfl; split <;> rfl]]

theorem hp_w_nonneg (vs : List (Vtx K)) (i : Nat) : 0 ≤ (hp vs i).w := by
  by_cases h : i < INF0
  · rw [hp_w_fin vs h]; exact zero_le_one
  · rw [hp_w_inf vs h]

theorem hp_w_pos_iff (vs : List (Vtx K)) (i : Nat) : 0 < (hp vs i).w ↔ i < INF0 := by
  by_cases h : i < INF0
  · rw [hp_w_fin vs h]; simp [h]
  · rw [hp_w_inf vs h]; simp [h]

/-- Local index of an infinite vertex and its direction. -/
theorem infLocal_hp (vs : List (Vtx K)) {v : Nat} {k : Fin 4} (h : infLocal v = .ok k) :
    hp vs v = HP.dir k ∧ INF0 ≤ v := by
  have hb := IdCfg.big
  unfold infLocal at h
  by_cases hv : v < INF0
  · rw [if_pos hv] at h; simp at h
  · rw [if_neg hv] at h
    refine ⟨?_, not_lt.1 hv⟩
    unfold hp
    rw [if_neg hv]
    have hI : INF1 = INF0 + 1 ∧ INF2 = INF0 + 2 := by simp only [INF0, INF1, INF2]; omega
    rw [hI.1, hI.2]
    match hm : v - INF0, h with
    | 0, h =>
      simp at h; subst h
      rw [if_pos (by omega)]
    | 1, h =>
      simp at h; subst h
      rw [if_neg (by omega), if_pos (by omega)]
    | 2, h =>
      simp at h; subst h
      rw [if_neg (by omega), if_neg (by omega), if_pos (by omega)]
    | 3, h =>
      simp at h; subst h
      rw [if_neg (by omega), if_neg (by omega), if_neg (by omega)]

theorem infLocal_ok {v : Nat} (h : INF0 ≤ v) (h2 : v ≤ INF3) : ∃ k, infLocal v = .ok k := by
  have hb := IdCfg.big
  unfold infLocal
  rw [if_neg (by omega)]
  have : v - INF0 ≤ 3 := by simp only [INF0, INF3] at *; omega
  match hm : v - INF0 with
  | 0 => exact ⟨_, rfl⟩
  | 1 => exact ⟨_, rfl⟩
  | 2 => exact ⟨_, rfl⟩
  | 3 => exact ⟨_, rfl⟩
  | n + 4 => omega

/-- Side of a point with respect to a finite edge. -/
theorem edgeSide_eq (a b p : Vtx K) :
    edgeSide (a, b) p = - HP.o (HP.ofVtx a) (HP.ofVtx b) (HP.ofVtx p) := by
  simp only [edgeSide, HP.o, HP.ofVtx, exact_sub, exact_mul]; ring

/-- Side of a point with respect to a semi-infinite edge. -/
theorem edgeSide_semiInf (a p : Vtx K) (k : Fin 4) :
    edgeSide (semiInf a k) p = - (142 / 100 * HP.o (HP.ofVtx a) (HP.dir k) (HP.ofVtx p)) := by
  fin_cases k <;>
  simp only [semiInf, xDelta, yDelta, edgeSide, HP.o, HP.ofVtx, HP.dir, exact_sub, exact_mul, exact_add,
    exact_neg, exact_zero, exact_delta] <;> ring

end

end CDT

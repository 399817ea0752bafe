import Verif.Geo.Frame
import Verif.Proofs.Rename
import Verif.Proofs.Fuel
import Mathlib.Data.Int.Cast.Lemmas
import Mathlib.Tactic.Positivity

/-!
# The first four insertions of a framed input

The predicates on the corners of a rectangle have the values they have on the unit square, so the run on the corners is
the run on the unit square, which is computed for the 24 orders of the corners.
-/

set_option linter.unusedSectionVars false
set_option linter.unusedSimpArgs false
set_option linter.unusedVariables false
set_option linter.unreachableTactic false
set_option linter.unusedTactic false

namespace CDT
open FloatOps

section
variable {K : Type} [Field K] [LinearOrder K] [IsStrictOrderedRing K] [ExactParams K]

theorem eps_pos' : (0 : K) < ExactParams.eps := ExactParams.eps_pos

theorem int_abs_ge {c : K} (hc : 0 < c) {z : ℤ} (hz : z ≠ 0) : c ≤ |c * z| := by
  rw [abs_mul, abs_of_pos hc, ← Int.cast_abs]
  have : (1 : K) ≤ ((|z| : ℤ) : K) := by exact_mod_cast Int.one_le_abs hz
  nlinarith

theorem onLeft_int {c : K} (hc : ExactParams.eps ≤ c) (z : ℤ) : onLeft (c * z : K) = decide (0 < z) := by
  have h0 := lt_of_lt_of_le eps_pos' hc
  simp only [onLeft, exact_lt, exact_zero, decide_eq_decide]
  rw [mul_pos_iff_of_pos_left h0]; exact Int.cast_pos

theorem onRight_int {c : K} (hc : ExactParams.eps ≤ c) (z : ℤ) : onRight (c * z : K) = decide (z < 0) := by
  have h0 := lt_of_lt_of_le eps_pos' hc
  simp only [onRight, exact_lt, exact_zero, decide_eq_decide]
  rw [← not_le, ← not_le, mul_nonneg_iff_of_pos_left h0, Int.cast_nonneg_iff]

theorem nearEdge_int {c : K} (hc : ExactParams.eps ≤ c) (z : ℤ) : nearEdge (c * z : K) = decide (z = 0) := by
  have h0 := lt_of_lt_of_le eps_pos' hc
  simp only [nearEdge, exact_lt, exact_abs, exact_eps, decide_eq_decide]
  constructor
  · intro h
    by_contra hz
    have := int_abs_ge h0 hz
    linarith
  · rintro rfl; simp [ExactParams.eps_pos]

theorem right_int {c : K} (hc : ExactParams.eps ≤ c) (z : ℤ) : decide (c * (z : K) ≤ -ExactParams.eps) = decide (z < 0) := by
  have h0 := lt_of_lt_of_le eps_pos' hc
  have he : (0 : K) < ExactParams.eps := eps_pos'
  rw [decide_eq_decide]
  constructor
  · intro h
    by_contra hz
    have : (0 : K) ≤ z := by exact_mod_cast not_lt.1 hz
    nlinarith
  · intro h
    have : (z : K) ≤ -1 := by
      have : z ≤ -1 := by omega
      exact_mod_cast this
    nlinarith

/-- 0 or 1. -/
def bz (b : Bool) : ℤ := cond b 1 0

theorem crn_bz (x y w t : K) (i j : Bool) : crn x y w t i j = ⟨x + w * bz i, y + t * bz j⟩ := by
  cases i <;> cases j <;> simp [crn, bz]

/-- Twice the area of a triangle of corners of the unit square. -/
def sideZ (i j k l m n : Bool) : ℤ := (bz n - bz j) * (bz k - bz i) - (bz m - bz i) * (bz l - bz j)

/-- The side of a corner of the unit square with respect to the semi-infinite edge of another one. -/
def semiZ (i j m n : Bool) : Fin 4 → ℤ
  | 0 => bz j - bz n
  | 1 => bz i - bz m
  | 2 => bz n - bz j
  | 3 => bz m - bz i

/-- The scale of the above. -/
def semiC (w t : K) : Fin 4 → K
  | 0 => 142 / 100 * t
  | 1 => 142 / 100 * w
  | 2 => 142 / 100 * t
  | 3 => 142 / 100 * w

variable {x y w t : K}

theorem side_crn (i j k l m n : Bool) : edgeSide (crn x y w t i j, crn x y w t k l) (crn x y w t m n) = w * t * sideZ i j k l m n := by
  simp only [crn_bz, edgeSide, exact_sub, exact_mul, sideZ]; push_cast; ring

theorem semi_crn [IdCfg] (i j m n : Bool) (k : Fin 4) : edgeSide (semiInf (crn x y w t i j) k) (crn x y w t m n) = semiC w t k * semiZ i j m n k := by
  rw [edgeSide_semiInf, o_semi]
  fin_cases k <;> simp only [crn_bz, semiZ, semiC] <;> push_cast <;> ring

theorem circ_crn (hw : 0 < w) (ht : 0 < t) (a a' b b' c c' p p' : Bool) :
    inCircumcircle (crn x y w t a a') (crn x y w t b b') (crn x y w t c c') (crn x y w t p p') = false := by
  have key : ∀ a b c : Bool, (0 : ℤ) ≤ (bz a - bz c) * (bz b - bz c) := by decide
  have hA : ∀ a b c a' b' c' : Bool, (0 : K) ≤ (w * bz a - w * bz c) * (w * bz b - w * bz c) + (t * bz a' - t * bz c') * (t * bz b' - t * bz c') := by
    intro a b c a' b' c'
    have h1 : (0 : K) ≤ (((bz a - bz c) * (bz b - bz c) : ℤ) : K) := by exact_mod_cast key a b c
    have h2 : (0 : K) ≤ (((bz a' - bz c') * (bz b' - bz c') : ℤ) : K) := by exact_mod_cast key a' b' c'
    push_cast at h1 h2
    have e : (w * bz a - w * bz c : K) * (w * bz b - w * bz c) + (t * bz a' - t * bz c') * (t * bz b' - t * bz c') =
        w ^ 2 * (((bz a : K) - bz c) * (bz b - bz c)) + t ^ 2 * (((bz a' : K) - bz c') * (bz b' - bz c')) := by ring
    rw [e]; positivity
  have h1 := hA a b c a' b' c'
  have h2 := hA b a p b' a' p'
  simp only [crn_bz, inCircumcircle, exact_sub, exact_mul, exact_add, exact_le, exact_zero, add_sub_add_left_eq_sub]
  rw [if_pos]
  simp only [Bool.and_eq_true, decide_eq_true_eq]
  exact ⟨h1, h2⟩

theorem close_crn (hw : ExactParams.eps ≤ w) (ht : ExactParams.eps ≤ t) (i j k l : Bool) :
    tooClose (crn x y w t i j) (crn x y w t k l) = (decide (bz i - bz k = 0) && decide (bz j - bz l = 0)) := by
  have := nearEdge_int hw (bz i - bz k)
  have h2 := nearEdge_int ht (bz j - bz l)
  rw [← this, ← h2]
  simp only [crn_bz, tooClose, nearEdge, exact_sub, exact_lt, exact_abs, exact_eps, add_sub_add_left_eq_sub]
  push_cast
  rw [mul_sub, mul_sub]

/-- The predicates resolve the rectangle. -/
structure Wide (w t : K) : Prop where
  wide : ExactParams.eps ≤ w
  tall : ExactParams.eps ≤ t
  wt : ExactParams.eps ≤ w * t

theorem Wide.semi (h : Wide w t) (k : Fin 4) : ExactParams.eps ≤ semiC w t k := by
  have h0 : (0 : K) < ExactParams.eps := eps_pos'
  have h1 := h.wide
  have h2 := h.tall
  fin_cases k <;> simp only [semiC] <;> linarith

theorem wide_unit : Wide (1 : K) 1 := ⟨ExactParams.eps_le_one, ExactParams.eps_le_one, by simpa using ExactParams.eps_le_one⟩

variable [IdCfg]

/-- Renaming of the vertices `0, 1, 2, 3` to `n, n + 1, n + 2, n + 3`. -/
def shiftId (n i : Nat) : Nat := if i < 4 then i + n else if i < n + 4 then i - 4 else i

/-- The corners of the rectangle are the corners of the unit square, renamed. -/
theorem ren_corners {J : Type} [Field J] [LinearOrder J] [IsStrictOrderedRing J] [ExactParams J] {x' y' w' t' : J} (hJ : Wide w' t') (hK : Wide w t)
    {vs : List (Vtx K)} {l : List (Bool × Bool)} (hl : l.length = 4) {n : Nat} (hn : n + 4 ≤ INF0)
    (hv : ∀ (k : Nat) (c : Bool × Bool), l[k]? = some c → vs[n + k]? = some (crn x y w t c.1 c.2)) :
    Ren (shiftId n) (l.map fun c => crn x' y' w' t' c.1 c.2) vs := by
  have pair : ∀ {a a'}, RPair (shiftId n) (l.map fun c => crn x' y' w' t' c.1 c.2) vs a a' → ∃ i j, a = crn x' y' w' t' i j ∧ a' = crn x y w t i j := by
    rintro a a' ⟨i, h1, h2⟩
    rw [List.getElem?_map, Option.map_eq_some_iff] at h1
    obtain ⟨c, hc, rfl⟩ := h1
    have hi : i < 4 := by have := (List.getElem?_eq_some_iff.1 hc).1; omega
    unfold shiftId at h2
    rw [if_pos hi, Nat.add_comm, hv i c hc] at h2
    simp only [Option.some.injEq] at h2
    exact ⟨_, _, rfl, h2.symm⟩
  have hwJ : 0 < w' := lt_of_lt_of_le eps_pos' hJ.wide
  have htJ : 0 < t' := lt_of_lt_of_le eps_pos' hJ.tall
  have hwK : 0 < w := lt_of_lt_of_le eps_pos' hK.wide
  have htK : 0 < t := lt_of_lt_of_le eps_pos' hK.tall
  refine ⟨?_, ?_, ?_, ?_, ?_, ?_, ?_, ?_, ?_, ?_, ?_, ?_⟩
  · intro i j h
    unfold shiftId at h
    repeat' split at h
    all_goals omega
  · intro i h
    unfold shiftId
    rw [if_neg (by omega), if_neg (by omega)]
  · intro i h
    unfold shiftId
    split
    · omega
    · split <;> omega
  · intro i a h
    rw [List.getElem?_map, Option.map_eq_some_iff] at h
    obtain ⟨c, hc, rfl⟩ := h
    have hi : i < 4 := by have := (List.getElem?_eq_some_iff.1 hc).1; omega
    unfold shiftId
    rw [if_pos hi, Nat.add_comm]
    exact ⟨_, hv i c hc⟩
  · intro a a' b b' p p' ha hb hp
    obtain ⟨i, j, rfl, rfl⟩ := pair ha
    obtain ⟨k, l, rfl, rfl⟩ := pair hb
    obtain ⟨m, n, rfl, rfl⟩ := pair hp
    rw [side_crn, side_crn, onLeft_int hJ.wt, onLeft_int hK.wt]
  · intro a a' b b' p p' ha hb hp
    obtain ⟨i, j, rfl, rfl⟩ := pair ha
    obtain ⟨k, l, rfl, rfl⟩ := pair hb
    obtain ⟨m, n, rfl, rfl⟩ := pair hp
    rw [side_crn, side_crn, nearEdge_int hJ.wt, nearEdge_int hK.wt]
  · intro a a' b b' p p' ha hb hp
    obtain ⟨i, j, rfl, rfl⟩ := pair ha
    obtain ⟨k, l, rfl, rfl⟩ := pair hb
    obtain ⟨m, n, rfl, rfl⟩ := pair hp
    unfold strictlyRightOfEdge
    simp only [exact_le, exact_neg, exact_eps]
    rw [side_crn, side_crn, right_int hJ.wt, right_int hK.wt]
  · intro a a' p p' k ha hp
    obtain ⟨i, j, rfl, rfl⟩ := pair ha
    obtain ⟨m, n, rfl, rfl⟩ := pair hp
    rw [semi_crn, semi_crn, onLeft_int (hJ.semi k), onLeft_int (hK.semi k)]
  · intro a a' p p' k ha hp
    obtain ⟨i, j, rfl, rfl⟩ := pair ha
    obtain ⟨m, n, rfl, rfl⟩ := pair hp
    rw [semi_crn, semi_crn, onRight_int (hJ.semi k), onRight_int (hK.semi k)]
  · intro a a' p p' k ha hp
    obtain ⟨i, j, rfl, rfl⟩ := pair ha
    obtain ⟨m, n, rfl, rfl⟩ := pair hp
    rw [semi_crn, semi_crn, nearEdge_int (hJ.semi k), nearEdge_int (hK.semi k)]
  · intro a a' b b' ha hb
    obtain ⟨i, j, rfl, rfl⟩ := pair ha
    obtain ⟨k, l, rfl, rfl⟩ := pair hb
    rw [close_crn hJ.wide hJ.tall, close_crn hK.wide hK.tall]
  · intro a a' b b' c c' p p' ha hb hc hp
    obtain ⟨i, j, rfl, rfl⟩ := pair ha
    obtain ⟨k, l, rfl, rfl⟩ := pair hb
    obtain ⟨i', j', rfl, rfl⟩ := pair hc
    obtain ⟨k', l', rfl, rfl⟩ := pair hp
    rw [circ_crn hwJ htJ, circ_crn hwK htK]

end

/-- Decidable form of success. -/
def Res.isOk {α : Type} : Res α → Bool
  | .ok _ => true
  | _ => false

/-- The corners of the unit square. -/
def allCorners : List (Bool × Bool) := [(false, false), (false, true), (true, false), (true, true)]

/-- Inserting the corners of the unit square, the last one first. -/
def cornerRun [IdCfg] (l : List (Bool × Bool)) : Res DT :=
  insertAll (l.map fun c => crn (0 : ℚ) 0 1 1 c.1 c.2) 30 [2, 1, 0] ⟨initialTriangles 3, 3, none⟩

theorem cornerRun_u32 : ∀ a b c d e f g h : Bool, [(a, b), (c, d), (e, f), (g, h)].Nodup →
    (@cornerRun u32Cfg [(a, b), (c, d), (e, f), (g, h)]).isOk = true := by
  decide +kernel

theorem cornerRun_u64 : ∀ a b c d e f g h : Bool, [(a, b), (c, d), (e, f), (g, h)].Nodup →
    (@cornerRun u64Cfg [(a, b), (c, d), (e, f), (g, h)]).isOk = true := by
  decide +kernel

/-- The configurations of the crate (`types.rs`): `u32` indexes, or `u64` ones. -/
def RealCfg [c : IdCfg] : Prop := c = u32Cfg ∨ c = u64Cfg

theorem cornerRun_ok [IdCfg] (hc : RealCfg) {l : List (Bool × Bool)} (hl : l.Perm allCorners) : (cornerRun l).isOk = true := by
  have hn : l.Nodup := hl.nodup_iff.2 (by decide)
  have h4 := hl.length_eq
  match l, h4, hn with
  | [(a, b), (c, d), (e, f), (g, h)], _, hn =>
    rcases hc with rfl | rfl
    · exact cornerRun_u32 a b c d e f g h hn
    · exact cornerRun_u64 a b c d e f g h hn

/-- The corners can be inserted. -/
theorem corners_ok {K : Type} [Field K] [LinearOrder K] [IsStrictOrderedRing K] [ExactParams K] [IdCfg] (hc : RealCfg) {x y w t : K}
    (hK : Wide w t) {vs : List (Vtx K)} {l : List (Bool × Bool)} (hl : l.Perm allCorners) {n : Nat} (hn : n + 4 ≤ INF0)
    (hv : ∀ (k : Nat) (c : Bool × Bool), l[k]? = some c → vs[n + k]? = some (crn x y w t c.1 c.2)) {fuel : Nat} (hf : 30 ≤ fuel)
    (m : Option (List Nat)) : ∃ s, insertAll vs fuel [n + 2, n + 1, n] ⟨initialTriangles (n + 3), 3, m⟩ = .ok s := by
  have hR := ren_corners (x' := (0 : ℚ)) (y' := 0) wide_unit hK (by rw [hl.length_eq]; rfl) hn hv
  have h1 := cornerRun_ok hc hl
  cases h2 : cornerRun l with
  | ok s =>
    have := hR.insertAll 30 [2, 1, 0] (hR.initial 3 3 none m)
    unfold cornerRun at h2
    rw [h2] at this
    obtain ⟨s', hs', -⟩ := this.ok_of
    have e : [2, 1, 0].map (shiftId n) = [n + 2, n + 1, n] := by simp [shiftId]; omega
    have e' : shiftId n 3 = n + 3 := by simp [shiftId]; omega
    rw [e, e'] at hs'
    exact ⟨s', by rw [← hs']; exact insertAll_fuel _ _ _ _ _ hf (by show CDT.insertAll vs 30 _ _ ≠ _; rw [hs']; simp)⟩
  | err e => rw [h2] at h1; simp [Res.isOk] at h1
  | panic => rw [h2] at h1; simp [Res.isOk] at h1
  | diverge => rw [h2] at h1; simp [Res.isOk] at h1

end CDT

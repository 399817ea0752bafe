import Verif.Geo.Corners
import Verif.Proofs.OneBin
import Mathlib.Data.Sign.Basic
import Mathlib.Tactic.FinCases

/-!
# Runs on three vertices

The predicates on three positions only depend on the order of the coordinates, on the orientation and on which angle is
obtuse. All combinations that occur are listed, with one triangle of integer coordinates each; the run on three vertices
is the run on the triangle of the list with the same combination, which is computed.
-/

set_option linter.unusedSectionVars false
set_option linter.unusedSimpArgs false
set_option linter.unusedVariables false
set_option linter.unreachableTactic false
set_option linter.unusedTactic false

namespace CDT
open FloatOps Plane SignType

/-- The combination: signs of the differences of the coordinates of three positions, their orientation, obtuse angles. -/
structure Pat where
  x01 : SignType
  x02 : SignType
  x12 : SignType
  y01 : SignType
  y02 : SignType
  y12 : SignType
  o : SignType
  d0 : Bool
  d1 : Bool
  d2 : Bool
  deriving DecidableEq

/-- Scalar product of the sides at `a`. -/
def dotAt {R : Type} [Ring R] (a b c : Vtx R) : R := (b.x - a.x) * (c.x - a.x) + (b.y - a.y) * (c.y - a.y)

/-- The combination of three positions. -/
def pat {R : Type} [Ring R] [LinearOrder R] (a b c : Vtx R) : Pat :=
  ⟨sign (a.x - b.x), sign (a.x - c.x), sign (b.x - c.x), sign (a.y - b.y), sign (a.y - c.y), sign (b.y - c.y),
    sign ((b.x - a.x) * (c.y - a.y) - (c.x - a.x) * (b.y - a.y)), decide (dotAt a b c < 0), decide (dotAt b c a < 0), decide (dotAt c a b < 0)⟩

/-- What is known about the sign of a sum. -/
def AddOk (s t r : SignType) : Bool := (!(decide (0 ≤ s) && decide (0 ≤ t)) || decide (r = max s t)) &&
  (!(decide (s ≤ 0) && decide (t ≤ 0)) || decide (r = min s t))

/-- What is known about the obtuseness of an angle. -/
def DotOk (s t : SignType) (d : Bool) : Bool := (!(decide (0 ≤ s) && decide (0 ≤ t)) || !d) &&
  (!(decide (s ≤ 0) && decide (t ≤ 0) && (decide (s < 0) || decide (t < 0))) || d)

/-- Necessary conditions on combinations. -/
def Pat.feas (p : Pat) : Bool :=
  AddOk p.x01 p.x12 p.x02 && AddOk p.x02 (-p.x12) p.x01 && AddOk (-p.x01) p.x02 p.x12 &&
  (AddOk p.y01 p.y12 p.y02 && AddOk p.y02 (-p.y12) p.y01 && AddOk (-p.y01) p.y02 p.y12) &&
  (AddOk (p.x01 * p.y02) (-(p.x02 * p.y01)) p.o && AddOk (-(p.x12 * p.y01)) (p.x01 * p.y12) p.o &&
    AddOk (p.x02 * p.y12) (-(p.x12 * p.y02)) p.o) &&
  (DotOk (p.x01 * p.x02) (p.y01 * p.y02) p.d0 && DotOk (-(p.x01 * p.x12)) (-(p.y01 * p.y12)) p.d1 &&
    DotOk (p.x02 * p.x12) (p.y02 * p.y12) p.d2) &&
  (!(p.d0 && p.d1) && !(p.d0 && p.d2) && !(p.d1 && p.d2))

section
variable {K : Type} [Field K] [LinearOrder K] [IsStrictOrderedRing K]

theorem addOk (u v : K) {r : K} (h : r = u + v) : AddOk (sign u) (sign v) (sign r) = true := by
  subst h
  rcases lt_trichotomy 0 u with hu | rfl | hu <;> rcases lt_trichotomy 0 v with hv | rfl | hv
  · rw [sign_pos hu, sign_pos hv, sign_pos (by linarith)]; decide
  · rw [sign_pos hu, sign_zero, sign_pos (by linarith)]; decide
  · rw [sign_pos hu, sign_neg hv]; generalize sign (u + v) = s; revert s; decide
  · rw [sign_pos hv, sign_zero, sign_pos (by linarith)]; decide
  · rw [add_zero, sign_zero]; decide
  · rw [sign_neg hv, sign_zero, sign_neg (by linarith)]; decide
  · rw [sign_neg hu, sign_pos hv]; generalize sign (u + v) = s; revert s; decide
  · rw [sign_neg hu, sign_zero, sign_neg (by linarith)]; decide
  · rw [sign_neg hu, sign_neg hv, sign_neg (by linarith)]; decide

theorem dotOk (u v : K) {r : K} (h : r = u + v) : DotOk (sign u) (sign v) (decide (r < 0)) = true := by
  subst h
  rcases lt_trichotomy 0 u with hu | rfl | hu <;> rcases lt_trichotomy 0 v with hv | rfl | hv
  · rw [sign_pos hu, sign_pos hv, decide_eq_false (by linarith)]; decide
  · rw [sign_pos hu, sign_zero, decide_eq_false (by linarith)]; decide
  · rw [sign_pos hu, sign_neg hv]; generalize decide (u + v < 0) = s; revert s; decide
  · rw [sign_pos hv, sign_zero, decide_eq_false (by linarith)]; decide
  · rw [add_zero, sign_zero, decide_eq_false (by simp)]; decide
  · rw [sign_neg hv, sign_zero, decide_eq_true (by linarith)]; decide
  · rw [sign_neg hu, sign_pos hv]; generalize decide (u + v < 0) = s; revert s; decide
  · rw [sign_neg hu, sign_zero, decide_eq_true (by linarith)]; decide
  · rw [sign_neg hu, sign_neg hv, decide_eq_true (by linarith)]; decide

theorem feas_pat (a b c : Vtx K) : (pat a b c).feas = true := by
  simp only [Pat.feas, pat, Bool.and_eq_true]
  refine ⟨⟨⟨⟨⟨⟨?_, ?_⟩, ?_⟩, ⟨⟨?_, ?_⟩, ?_⟩⟩, ⟨⟨?_, ?_⟩, ?_⟩⟩, ⟨⟨?_, ?_⟩, ?_⟩⟩, ⟨⟨?_, ?_⟩, ?_⟩⟩
  · exact addOk _ _ (by ring)
  · rw [← Left.sign_neg]; exact addOk _ _ (by ring)
  · rw [← Left.sign_neg]; exact addOk _ _ (by ring)
  · exact addOk _ _ (by ring)
  · rw [← Left.sign_neg]; exact addOk _ _ (by ring)
  · rw [← Left.sign_neg]; exact addOk _ _ (by ring)
  · rw [← sign_mul, ← sign_mul, ← Left.sign_neg]; exact addOk _ _ (by ring)
  · rw [← sign_mul, ← sign_mul, ← Left.sign_neg]; exact addOk _ _ (by ring)
  · rw [← sign_mul, ← sign_mul, ← Left.sign_neg]; exact addOk _ _ (by ring)
  · rw [← sign_mul, ← sign_mul]; exact dotOk _ _ (by unfold dotAt; ring)
  · rw [← sign_mul, ← sign_mul, ← Left.sign_neg, ← Left.sign_neg]; exact dotOk _ _ (by unfold dotAt; ring)
  · rw [← sign_mul, ← sign_mul]; exact dotOk _ _ (by unfold dotAt; ring)
  · have : dotAt a b c + dotAt b c a = (a.x - b.x) ^ 2 + (a.y - b.y) ^ 2 := by unfold dotAt; ring
    have := sq_nonneg (a.x - b.x); have := sq_nonneg (a.y - b.y)
    by_cases h : dotAt a b c < 0
    · simp [h]; linarith
    · simp [h]
  · have : dotAt a b c + dotAt c a b = (a.x - c.x) ^ 2 + (a.y - c.y) ^ 2 := by unfold dotAt; ring
    have := sq_nonneg (a.x - c.x); have := sq_nonneg (a.y - c.y)
    by_cases h : dotAt a b c < 0
    · simp [h]; linarith
    · simp [h]
  · have : dotAt b c a + dotAt c a b = (b.x - c.x) ^ 2 + (b.y - c.y) ^ 2 := by unfold dotAt; ring
    have := sq_nonneg (b.x - c.x); have := sq_nonneg (b.y - c.y)
    by_cases h : dotAt b c a < 0
    · simp [h]; linarith
    · simp [h]

end

/-- One triangle of integer coordinates for every combination. -/
def triTable : List (ℤ × ℤ × ℤ × ℤ × ℤ × ℤ) :=
  [(0,0,0,0,0,0), (0,0,0,0,0,1), (0,0,0,0,1,0), (0,0,0,0,1,1), (0,0,0,1,0,0), (0,0,0,1,0,1), (0,0,0,1,0,2), (0,0,0,1,1,0),
  (0,0,0,1,1,1), (0,0,0,1,1,2), (0,0,0,2,0,1), (0,0,0,2,1,1), (0,0,0,3,1,1), (0,0,1,0,0,0), (0,0,1,0,0,1), (0,0,1,0,1,0),
  (0,0,1,0,1,1), (0,0,1,0,2,0), (0,0,1,0,2,1), (0,0,1,1,0,0), (0,0,1,1,0,1), (0,0,1,1,0,2), (0,0,1,1,0,3), (0,0,1,1,1,0),
  (0,0,1,1,1,1), (0,0,1,1,1,2), (0,0,1,1,2,0), (0,0,1,1,2,1), (0,0,1,1,2,2), (0,0,1,1,2,3), (0,0,1,1,3,0), (0,0,1,1,3,2),
  (0,0,1,2,0,1), (0,0,1,2,1,1), (0,0,1,2,2,1), (0,0,1,2,4,1), (0,0,1,4,2,1), (0,0,2,0,1,0), (0,0,2,0,1,1), (0,0,2,1,1,0),
  (0,0,2,1,1,1), (0,0,2,1,1,2), (0,0,2,1,1,4), (0,0,2,2,1,1), (0,0,2,3,1,1), (0,0,2,3,1,2), (0,0,3,0,1,1), (0,0,4,1,1,2),
  (0,1,0,0,0,0), (0,1,0,0,0,1), (0,1,0,0,0,2), (0,1,0,0,1,0), (0,1,0,0,1,1), (0,1,0,0,1,2), (0,1,0,1,0,0), (0,1,0,1,1,0),
  (0,1,0,2,0,0), (0,1,0,2,1,0), (0,1,1,0,0,0), (0,1,1,0,0,1), (0,1,1,0,0,2), (0,1,1,0,1,0), (0,1,1,0,1,1), (0,1,1,0,1,2),
  (0,1,1,0,1,3), (0,1,1,0,2,0), (0,1,1,0,2,1), (0,1,1,0,2,2), (0,1,1,0,2,4), (0,1,1,0,3,1), (0,1,1,0,4,2), (0,1,1,1,0,0),
  (0,1,1,1,1,0), (0,1,1,1,2,0), (0,1,1,2,0,0), (0,1,1,2,1,0), (0,1,1,2,2,0), (0,1,1,2,4,0), (0,1,1,3,1,0), (0,1,1,4,2,0),
  (0,1,2,0,1,0), (0,1,2,0,1,1), (0,1,2,0,1,2), (0,1,2,0,1,4), (0,1,2,1,1,0), (0,1,2,2,1,0), (0,1,2,4,1,0), (0,1,3,1,1,0),
  (0,1,4,0,1,2), (0,1,4,2,1,0), (0,2,0,0,0,1), (0,2,0,0,1,1), (0,2,0,1,0,0), (0,2,0,1,1,0), (0,2,1,0,0,1), (0,2,1,0,1,1),
  (0,2,1,0,2,1), (0,2,1,0,4,1), (0,2,1,1,0,0), (0,2,1,1,1,0), (0,2,1,1,2,0), (0,2,1,1,3,0), (0,2,2,0,1,1), (0,2,2,1,1,0),
  (0,2,2,1,3,0), (0,2,3,0,1,1), (0,2,3,0,2,1), (0,2,4,1,1,0), (0,3,0,0,1,1), (0,3,1,1,0,0), (0,4,1,0,2,1), (0,4,2,1,1,0),
  (1,0,0,0,0,0), (1,0,0,0,0,1), (1,0,0,0,1,0), (1,0,0,0,1,1), (1,0,0,0,2,0), (1,0,0,0,2,1), (1,0,0,1,0,0), (1,0,0,1,0,1),
  (1,0,0,1,0,2), (1,0,0,1,1,0), (1,0,0,1,1,1), (1,0,0,1,1,2), (1,0,0,1,1,3), (1,0,0,1,2,0), (1,0,0,1,2,1), (1,0,0,1,2,2),
  (1,0,0,1,2,4), (1,0,0,1,3,1), (1,0,0,1,4,2), (1,0,0,2,0,1), (1,0,0,2,1,1), (1,0,0,2,2,1), (1,0,0,2,4,1), (1,0,0,4,2,1),
  (1,0,1,0,0,0), (1,0,1,0,0,1), (1,0,1,1,0,0), (1,0,1,1,0,1), (1,0,1,1,0,2), (1,0,1,2,0,1), (1,0,1,3,0,1), (1,0,2,0,0,0),
  (1,0,2,0,0,1), (1,0,2,1,0,0), (1,0,2,1,0,1), (1,0,2,1,0,2), (1,0,2,1,0,4), (1,0,2,2,0,1), (1,0,2,4,0,1), (1,0,3,1,0,1),
  (1,0,4,1,0,2), (1,0,4,2,0,1), (1,1,0,0,0,0), (1,1,0,0,0,1), (1,1,0,0,0,2), (1,1,0,0,0,3), (1,1,0,0,1,0), (1,1,0,0,1,1),
  (1,1,0,0,1,2), (1,1,0,0,2,0), (1,1,0,0,2,1), (1,1,0,0,2,2), (1,1,0,0,2,3), (1,1,0,0,3,0), (1,1,0,0,3,2), (1,1,0,1,0,0),
  (1,1,0,1,1,0), (1,1,0,1,2,0), (1,1,0,2,0,0), (1,1,0,2,1,0), (1,1,0,2,2,0), (1,1,0,2,3,0), (1,1,0,3,0,0), (1,1,1,0,0,0),
  (1,1,1,0,0,1), (1,1,1,0,0,2), (1,1,1,1,0,0), (1,1,1,2,0,0), (1,1,2,0,0,0), (1,1,2,0,0,1), (1,1,2,0,0,2), (1,1,2,0,0,3),
  (1,1,2,1,0,0), (1,1,2,2,0,0), (1,1,2,3,0,0), (1,1,3,0,0,0), (1,1,3,2,0,0), (1,2,0,0,0,1), (1,2,0,0,1,1), (1,2,0,0,2,1),
  (1,2,0,0,4,1), (1,2,0,1,0,0), (1,2,0,1,1,0), (1,2,0,1,2,0), (1,2,0,1,4,0), (1,2,0,3,2,0), (1,2,1,0,0,1), (1,2,1,1,0,0),
  (1,2,2,0,0,1), (1,2,2,0,0,3), (1,2,2,1,0,0), (1,2,4,0,0,1), (1,2,4,1,0,0), (1,3,0,1,1,0), (1,3,1,0,0,1), (1,4,0,0,2,1),
  (1,4,0,1,2,0), (1,4,2,0,0,1), (1,4,2,1,0,0), (2,0,0,0,1,0), (2,0,0,0,1,1), (2,0,0,1,1,0), (2,0,0,1,1,1), (2,0,0,1,1,2),
  (2,0,0,1,1,4), (2,0,0,2,1,1), (2,0,0,3,1,1), (2,0,0,3,1,2), (2,0,1,0,0,0), (2,0,1,0,0,1), (2,0,1,1,0,0), (2,0,1,1,0,1),
  (2,0,1,1,0,2), (2,0,1,1,0,3), (2,0,1,2,0,1), (2,0,1,2,0,3), (2,0,1,4,0,1), (2,1,0,0,1,0), (2,1,0,0,1,1), (2,1,0,0,1,2),
  (2,1,0,0,1,4), (2,1,0,1,1,0), (2,1,0,2,1,0), (2,1,0,4,1,0), (2,1,1,0,0,0), (2,1,1,0,0,1), (2,1,1,0,0,2), (2,1,1,0,0,4),
  (2,1,1,1,0,0), (2,1,1,2,0,0), (2,1,1,4,0,0), (2,2,0,0,1,1), (2,2,0,1,1,0), (2,2,1,0,0,1), (2,2,1,1,0,0), (2,3,0,0,1,1),
  (2,3,0,0,1,2), (2,3,1,1,0,0), (2,3,1,2,0,0), (2,4,0,1,1,0), (2,4,1,0,0,1), (3,0,0,0,1,1), (3,0,1,1,0,0), (3,1,0,1,1,0),
  (3,1,1,0,0,1), (4,0,0,1,1,2), (4,0,1,2,0,1), (4,1,0,0,1,2), (4,1,0,2,1,0), (4,1,1,0,0,2), (4,1,1,2,0,0), (4,2,0,1,1,0),
  (4,2,1,0,0,1)]

/-- The positions of an entry of the list. -/
def tri6 (r : ℤ × ℤ × ℤ × ℤ × ℤ × ℤ) : Vtx ℤ × Vtx ℤ × Vtx ℤ := (⟨r.1, r.2.1⟩, ⟨r.2.2.1, r.2.2.2.1⟩, ⟨r.2.2.2.2.1, r.2.2.2.2.2⟩)

/-- The sign of an integer. -/
def sgZ (z : ℤ) : SignType := if 0 < z then 1 else if z < 0 then -1 else 0

/-- An entry has a given combination. -/
def matchPat (p : Pat) (r : ℤ × ℤ × ℤ × ℤ × ℤ × ℤ) : Bool :=
  match r with
  | (ax, ay, bx, b_y, cx, cy) =>
    decide (sgZ (ax - bx) = p.x01) && (decide (sgZ (ay - b_y) = p.y01) && (decide (sgZ (ax - cx) = p.x02) && (decide (sgZ (ay - cy) = p.y02) &&
    (decide (sgZ (bx - cx) = p.x12) && (decide (sgZ (b_y - cy) = p.y12) &&
    (decide (sgZ ((bx - ax) * (cy - ay) - (cx - ax) * (b_y - ay)) = p.o) &&
    (decide ((bx - ax) * (cx - ax) + (b_y - ay) * (cy - ay) < 0) == p.d0 && (decide ((cx - bx) * (ax - bx) + (cy - b_y) * (ay - b_y) < 0) == p.d1 &&
    decide ((ax - cx) * (bx - cx) + (ay - cy) * (b_y - cy) < 0) == p.d2))))))))

/-- All signs. -/
def sgs : List SignType := [-1, 0, 1]

theorem triTable_complete' : (sgs.all fun x01 => sgs.all fun x02 => sgs.all fun x12 => sgs.all fun y01 => sgs.all fun y02 => sgs.all fun y12 =>
    sgs.all fun o => [true, false].all fun d0 => [true, false].all fun d1 => [true, false].all fun d2 =>
    !(Pat.feas ⟨x01, x02, x12, y01, y02, y12, o, d0, d1, d2⟩) || triTable.any (matchPat ⟨x01, x02, x12, y01, y02, y12, o, d0, d1, d2⟩)) = true := by
  decide +kernel

theorem mem_sgs (s : SignType) : s ∈ sgs := by revert s; decide

theorem triTable_complete (p : Pat) (h : p.feas = true) : ∃ r ∈ triTable, matchPat p r = true := by
  have := triTable_complete'
  simp only [List.all_eq_true] at this
  have := this _ (mem_sgs p.x01) _ (mem_sgs p.x02) _ (mem_sgs p.x12) _ (mem_sgs p.y01) _ (mem_sgs p.y02) _ (mem_sgs p.y12) _ (mem_sgs p.o)
    p.d0 (by cases p.d0 <;> simp) p.d1 (by cases p.d1 <;> simp) p.d2 (by cases p.d2 <;> simp)
  have e : (⟨p.x01, p.x02, p.x12, p.y01, p.y02, p.y12, p.o, p.d0, p.d1, p.d2⟩ : Pat) = p := rfl
  rw [e, h] at this
  simpa using this

/-- The entry with rational coordinates. -/
def castV (a b : ℤ) : Vtx ℚ := ⟨a, b⟩

theorem sgZ_cast (z : ℤ) : sgZ z = sign (z : ℚ) := by
  unfold sgZ
  rcases lt_trichotomy 0 z with h | h | h
  · rw [if_pos h, sign_pos (by exact_mod_cast h)]
  · subst h; simp
  · rw [if_neg (by omega), if_pos h, sign_neg (by exact_mod_cast h)]

theorem matchPat_pat {p : Pat} {ax ay bx b_y cx cy : ℤ} (h : matchPat p (ax, ay, bx, b_y, cx, cy) = true) :
    p = pat (castV ax ay) (castV bx b_y) (castV cx cy) := by
  simp only [matchPat, Bool.and_eq_true, decide_eq_true_eq, beq_iff_eq, sgZ_cast] at h
  obtain ⟨h1, h2, h3, h4, h5, h6, h7, h8, h9, h10⟩ := h
  obtain ⟨_, _, _, _, _, _, _, _, _, _⟩ := p
  simp only at h1 h2 h3 h4 h5 h6 h7 h8 h9 h10
  subst h1 h2 h3 h4 h5 h6 h7 h8 h9 h10
  simp only [pat, Pat.mk.injEq]
  refine ⟨?_, ?_, ?_, ?_, ?_, ?_, ?_, ?_, ?_, ?_⟩ <;> first | rw [decide_eq_decide] | skip
  all_goals simp only [castV, dotAt]; push_cast
  all_goals first | rfl | norm_cast

section
variable {K : Type} [Field K] [LinearOrder K] [IsStrictOrderedRing K]

/-- The positions by number. -/
def nth3 {R : Type} (a b c : Vtx R) : Fin 3 → Vtx R
  | 0 => a
  | 1 => b
  | 2 => c

/-- Sign of the difference of the numbers. -/
def ltSg (s01 s02 s12 : SignType) : Fin 3 → Fin 3 → SignType
  | 0, 1 => s01
  | 0, 2 => s02
  | 1, 2 => s12
  | 1, 0 => -s01
  | 2, 0 => -s02
  | 2, 1 => -s12
  | _, _ => 0

/-- Orientation of the numbers. -/
def perm3 : Fin 3 → Fin 3 → Fin 3 → SignType
  | 0, 1, 2 => 1
  | 1, 2, 0 => 1
  | 2, 0, 1 => 1
  | 0, 2, 1 => -1
  | 2, 1, 0 => -1
  | 1, 0, 2 => -1
  | _, _, _ => 0

/-- The angle at a number. -/
def ang3 (d0 d1 d2 : Bool) : Fin 3 → Fin 3 → Fin 3 → Bool
  | 0, 1, 2 => d0
  | 0, 2, 1 => d0
  | 1, 0, 2 => d1
  | 1, 2, 0 => d1
  | 2, 0, 1 => d2
  | 2, 1, 0 => d2
  | _, _, _ => false

theorem idx3_cases : ∀ i : Fin 3, i = 0 ∨ i = 1 ∨ i = 2 := by decide

theorem sign_sub_swap (u v : K) : sign (u - v) = -sign (v - u) := by rw [← Left.sign_neg, neg_sub]

theorem nth3_x (a b c : Vtx K) (i j : Fin 3) : sign ((nth3 a b c i).x - (nth3 a b c j).x) = ltSg (pat a b c).x01 (pat a b c).x02 (pat a b c).x12 i j := by
  fin_cases i <;> fin_cases j <;> simp only [nth3, ltSg, pat] <;> first | rfl | exact sign_sub_swap _ _ | (rw [sub_self, sign_zero])

theorem nth3_y (a b c : Vtx K) (i j : Fin 3) : sign ((nth3 a b c i).y - (nth3 a b c j).y) = ltSg (pat a b c).y01 (pat a b c).y02 (pat a b c).y12 i j := by
  fin_cases i <;> fin_cases j <;> simp only [nth3, ltSg, pat] <;> first | rfl | exact sign_sub_swap _ _ | (rw [sub_self, sign_zero])

theorem nth3_o (a b c : Vtx K) (i j k : Fin 3) : sign (area2 (nth3 a b c i) (nth3 a b c j) (nth3 a b c k)) = perm3 i j k * (pat a b c).o := by
  have neg : ∀ {u : K}, u = -((b.x - a.x) * (c.y - a.y) - (c.x - a.x) * (b.y - a.y)) → sign u = -1 * (pat a b c).o := by
    intro u hu
    rw [hu, Left.sign_neg, neg_one_mul]; rfl
  have pos : ∀ {u : K}, u = (b.x - a.x) * (c.y - a.y) - (c.x - a.x) * (b.y - a.y) → sign u = 1 * (pat a b c).o := by
    intro u hu
    rw [hu, one_mul]; rfl
  have zero : ∀ {u : K}, u = 0 → sign u = 0 * (pat a b c).o := by
    intro u hu
    rw [hu, sign_zero, zero_mul]
  rcases idx3_cases i with rfl | rfl | rfl <;> rcases idx3_cases j with rfl | rfl | rfl <;> rcases idx3_cases k with rfl | rfl | rfl <;>
    simp only [nth3, perm3] <;>
    first
    | exact pos (by unfold area2; ring)
    | exact neg (by unfold area2; ring)
    | exact zero (by unfold area2; ring)

theorem nth3_d (a b c : Vtx K) (i j k : Fin 3) :
    decide (dotAt (nth3 a b c i) (nth3 a b c j) (nth3 a b c k) < 0) = ang3 (pat a b c).d0 (pat a b c).d1 (pat a b c).d2 i j k := by
  have sq : ∀ {u v : K}, decide (u * u + v * v < 0) = false := by
    intro u v
    exact decide_eq_false (by have := mul_self_nonneg u; have := mul_self_nonneg v; linarith)
  have z : ∀ {u : K}, u = 0 → decide (u < 0) = false := by rintro u rfl; simp
  have sw : ∀ p q r : Vtx K, dotAt p q r = dotAt p r q := by intro p q r; unfold dotAt; ring
  have sw : ∀ p q r : Vtx K, decide (dotAt p q r < 0) = decide (dotAt p r q < 0) := fun p q r => by rw [decide_eq_decide, sw]
  rcases idx3_cases i with rfl | rfl | rfl <;> rcases idx3_cases j with rfl | rfl | rfl <;> rcases idx3_cases k with rfl | rfl | rfl <;>
    first
    | rfl
    | exact sq
    | exact z (by simp only [nth3, dotAt]; ring)
    | exact sw _ _ _

theorem inCirc_same [ExactParams K] (a b c : Vtx K) : inCircumcircle a b c c = decide (dotAt c a b < 0) := by
  simp only [inCircumcircle, exact_sub, exact_mul, exact_add, exact_le, exact_lt, exact_zero]
  have e : (b.x - c.x) * (a.x - c.x) + (b.y - c.y) * (a.y - c.y) = dotAt c a b := by unfold dotAt; ring
  have e' : (a.x - c.x) * (b.x - c.x) + (a.y - c.y) * (b.y - c.y) = dotAt c a b := rfl
  rw [e, e']
  by_cases h : dotAt c a b < 0
  · simp [h, not_le.2 h]
  · simp [h, not_lt.1 h]

/-- A degenerate quad. -/
theorem inCirc_degen [ExactParams K] (a b c p : Vtx K) (h : p = a ∨ p = b ∨ a = b ∨ a = c ∨ b = c) : inCircumcircle a b c p = false := by
  simp only [inCircumcircle, exact_sub, exact_mul, exact_add, exact_le, exact_lt, exact_zero]
  by_cases h1 : 0 ≤ (a.x - c.x) * (b.x - c.x) + (a.y - c.y) * (b.y - c.y)
  · by_cases h2 : 0 ≤ (b.x - p.x) * (a.x - p.x) + (b.y - p.y) * (a.y - p.y)
    · simp [h1, h2]
    · simp only [h1, h2, not_lt.2 h1, decide_true, decide_false, Bool.true_and, Bool.false_and, Bool.false_eq_true, if_false, decide_eq_false_iff_not, not_lt]
      rcases h with rfl | rfl | rfl | rfl | rfl
      · exact absurd (by simp) h2
      · exact absurd (by simp) h2
      · exact absurd (by have := mul_self_nonneg (a.x - p.x); have := mul_self_nonneg (a.y - p.y); linarith) h2
      · apply le_of_eq; ring
      · apply le_of_eq; ring
  · have h1' := not_le.1 h1
    rcases h with rfl | rfl | rfl | rfl | rfl
    · simp [h1]
    · simp [h1]
    · exact absurd (by have := mul_self_nonneg (a.x - c.x); have := mul_self_nonneg (a.y - c.y); linarith) h1
    · exact absurd (by simp) h1
    · exact absurd (by simp) h1

variable [ExactParams K]

theorem edgeSide_area (a b p : Vtx K) : edgeSide (a, b) p = area2 a b p := by
  simp only [edgeSide, exact_sub, exact_mul, area2]; ring

theorem Sep.area {vs : List (Vtx K)} (h : Sep vs) {a b p : Vtx K} (ha : a ∈ vs) (hb : b ∈ vs) (hp : p ∈ vs)
    (hlt : |area2 a b p| < ExactParams.eps) : area2 a b p = 0 := by
  have e : area2 a b p = -((b.y - a.y) * (p.x - a.x) - (b.x - a.x) * (p.y - a.y)) := by unfold area2; ring
  rw [e, abs_neg] at hlt
  rw [e, h.o a ha b hb p hp hlt, neg_zero]

theorem left_sg (e : K) : onLeft e = decide (sign e = 1) := by
  simp only [onLeft, exact_lt, exact_zero, decide_eq_decide, sign_eq_one_iff]

theorem right_sg (e : K) : onRight e = decide (sign e = -1) := by
  simp only [onRight, exact_lt, exact_zero, decide_eq_decide, sign_eq_neg_one_iff]

theorem near_sg (e : K) (h : |e| < ExactParams.eps → e = 0) : nearEdge e = decide (sign e = 0) := by
  simp only [nearEdge, exact_lt, exact_abs, exact_eps, decide_eq_decide, sign_eq_zero_iff]
  refine ⟨h, ?_⟩
  rintro rfl
  simp [ExactParams.eps_pos]

theorem strict_sg (e : K) (h : |e| < ExactParams.eps → e = 0) : decide (e ≤ -ExactParams.eps) = decide (sign e = -1) := by
  rw [decide_eq_decide, sign_eq_neg_one_iff]
  have he : (0 : K) < ExactParams.eps := eps_pos'
  constructor
  · intro h'; linarith
  · intro h'
    by_contra hc
    have := h (by rw [abs_of_neg h']; linarith)
    linarith

/-- The sign of the semi-infinite edge test. -/
def semiSg (dx dy : SignType) : Fin 4 → SignType
  | 0 => dy
  | 1 => dx
  | 2 => -dy
  | 3 => -dx

theorem sign_scale (d : K) : sign (142 / 100 * d) = sign d := by
  rw [sign_mul, sign_pos (by norm_num : (0 : K) < 142 / 100), one_mul]

theorem semi_side_eq [IdCfg] (a p : Vtx K) (k : Fin 4) : edgeSide (semiInf a k) p = 142 / 100 * (match k with
    | 0 => a.y - p.y
    | 1 => a.x - p.x
    | 2 => -(a.y - p.y)
    | 3 => -(a.x - p.x)) := by
  rw [edgeSide_semiInf, o_semi]
  fin_cases k <;> simp only <;> ring

theorem semi_sign [IdCfg] (a p : Vtx K) (k : Fin 4) : sign (edgeSide (semiInf a k) p) = semiSg (sign (a.x - p.x)) (sign (a.y - p.y)) k := by
  rw [semi_side_eq, sign_scale]
  fin_cases k <;> simp only [semiSg, Left.sign_neg]

theorem semi_zero [IdCfg] {vs : List (Vtx K)} (h : Sep vs) {a p : Vtx K} (ha : a ∈ vs) (hp : p ∈ vs) (k : Fin 4)
    (hlt : |edgeSide (semiInf a k) p| < ExactParams.eps) : edgeSide (semiInf a k) p = 0 := by
  rw [edgeSide_semiInf] at hlt ⊢
  rw [abs_neg, abs_mul, abs_of_pos (by norm_num : (0 : K) < 142 / 100)] at hlt
  rw [h.semi ha hp k (by have := abs_nonneg (HP.o (HP.ofVtx a) (HP.dir k) (HP.ofVtx p)); linarith)]
  simp

theorem close_sg {vs : List (Vtx K)} (h : Sep vs) {a b : Vtx K} (ha : a ∈ vs) (hb : b ∈ vs) :
    tooClose a b = (decide (sign (a.x - b.x) = 0) && decide (sign (a.y - b.y) = 0)) := by
  rw [← near_sg (a.x - b.x) fun h' => sub_eq_zero.2 (h.x a ha b hb h'), ← near_sg (a.y - b.y) fun h' => sub_eq_zero.2 (h.y a ha b hb h')]
  rfl

end

/-- Renaming of the vertices `0, 1, 2` to `n, n + 1, n + 2`. -/
def shift3 (n i : Nat) : Nat := if i < 3 then i + n else if i < n + 3 then i - 3 else i

/-- Three vertices with the same combination. -/
theorem ren_three {K : Type} [Field K] [LinearOrder K] [IsStrictOrderedRing K] [ExactParams K] [IdCfg]
    {J : Type} [Field J] [LinearOrder J] [IsStrictOrderedRing J] [ExactParams J] {A B C : Vtx J} {a b c : Vtx K}
    (hJ : Sep [A, B, C]) (hK : Sep [a, b, c]) (he : pat A B C = pat a b c) {vs : List (Vtx K)} {n : Nat} (hn : n + 3 ≤ INF0)
    (h0 : vs[n]? = some a) (h1 : vs[n + 1]? = some b) (h2 : vs[n + 2]? = some c) : Ren (shift3 n) [A, B, C] vs := by
  have pair : ∀ {u u'}, RPair (shift3 n) [A, B, C] vs u u' → ∃ i, u = nth3 A B C i ∧ u' = nth3 a b c i := by
    rintro u u' ⟨i, g1, g2⟩
    have hi : i < 3 := lt_of_getElem? g1
    have : i = 0 ∨ i = 1 ∨ i = 2 := by omega
    rcases this with rfl | rfl | rfl
    · simp [shift3] at g1 g2
      rw [h0] at g2; simp at g2
      exact ⟨0, g1.symm, g2.symm⟩
    · simp [shift3, Nat.add_comm] at g1 g2
      rw [h1] at g2; simp at g2
      exact ⟨1, g1.symm, g2.symm⟩
    · simp [shift3, Nat.add_comm] at g1 g2
      rw [h2] at g2; simp at g2
      exact ⟨2, g1.symm, g2.symm⟩
  have mJ : ∀ i, nth3 A B C i ∈ [A, B, C] := by intro i; fin_cases i <;> simp [nth3]
  have mK : ∀ i, nth3 a b c i ∈ [a, b, c] := by intro i; fin_cases i <;> simp [nth3]
  have eo : ∀ i j k, sign (area2 (nth3 A B C i) (nth3 A B C j) (nth3 A B C k)) = sign (area2 (nth3 a b c i) (nth3 a b c j) (nth3 a b c k)) := by
    intro i j k; rw [nth3_o, nth3_o, he]
  have ex : ∀ i j, sign ((nth3 A B C i).x - (nth3 A B C j).x) = sign ((nth3 a b c i).x - (nth3 a b c j).x) := by
    intro i j; rw [nth3_x, nth3_x, he]
  have ey : ∀ i j, sign ((nth3 A B C i).y - (nth3 A B C j).y) = sign ((nth3 a b c i).y - (nth3 a b c j).y) := by
    intro i j; rw [nth3_y, nth3_y, he]
  have ed : ∀ i j k, decide (dotAt (nth3 A B C i) (nth3 A B C j) (nth3 A B C k) < 0) = decide (dotAt (nth3 a b c i) (nth3 a b c j) (nth3 a b c k) < 0) := by
    intro i j k; rw [nth3_d, nth3_d, he]
  refine ⟨?_, ?_, ?_, ?_, ?_, ?_, ?_, ?_, ?_, ?_, ?_, ?_⟩
  · intro i j h
    unfold shift3 at h
    repeat' split at h
    all_goals omega
  · intro i h
    unfold shift3
    rw [if_neg (by omega), if_neg (by omega)]
  · intro i h
    unfold shift3
    split
    · omega
    · split <;> omega
  · intro i u h
    have hi : i < 3 := lt_of_getElem? h
    have : i = 0 ∨ i = 1 ∨ i = 2 := by omega
    rcases this with rfl | rfl | rfl
    · exact ⟨a, by simpa [shift3] using h0⟩
    · exact ⟨b, by simpa [shift3, Nat.add_comm] using h1⟩
    · exact ⟨c, by simpa [shift3, Nat.add_comm] using h2⟩
  · intro u u' v v' p p' hu hv hp
    obtain ⟨i, rfl, rfl⟩ := pair hu
    obtain ⟨j, rfl, rfl⟩ := pair hv
    obtain ⟨k, rfl, rfl⟩ := pair hp
    rw [edgeSide_area, edgeSide_area, left_sg, left_sg, eo]
  · intro u u' v v' p p' hu hv hp
    obtain ⟨i, rfl, rfl⟩ := pair hu
    obtain ⟨j, rfl, rfl⟩ := pair hv
    obtain ⟨k, rfl, rfl⟩ := pair hp
    rw [edgeSide_area, edgeSide_area, near_sg _ (hJ.area (mJ _) (mJ _) (mJ _)), near_sg _ (hK.area (mK _) (mK _) (mK _)), eo]
  · intro u u' v v' p p' hu hv hp
    obtain ⟨i, rfl, rfl⟩ := pair hu
    obtain ⟨j, rfl, rfl⟩ := pair hv
    obtain ⟨k, rfl, rfl⟩ := pair hp
    unfold strictlyRightOfEdge
    simp only [exact_le, exact_neg, exact_eps]
    rw [edgeSide_area, edgeSide_area, strict_sg _ (hJ.area (mJ _) (mJ _) (mJ _)), strict_sg _ (hK.area (mK _) (mK _) (mK _)), eo]
  · intro u u' p p' k hu hp
    obtain ⟨i, rfl, rfl⟩ := pair hu
    obtain ⟨j, rfl, rfl⟩ := pair hp
    rw [left_sg, left_sg, semi_sign, semi_sign, ex, ey]
  · intro u u' p p' k hu hp
    obtain ⟨i, rfl, rfl⟩ := pair hu
    obtain ⟨j, rfl, rfl⟩ := pair hp
    rw [right_sg, right_sg, semi_sign, semi_sign, ex, ey]
  · intro u u' p p' k hu hp
    obtain ⟨i, rfl, rfl⟩ := pair hu
    obtain ⟨j, rfl, rfl⟩ := pair hp
    rw [near_sg _ (semi_zero hJ (mJ _) (mJ _) k), near_sg _ (semi_zero hK (mK _) (mK _) k), semi_sign, semi_sign, ex, ey]
  · intro u u' p p' hu hp
    obtain ⟨i, rfl, rfl⟩ := pair hu
    obtain ⟨j, rfl, rfl⟩ := pair hp
    rw [close_sg hJ (mJ _) (mJ _), close_sg hK (mK _) (mK _), ex, ey]
  · intro u u' v v' w w' p p' hu hv hw hp
    obtain ⟨i, rfl, rfl⟩ := pair hu
    obtain ⟨j, rfl, rfl⟩ := pair hv
    obtain ⟨k, rfl, rfl⟩ := pair hw
    obtain ⟨l, rfl, rfl⟩ := pair hp
    by_cases hlk : l = k
    · subst hlk
      rw [inCirc_same, inCirc_same, ed]
    · have : l = i ∨ l = j ∨ i = j ∨ i = k ∨ j = k := by omega
      rw [inCirc_degen _ _ _ _ (by rcases this with rfl | rfl | rfl | rfl | rfl <;> simp),
        inCirc_degen _ _ _ _ (by rcases this with rfl | rfl | rfl | rfl | rfl <;> simp)]

theorem sep_castV (ax ay bx b_y cx cy : ℤ) : Sep [castV ax ay, castV bx b_y, castV cx cy] := by
  have hm : ∀ v ∈ [castV ax ay, castV bx b_y, castV cx cy], ∃ i j : ℤ, v = castV i j := by
    intro v hv
    simp only [List.mem_cons, List.not_mem_nil, or_false] at hv
    rcases hv with rfl | rfl | rfl <;> exact ⟨_, _, rfl⟩
  have key : ∀ z : ℤ, |(z : ℚ)| < ExactParams.eps → z = 0 := by
    intro z hz
    by_contra hc
    have h1 : (1 : ℚ) ≤ |(z : ℚ)| := by rw [← Int.cast_abs]; exact_mod_cast Int.one_le_abs hc
    have : (ExactParams.eps : ℚ) ≤ 1 := ExactParams.eps_le_one
    linarith
  refine ⟨?_, ?_, ?_⟩
  · intro a ha b hb h
    obtain ⟨i, j, rfl⟩ := hm a ha
    obtain ⟨k, l, rfl⟩ := hm b hb
    have := key (i - k) (by push_cast; exact h)
    simp only [castV]
    exact_mod_cast sub_eq_zero.1 this
  · intro a ha b hb h
    obtain ⟨i, j, rfl⟩ := hm a ha
    obtain ⟨k, l, rfl⟩ := hm b hb
    have := key (j - l) (by push_cast; exact h)
    simp only [castV]
    exact_mod_cast sub_eq_zero.1 this
  · intro a ha b hb c hc h
    obtain ⟨i, j, rfl⟩ := hm a ha
    obtain ⟨k, l, rfl⟩ := hm b hb
    obtain ⟨m, n, rfl⟩ := hm c hc
    have := key ((l - j) * (m - i) - (k - i) * (n - j)) (by push_cast; exact h)
    simp only [castV]
    exact_mod_cast this

/-- The third vertex is strictly between the other two ones in both coordinates. -/
def Pat.between (p : Pat) : Bool := decide (p.x02 * p.x12 = -1) && decide (p.y02 * p.y12 = -1)

/-- The output expected for a combination. -/
def Pat.out (p : Pat) : List Out := if p.between || decide (p.o = 0) then [] else if p.o = -1 then [(0, 1, 2)] else [(0, 2, 1)]

/-- Inserting the three vertices of an entry, the last one first. -/
def triRun [IdCfg] (r : ℤ × ℤ × ℤ × ℤ × ℤ × ℤ) : Res DT :=
  insertAll [castV r.1 r.2.1, castV r.2.2.1 r.2.2.2.1, castV r.2.2.2.2.1 r.2.2.2.2.2] 28 [1, 0] ⟨initialTriangles 2, 3, none⟩

/-- The combination of an entry, computed. -/
def patZ (r : ℤ × ℤ × ℤ × ℤ × ℤ × ℤ) : Pat :=
  match r with
  | (ax, ay, bx, b_y, cx, cy) =>
    ⟨sgZ (ax - bx), sgZ (ax - cx), sgZ (bx - cx), sgZ (ay - b_y), sgZ (ay - cy), sgZ (b_y - cy),
      sgZ ((bx - ax) * (cy - ay) - (cx - ax) * (b_y - ay)), false, false, false⟩

/-- The run on an entry gives the expected output. -/
def triCheck [IdCfg] (r : ℤ × ℤ × ℤ × ℤ × ℤ × ℤ) : Bool :=
  match triRun r with
  | .ok s => decide (filterSeq s.ts = (patZ r).out)
  | _ => false

theorem triRun_u32 : (triTable.all (@triCheck u32Cfg)) = true := by
  decide +kernel

theorem triRun_u64 : (triTable.all (@triCheck u64Cfg)) = true := by
  decide +kernel

end CDT

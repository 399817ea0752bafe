import Verif.Model.Density
import Verif.Props.Grid
import Verif.Props.Merge

/-!
# C63: the density of the bins

The other modules take the number of bins per row as a parameter and assume that it is not zero. Here: what the configuration
value `bin_vertex_density_power` makes of it.
-/

namespace CDT
open FloatOps

section
variable {F : Type} [FloatOps F] [IdCfg]

theorem binSort_zero (vs : List (Vtx F)) (h : vs ≠ []) : binSort 0 vs = .panic := by
  cases vs with
  | nil => exact absurd rfl h
  | cons v vs =>
    have hb : binIndex 0 v = .panic ∨ ∃ b, binIndex 0 v = .ok b := by
      unfold binIndex binIndexPos
      split
      · exact .inr ⟨_, rfl⟩
      · split
        · exact .inr ⟨_, rfl⟩
        · exact .inl rfl
    unfold binSort countBins
    rcases hb with hb | ⟨b, hb⟩
    · rw [hb]; rfl
    · rw [hb]
      simp [getI]

/-- **C63** (any arithmetic): without bins every input of at least three vertices makes both entry points panic. -/
theorem C63_zero_bins (fuel : Nat) (bins : Nat → Nat) (vs : List (Vtx F)) (es : List Edge) (h3 : 3 ≤ vs.length)
    (h0 : bins vs.length = 0) :
    triangulation2d fuel bins vs = .panic ∧ constrained2d fuel bins vs es = .panic := by
  have h : triangulation2d fuel bins vs = .panic := by
    unfold triangulation2d
    rw [if_neg (by omega), h0]
    have hne : normalizeVerts vs ≠ [] := by
      intro h
      have : (normalizeVerts vs).length = vs.length := by simp [normalizeVerts]
      rw [h] at this
      simp only [List.length_nil] at this
      omega
    simp only [wrapAndTriangulate, binSort_zero _ hne, Res.panic_bind]
  exact ⟨h, (C58_failures fuel bins vs es).2.2.1 h⟩

end

theorem one_le_pow_density {p : ℝ} (hp : 0 ≤ p) {n : Nat} (hn : 1 ≤ n) : (1 : ℝ) ≤ (n : ℝ) ^ (p / 2) :=
  Real.one_le_rpow (by exact_mod_cast hn) (by linarith)

/-- **C63**: a density that is not negative gives at least one bin. -/
theorem C63_positive {p : ℝ} (hp : 0 ≤ p) {n : Nat} (hn : 1 ≤ n) : 1 ≤ binsPerRow p n := by
  have h := one_le_pow_density hp hn
  refine le_min ?_ (by decide)
  exact Nat.le_floor (by push_cast; linarith)

theorem floor_density_le {p : ℝ} (hp : p ≤ 2) {n : Nat} (hn : 1 ≤ n) : ⌊(n : ℝ) ^ (p / 2) + 1 / 2⌋₊ ≤ n := by
  have hn' : (1 : ℝ) ≤ n := by exact_mod_cast hn
  have h : (n : ℝ) ^ (p / 2) ≤ n := by
    calc (n : ℝ) ^ (p / 2) ≤ (n : ℝ) ^ (1 : ℝ) := Real.rpow_le_rpow_of_exponent_le hn' (by linarith)
      _ = n := Real.rpow_one _
  refine Nat.lt_succ_iff.1 ((Nat.floor_lt (by positivity)).2 ?_)
  push_cast
  linarith

/-- **C63**: for a density of at most 2 (the default is 1/2) there are at most as many bins per row as vertices. -/
theorem C63_le {p : ℝ} (hp : p ≤ 2) {n : Nat} (hn : 1 ≤ n) : binsPerRow p n ≤ n :=
  (min_le_left _ _).trans (floor_density_le hp hn)

/-- **C63**: a negative density gives no bin as soon as the number of vertices exceeds `2^(2 / |p|)`. -/
theorem C63_negative {p : ℝ} (hp : p < 0) {n : Nat} (hn : (2 : ℝ) ^ (2 / -p) < n) : binsPerRow p n = 0 := by
  have h2 : (0 : ℝ) < (2 : ℝ) ^ (2 / -p) := by positivity
  have hn0 : (0 : ℝ) < n := h2.trans hn
  have h : (n : ℝ) ^ (p / 2) < 1 / 2 := by
    have h1 : (n : ℝ) ^ (p / 2) < ((2 : ℝ) ^ (2 / -p)) ^ (p / 2) := Real.rpow_lt_rpow_of_neg h2 hn (by linarith)
    rw [← Real.rpow_mul (by norm_num)] at h1
    have e : 2 / -p * (p / 2) = -1 := by
      have := hp.ne
      field_simp
    rw [e, Real.rpow_neg_one] at h1
    linarith
  have : ⌊(n : ℝ) ^ (p / 2) + 1 / 2⌋₊ = 0 := Nat.floor_eq_zero.2 (by linarith)
  rw [binsPerRow, this]
  rfl

/-- **C63** (any arithmetic): with a negative density every input with more than `2^(2 / |p|)` vertices (and at least three)
makes both entry points panic. -/
theorem C63_panic {F : Type} [FloatOps F] [IdCfg] {p : ℝ} (hp : p < 0) (fuel : Nat) (vs : List (Vtx F)) (es : List Edge)
    (h3 : 3 ≤ vs.length) (hn : (2 : ℝ) ^ (2 / -p) < vs.length) :
    triangulation2d fuel (binsPerRow p) vs = .panic ∧ constrained2d fuel (binsPerRow p) vs es = .panic :=
  C63_zero_bins fuel _ vs es h3 (C63_negative hp hn)

theorem length_filter_range (n m : Nat) (h : m ≤ n) : ((List.range n).filter fun k => decide (k < m)).length = m := by
  induction n with
  | zero => simp; omega
  | succ n ih =>
    rw [List.range_succ, List.filter_append, List.length_append]
    rcases Nat.lt_or_ge n m with hlt | hge
    · have : m = n + 1 := by omega
      subst this
      have e : (List.range n).filter (fun k => decide (k < n + 1)) = List.range n :=
        List.filter_eq_self.2 fun k hk => by simpa using Nat.lt_succ_of_lt (List.mem_range.1 hk)
      rw [e]
      simp
    · rw [ih hge]
      simp [Nat.not_lt.2 hge]

/-- **C63**: the number of bins of the default configuration, as used in the examples, is the one of the formula. -/
theorem C63_default {n : Nat} (hn : n ≤ Fl.usizeMax) : binsPerRow (1 / 2) n = Witness.defaultBins n := by
  set x := (n : ℝ) ^ ((1 / 2 : ℝ) / 2) with hx
  have hx0 : 0 ≤ x := Real.rpow_nonneg (by positivity) _
  have hx4 : x ^ 4 = n := by
    rw [hx, ← Real.rpow_natCast, ← Real.rpow_mul (by positivity)]
    norm_num
  have key : ∀ k : Nat, (2 * k + 1) ^ 4 ≤ 16 * n ↔ k < ⌊x + 1 / 2⌋₊ := by
    intro k
    rw [Nat.lt_iff_add_one_le, Nat.le_floor_iff (by positivity)]
    have e : (2 * k + 1) ^ 4 ≤ 16 * n ↔ ((k : ℝ) + 1 / 2) ^ 4 ≤ x ^ 4 := by
      rw [hx4]
      constructor
      · intro h
        have h' : ((2 : ℝ) * k + 1) ^ 4 ≤ 16 * n := by exact_mod_cast h
        have e : ((2 : ℝ) * k + 1) ^ 4 = 16 * ((k : ℝ) + 1 / 2) ^ 4 := by ring
        linarith
      · intro h
        have e : ((2 : ℝ) * k + 1) ^ 4 = 16 * ((k : ℝ) + 1 / 2) ^ 4 := by ring
        have h' : ((2 : ℝ) * k + 1) ^ 4 ≤ 16 * n := by linarith
        exact_mod_cast h'
    rw [e, pow_le_pow_iff_left₀ (by positivity) hx0 (by norm_num)]
    push_cast
    constructor <;> intro h <;> linarith
  have hfl : ⌊x + 1 / 2⌋₊ ≤ n := by
    rcases Nat.eq_zero_or_pos n with h0 | h0
    · have : x = 0 := by
        rw [hx, h0]; norm_num
      rw [this, Nat.floor_eq_zero.2 (by norm_num)]
      exact Nat.zero_le _
    · exact floor_density_le (by norm_num) h0
  have hle : ⌊x + 1 / 2⌋₊ ≤ n + 1 := by omega
  have hm : ⌊x + 1 / 2⌋₊ ≤ Fl.usizeMax := hfl.trans hn
  have h1 : binsPerRow (1 / 2) n = ⌊x + 1 / 2⌋₊ := Nat.min_eq_left hm
  rw [h1, Witness.defaultBins]
  simp only [key]
  exact (length_filter_range _ _ hle).symm

end CDT

/-! ## Examples -/

namespace CDT

local instance densityCfg : IdCfg := u32Cfg

/-- Density `-1`: five vertices of a square with a center, which the default configuration accepts, make the run panic. -/
example : triangulation2d 100 (binsPerRow (-1)) (flPts binary64 [(0, 0), (0, 4), (4, 4), (4, 0), (1, 2)]) = .panic ∧
    triangulation2d 100 (binsPerRow (1 / 2)) (flPts binary64 [(0, 0), (0, 4), (4, 4), (4, 0), (1, 2)]) ≠ .panic := by
  constructor
  · exact (C63_panic (by norm_num) 100 _ [] (by decide) (by norm_num [flPts])).1
  · have e : triangulation2d 100 (binsPerRow (1 / 2)) (flPts binary64 [(0, 0), (0, 4), (4, 4), (4, 0), (1, 2)]) =
        triangulation2d 100 Witness.defaultBins (flPts binary64 [(0, 0), (0, 4), (4, 4), (4, 0), (1, 2)]) := by
      unfold triangulation2d
      rw [C63_default (by decide)]
    rw [e]
    decide +kernel

end CDT

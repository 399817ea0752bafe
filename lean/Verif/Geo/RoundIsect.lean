import Verif.Geo.AgreeC
import Verif.Geo.RoundRun

/-!
# Rounding errors of the intersection test

Points of the test are vertices, or vertices moved by the extrapolation distance in one of the four directions.
-/

set_option linter.unusedSectionVars false
set_option linter.unusedVariables false

namespace CDT
open FloatOps

namespace Rounded

variable {F : Type} [FloatOps F] [Rounded F]

/-- A value with the sign of `a`. -/
def Sn (x : F) (a : ℚ) : Prop := ∃ v, val x = some v ∧ (0 < v ↔ 0 < a) ∧ (v < 0 ↔ a < 0)

theorem Sg.sn {x : F} {a : ℚ} (h : Sg x a) : Sn x a := by
  obtain ⟨v, h1, h2, h3, -⟩ := h
  exact ⟨v, h1, h2, h3⟩

theorem Sn.congr {x : F} {a b : ℚ} (h : Sn x a) (e : a = b) : Sn x b := e ▸ h

/-- A product with one factor far from zero. -/
theorem mul_sn {x y : F} {v w a b : ℚ} (hx : val x = some v) (hy : val y = some w) (hv : 1 ≤ |v|) (hv' : |v| ≤ 5)
    (hw : w = 0 ∨ u F ≤ |w|) (hw' : |w| ≤ 5) (h1 : 0 < v ↔ 0 < a) (h2 : v < 0 ↔ a < 0) (h3 : 0 < w ↔ 0 < b)
    (h4 : w < 0 ↔ b < 0) : Sn (mul x y) (a * b) ∧ ∀ v, val (mul x y) = some v → |v| ≤ big (F := F) := by
  have hu := u_pos (F := F)
  have hl := u_le (F := F)
  have ht := tiny_le (F := F)
  have hb := big_ge (F := F)
  have hm : |v * w| ≤ 25 := by rw [abs_mul]; nlinarith [abs_nonneg v, abs_nonneg w]
  have e := rnd_err (F := F) (v * w)
  have hval := val_mul hx hy (by linarith)
  refine ⟨⟨_, hval, ?_⟩, fun r hr => ?_⟩
  rotate_left
  · rw [hval, Option.some.injEq] at hr
    rw [← hr]
    have := abs_add_le (rnd F (v * w) - v * w) (v * w)
    rw [sub_add_cancel] at this
    nlinarith
  rw [abs_le] at e
  have hv0 : v ≠ 0 := by intro h; rw [h, abs_zero] at hv; linarith
  have ha0 : a ≠ 0 := by
    rintro rfl
    rcases lt_trichotomy v 0 with h | h | h
    · exact lt_irrefl _ (h2.1 h)
    · exact hv0 h
    · exact lt_irrefl _ (h1.1 h)
  have hb0 : w = 0 ↔ b = 0 := by
    constructor
    · rintro rfl
      exact le_antisymm (not_lt.1 fun h => lt_irrefl _ (h3.2 h)) (not_lt.1 fun h => lt_irrefl _ (h4.2 h))
    · rintro rfl
      exact le_antisymm (not_lt.1 fun h => lt_irrefl _ (h3.1 h)) (not_lt.1 fun h => lt_irrefl _ (h4.1 h))
  rcases hw with hw | hw
  · rw [hw, hb0.1 hw, mul_zero, rnd_zero]; simp
  · have hw0 : w ≠ 0 := by intro h; rw [h, abs_zero] at hw; linarith
    have hp : u F ≤ |v * w| := by rw [abs_mul]; nlinarith
    rcases lt_or_gt_of_ne (mul_ne_zero hv0 hw0) with hneg | hpos
    · rw [abs_of_neg hneg] at e hp
      have r : rnd F (v * w) < 0 := by nlinarith
      have s : a * b < 0 := by
        rcases mul_neg_iff.1 hneg with ⟨p, q⟩ | ⟨p, q⟩
        · exact mul_neg_of_pos_of_neg (h1.1 p) (h4.1 q)
        · exact mul_neg_of_neg_of_pos (h2.1 p) (h3.1 q)
      exact ⟨⟨fun h => absurd h (not_lt.2 r.le), fun h => absurd h (not_lt.2 s.le)⟩, fun _ => s, fun _ => r⟩
    · rw [abs_of_pos hpos] at e hp
      have r : 0 < rnd F (v * w) := by nlinarith
      have s : 0 < a * b := by
        rcases mul_pos_iff.1 hpos with ⟨p, q⟩ | ⟨p, q⟩
        · exact mul_pos (h1.1 p) (h3.1 q)
        · exact mul_pos_of_neg_of_neg (h2.1 p) (h4.1 q)
      exact ⟨⟨fun _ => s, fun _ => r⟩, fun h => absurd h (not_lt.2 r.le), fun h => absurd h (not_lt.2 s.le)⟩

theorem sub_zero_sn {x z : F} {a : ℚ} (h : Sn x a) (hz : val z = some 0) (hb : ∀ v, val x = some v → |v| ≤ big (F := F)) :
    Sn (FloatOps.sub x z) a ∧ Sn (FloatOps.sub z x) (-a) := by
  have hl := u_le (F := F)
  obtain ⟨v, hv, h1, h2⟩ := h
  have hB := hb v hv
  constructor
  · refine ⟨_, val_sub hv hz (by simpa using hB), ?_⟩
    have e := sub_err hv hz
    rw [sub_zero, abs_le] at e
    rw [sub_zero, ← h1, ← h2]
    rcases lt_trichotomy v 0 with h | h | h
    · rw [abs_of_neg h] at e
      have : rnd F v < 0 := by nlinarith
      exact ⟨⟨fun h' => by linarith, fun h' => by linarith⟩, fun _ => h, fun _ => this⟩
    · rw [h, rnd_zero]; simp
    · rw [abs_of_pos h] at e
      have : 0 < rnd F v := by nlinarith
      exact ⟨⟨fun _ => h, fun _ => this⟩, fun h' => by linarith, fun h' => by linarith⟩
  · refine ⟨_, val_sub hz hv (by simpa using hB), ?_⟩
    have e := sub_err hz hv
    rw [zero_sub, abs_neg, abs_le] at e
    rw [zero_sub, neg_pos, neg_lt_zero, ← h1, ← h2]
    rcases lt_trichotomy v 0 with h | h | h
    · rw [abs_of_neg h] at e
      have : 0 < rnd F (-v) := by nlinarith
      exact ⟨⟨fun _ => h, fun _ => this⟩, fun h' => by linarith, fun h' => by linarith⟩
    · rw [h, neg_zero, rnd_zero]; simp
    · rw [abs_of_pos h] at e
      have : rnd F (-v) < 0 := by nlinarith
      exact ⟨⟨fun h' => by linarith, fun h' => by linarith⟩, fun _ => h, fun _ => this⟩

section
variable [P : ExactParams ℚ]

theorem orient_eq {p q r : Vtx F} {p' q' r' : Vtx ℚ}
    (h : Sn (FloatOps.sub (mul (FloatOps.sub q.y p.y) (FloatOps.sub r.x q.x)) (mul (FloatOps.sub q.x p.x) (FloatOps.sub r.y q.y)))
      ((q'.y - p'.y) * (r'.x - q'.x) - (q'.x - p'.x) * (r'.y - q'.y))) :
    tripletOrientation p q r = tripletOrientation p' q' r' := by
  obtain ⟨v, hv, h1, h2⟩ := h
  unfold tripletOrientation
  simp only [eq_iff hv val_zero, lt_iff val_zero hv, exact_sub, exact_mul, exact_eq, exact_lt, exact_zero, decide_eq_true_eq]
  set w := (q'.y - p'.y) * (r'.x - q'.x) - (q'.x - p'.x) * (r'.y - q'.y)
  have h0 : v = 0 ↔ w = 0 := by
    constructor
    · rintro rfl
      exact le_antisymm (not_lt.1 fun h => lt_irrefl _ (h1.2 h)) (not_lt.1 fun h => lt_irrefl _ (h2.2 h))
    · intro h; rw [h] at h1 h2
      exact le_antisymm (not_lt.1 fun h => lt_irrefl _ (h1.1 h)) (not_lt.1 fun h => lt_irrefl _ (h2.1 h))
  simp only [h0, h1]

/-! ### Extended coordinates -/

/-- Value of a coordinate moved by `z` times the extrapolation distance. -/
def extVal (F : Type) [FloatOps F] [Rounded F] (g : ℚ → ℚ) (z : ℤ) (i : ℚ) : ℚ :=
  if z = 0 then g i else rnd F (g i + z * (val (delta : F)).getD 0)

/-- `x` is the coordinate `i` (one of `L`) moved by `z` times the extrapolation distance. -/
structure Xc (g : ℚ → ℚ) (L : ℚ → Prop) (x : F) (z : ℤ) (i : ℚ) : Prop where
  mem : L i
  nonneg : 0 ≤ i
  le : i ≤ 1
  z_le : z ≤ 1
  z_ge : -1 ≤ z
  val : val x = some (extVal F g z i)
  near : |extVal F g z i - (i + z * (142 / 100))| ≤ 9 * u F
  fin : z = 0 → |extVal F g z i - i| ≤ 4 * u F

/-- The coordinates of `L` are equal or far from each other. -/
def SepL (u : ℚ) (L : ℚ → Prop) : Prop := ∀ i j, L i → L j → i - j = 0 ∨ 32 * u ≤ |i - j|

variable {g : ℚ → ℚ} {L : ℚ → Prop}

theorem Xc.of_cd {x : F} {i : ℚ} (h : Cd g x i) (hL : L i) : Xc g L x 0 i := by
  have hu := u_pos (F := F)
  refine ⟨hL, h.nonneg, h.le, by norm_num, by norm_num, by simpa [extVal] using h.val, ?_, fun _ => by simpa [extVal] using h.near⟩
  have := h.near
  simp [extVal]; linarith

theorem Xc.moved (hg : Grid F g) {x dx : F} {i : ℚ} (h : Cd g x i) (hL : L i) (z : ℤ) (hz : z ≤ 1) (hz' : -1 ≤ z)
    (hd : Rounded.val dx = some (z * (Rounded.val (delta : F)).getD 0)) : Xc g L (FloatOps.add x dx) z i := by
  have hu := u_pos (F := F)
  have hl := u_le (F := F)
  have hb := big_ge (F := F)
  have h2 := u_sq (F := F)
  obtain ⟨d, hd1, hd2⟩ := val_delta (F := F)
  rw [hd1, Option.getD_some] at hd
  have hz2 : z = 0 ∨ z = 1 ∨ z = -1 := by omega
  have hzd : |z * d - z * (142 / 100)| ≤ 2 * u F := by
    rw [← mul_sub, abs_mul]
    rcases hz2 with rfl | rfl | rfl <;> simp <;> linarith
  have hz1 : |(z : ℚ) * (142 / 100)| ≤ 142 / 100 := by
    rcases hz2 with rfl | rfl | rfl <;> norm_num
  have h1 : |i + z * (142 / 100)| ≤ 242 / 100 := by
    have := abs_add_le i (z * (142 / 100))
    rw [abs_of_nonneg h.nonneg] at this
    linarith [h.le]
  have e0 : |g i + z * d - (i + z * (142 / 100))| ≤ 6 * u F := by
    have := abs_add_le (g i - i) (z * d - z * (142 / 100))
    rw [show g i - i + (z * d - z * (142 / 100)) = g i + z * d - (i + z * (142 / 100)) by ring] at this
    linarith [h.near]
  have e1 := abs_le_of_near e0 h1
  have hv := val_add h.val hd (by linarith)
  have key : FloatOps.add x dx = FloatOps.add x dx := rfl
  by_cases hz0 : z = 0
  · subst hz0
    have hv' : Rounded.val (FloatOps.add x dx) = some (g i) := by
      rw [hv]; simp [hg.rnd]
    refine ⟨hL, h.nonneg, h.le, hz, hz', by simpa [extVal] using hv', ?_, fun _ => by simpa [extVal] using h.near⟩
    have := h.near
    simp [extVal]; linarith
  · refine ⟨hL, h.nonneg, h.le, hz, hz', by simp only [extVal, if_neg hz0, hd1, Option.getD_some]; exact hv, ?_,
      fun h' => absurd h' hz0⟩
    simp only [extVal, if_neg hz0, hd1, Option.getD_some]
    have e2 := add_err h.val hd
    have e3 : u F * |g i + z * d| ≤ 3 * u F := by nlinarith
    have := abs_add_le (rnd F (g i + z * d) - (g i + z * d)) (g i + z * d - (i + z * (142 / 100)))
    rw [sub_add_sub_cancel] at this
    linarith

/-- Exact position. -/
def pos (z : ℤ) (i : ℚ) : ℚ := i + z * (142 / 100)

theorem Xc.cases {x y : F} {z w : ℤ} {i j : ℚ} (hS : SepL (u F) L) (hx : Xc g L x z i) (hy : Xc g L y w j) :
    (z = w ∧ i = j ∧ pos z i = pos w j) ∨ 32 * u F ≤ |pos z i - pos w j| := by
  have hl := u_le (F := F)
  have hz : z = 0 ∨ z = 1 ∨ z = -1 := by have := hx.z_le; have := hx.z_ge; omega
  have hw : w = 0 ∨ w = 1 ∨ w = -1 := by have := hy.z_le; have := hy.z_ge; omega
  have := hx.nonneg; have := hx.le; have := hy.nonneg; have := hy.le
  by_cases hzw : z = w
  · subst hzw
    rcases hS i j hx.mem hy.mem with h | h
    · left; exact ⟨rfl, by linarith, by rw [show i = j by linarith]⟩
    · right
      have : pos z i - pos z j = i - j := by unfold pos; ring
      rw [this]; exact h
  · right
    unfold pos
    rw [le_abs]
    rcases hz with rfl | rfl | rfl <;> rcases hw with rfl | rfl | rfl <;>
      first
      | exact absurd rfl hzw
      | (left; push_cast; linarith)
      | (right; push_cast; linarith)

/-- Comparison of coordinates. -/
theorem Xc.lt_iff {x y : F} {z w : ℤ} {i j : ℚ} (hS : SepL (u F) L) (hx : Xc g L x z i) (hy : Xc g L y w j) :
    extVal F g z i < extVal F g w j ↔ pos z i < pos w j := by
  have hu := u_pos (F := F)
  have h1 := abs_le.1 hx.near
  have h2 := abs_le.1 hy.near
  have e1 : i + z * (142 / 100) = pos z i := rfl
  have e2 : j + w * (142 / 100) = pos w j := rfl
  rw [e1] at h1
  rw [e2] at h2
  rcases hx.cases hS hy with ⟨rfl, rfl, -⟩ | h
  · simp
  · rcases le_abs.1 h with h | h
    · constructor <;> intro h' <;> linarith
    · constructor <;> intro h' <;> linarith

theorem Xc.eq_iff {x y : F} {z w : ℤ} {i j : ℚ} (hS : SepL (u F) L) (hx : Xc g L x z i) (hy : Xc g L y w j) :
    FloatOps.eq x y = FloatOps.eq (pos z i) (pos w j) := by
  rw [Rounded.eq_iff hx.val hy.val, exact_eq]
  congr 1
  rw [eq_iff_iff]
  have h1 := hx.lt_iff hS hy
  have h2 := hy.lt_iff hS hx
  constructor
  · intro h; rw [h] at h1 h2
    exact le_antisymm (not_lt.1 fun h' => lt_irrefl _ (h2.2 h')) (not_lt.1 fun h' => lt_irrefl _ (h1.2 h'))
  · intro h; rw [h] at h1 h2
    exact le_antisymm (not_lt.1 fun h' => lt_irrefl _ (h2.1 h')) (not_lt.1 fun h' => lt_irrefl _ (h1.1 h'))

theorem Xc.le_iff {x y : F} {z w : ℤ} {i j : ℚ} (hS : SepL (u F) L) (hx : Xc g L x z i) (hy : Xc g L y w j) :
    extVal F g z i ≤ extVal F g w j ↔ pos z i ≤ pos w j := by
  rw [← not_lt, ← not_lt, hy.lt_iff hS hx]

theorem Xc.le_max {x y y' : F} {z w w' : ℤ} {i j j' : ℚ} (hS : SepL (u F) L) (hx : Xc g L x z i) (hy : Xc g L y w j)
    (hy' : Xc g L y' w' j') : FloatOps.le x (FloatOps.max y y') = FloatOps.le (pos z i) (FloatOps.max (pos w j) (pos w' j')) := by
  rw [Rounded.le_iff hx.val (val_max hy.val hy'.val), exact_le, exact_max]
  congr 1
  rw [le_max_iff, le_max_iff, hx.le_iff hS hy, hx.le_iff hS hy']

theorem Xc.min_le {x y y' : F} {z w w' : ℤ} {i j j' : ℚ} (hS : SepL (u F) L) (hx : Xc g L x z i) (hy : Xc g L y w j)
    (hy' : Xc g L y' w' j') : FloatOps.le (FloatOps.min y y') x = FloatOps.le (FloatOps.min (pos w j) (pos w' j')) (pos z i) := by
  rw [Rounded.le_iff (val_min hy.val hy'.val) hx.val, exact_le, exact_min]
  congr 1
  rw [min_le_iff, min_le_iff, hy.le_iff hS hx, hy'.le_iff hS hx]

/-- A difference of extended coordinates. -/
theorem Xc.sub {x y : F} {z w : ℤ} {i j : ℚ} (hS : SepL (u F) L) (hx : Xc g L x z i) (hy : Xc g L y w j) :
    ∃ v, Rounded.val (FloatOps.sub x y) = some v ∧ |v - (pos z i - pos w j)| ≤ 22 * u F ∧
      (pos z i = pos w j → v = 0) ∧ (0 < v ↔ 0 < pos z i - pos w j) ∧ (v < 0 ↔ pos z i - pos w j < 0) ∧
      (v = 0 ∨ u F ≤ |v|) ∧ |v| ≤ 5 := by
  have hu := u_pos (F := F)
  have hl := u_le (F := F)
  have hb := big_ge (F := F)
  have h2 := u_sq (F := F)
  have n1 := hx.near
  have n2 := hy.near
  have e1 : i + z * (142 / 100) = pos z i := rfl
  have e2 : j + w * (142 / 100) = pos w j := rfl
  rw [e1] at n1
  rw [e2] at n2
  have hz : z = 0 ∨ z = 1 ∨ z = -1 := by have := hx.z_le; have := hx.z_ge; omega
  have hw : w = 0 ∨ w = 1 ∨ w = -1 := by have := hy.z_le; have := hy.z_ge; omega
  have hM : |pos z i - pos w j| ≤ 384 / 100 := by
    have := hx.nonneg; have := hx.le; have := hy.nonneg; have := hy.le
    unfold pos
    rw [abs_le]
    rcases hz with rfl | rfl | rfl <;> rcases hw with rfl | rfl | rfl <;> push_cast <;> constructor <;> linarith
  obtain ⟨v, hv, hn⟩ := Ap.sub ⟨_, hx.val, n1⟩ ⟨_, hy.val, n2⟩ hM (by nlinarith)
  have hn : |v - (pos z i - pos w j)| ≤ 22 * u F := hn.trans (by nlinarith)
  have hv5 := abs_le_of_near hn hM
  have h0 : pos z i = pos w j → v = 0 := by
    intro h
    rcases hx.cases hS hy with ⟨rfl, rfl, -⟩ | h'
    · have := val_sub hx.val hy.val (by simp; linarith)
      rw [hv, sub_self, rnd_zero] at this
      simpa using this
    · rw [h, sub_self, abs_zero] at h'; linarith
  refine ⟨v, hv, hn, h0, ?_⟩
  rcases hx.cases hS hy with ⟨-, -, h⟩ | h
  · rw [h0 h, h, sub_self]; simp
  · rw [abs_le] at hn
    rcases le_abs.1 h with h | h
    · have : u F ≤ v := by linarith
      refine ⟨⟨fun _ => by linarith, fun _ => by linarith⟩, ⟨fun _ => by linarith, fun _ => by linarith⟩,
        .inr (this.trans (le_abs_self v)), by linarith⟩
    · have : u F ≤ -v := by linarith
      refine ⟨⟨fun _ => by linarith, fun _ => by linarith⟩, ⟨fun _ => by linarith, fun _ => by linarith⟩,
        .inr (this.trans (neg_le_abs v)), by linarith⟩

/-! ### Extended points -/

/-- First coordinates of the vertices. -/
def Lx (N : List (Vtx ℚ)) (i : ℚ) : Prop := ∃ v ∈ N, v.x = i
/-- Second coordinates of the vertices. -/
def Ly (N : List (Vtx ℚ)) (i : ℚ) : Prop := ∃ v ∈ N, v.y = i

/-- Directions of the infinite vertices. -/
def dirX : Fin 4 → ℤ
  | 0 => -1
  | 1 => 0
  | 2 => 1
  | 3 => 0
/-- Directions of the infinite vertices. -/
def dirY : Fin 4 → ℤ
  | 0 => 0
  | 1 => 1
  | 2 => 0
  | 3 => -1

/-- A vertex, or a moved vertex. -/
def Xp (g : ℚ → ℚ) (N : List (Vtx ℚ)) (p : Vtx F) (p' : Vtx ℚ) : Prop :=
  ∃ zx ix zy iy, Xc g (Lx N) p.x zx ix ∧ Xc g (Ly N) p.y zy iy ∧ p'.x = pos zx ix ∧ p'.y = pos zy iy

variable {N : List (Vtx ℚ)}

theorem Xp.of_cv {p : Vtx F} {p' : Vtx ℚ} (h : Cv g p p') (hN : p' ∈ N) : Xp g N p p' :=
  ⟨0, p'.x, 0, p'.y, .of_cd h.1 ⟨_, hN, rfl⟩, .of_cd h.2 ⟨_, hN, rfl⟩, by simp [pos], by simp [pos]⟩

theorem val_xDelta (k : Fin 4) : Rounded.val (xDelta k : F) = some (dirX k * (Rounded.val (delta : F)).getD 0) := by
  obtain ⟨d, hd, -⟩ := val_delta (F := F)
  fin_cases k <;> simp [xDelta, dirX, hd, val_zero, val_neg hd]

theorem val_yDelta (k : Fin 4) : Rounded.val (yDelta k : F) = some (dirY k * (Rounded.val (delta : F)).getD 0) := by
  obtain ⟨d, hd, -⟩ := val_delta (F := F)
  fin_cases k <;> simp [yDelta, dirY, hd, val_zero, val_neg hd]

theorem exact_xDelta (k : Fin 4) : (xDelta k : ℚ) = dirX k * (142 / 100) := by
  fin_cases k <;> simp [xDelta, dirX]

theorem exact_yDelta (k : Fin 4) : (yDelta k : ℚ) = dirY k * (142 / 100) := by
  fin_cases k <;> simp [yDelta, dirY]

theorem semi_exact (a : Vtx ℚ) (k : Fin 4) :
    (semiInf a k).2.x = pos (dirX k) a.x ∧ (semiInf a k).2.y = pos (dirY k) a.y := by
  simp [semiInf, exact_xDelta, exact_yDelta, pos]

theorem semi_xc (hg : Grid F g) {p : Vtx F} {p' : Vtx ℚ} (h : Cv g p p') (hN : p' ∈ N) (k : Fin 4) :
    Xc g (Lx N) (semiInf p k).2.x (dirX k) p'.x ∧ Xc g (Ly N) (semiInf p k).2.y (dirY k) p'.y := by
  refine ⟨Xc.moved hg h.1 ⟨_, hN, rfl⟩ _ ?_ ?_ (val_xDelta k), Xc.moved hg h.2 ⟨_, hN, rfl⟩ _ ?_ ?_ (val_yDelta k)⟩ <;>
    fin_cases k <;> simp [dirX, dirY]

theorem Xp.semi (hg : Grid F g) {p : Vtx F} {p' : Vtx ℚ} (h : Cv g p p') (hN : p' ∈ N) (k : Fin 4) :
    Xp g N (semiInf p k).2 (semiInf p' k).2 :=
  ⟨_, _, _, _, (semi_xc hg h hN k).1, (semi_xc hg h hN k).2, (semi_exact p' k).1, (semi_exact p' k).2⟩

theorem Xp.vtxEq (hx : SepL (u F) (Lx N)) (hy : SepL (u F) (Ly N)) {p q : Vtx F} {p' q' : Vtx ℚ} (hp : Xp g N p p')
    (hq : Xp g N q q') : vtxEq p q = vtxEq p' q' := by
  obtain ⟨_, _, _, _, h1, h2, e1, e2⟩ := hp
  obtain ⟨_, _, _, _, h3, h4, e3, e4⟩ := hq
  unfold CDT.vtxEq
  rw [h1.eq_iff hx h3, h2.eq_iff hy h4, e1, e2, e3, e4]

theorem Xp.onSegment (hx : SepL (u F) (Lx N)) (hy : SepL (u F) (Ly N)) {p q r : Vtx F} {p' q' r' : Vtx ℚ} (hp : Xp g N p p')
    (hq : Xp g N q q') (hr : Xp g N r r') : onSegment p q r = onSegment p' q' r' := by
  obtain ⟨_, _, _, _, h1, h2, e1, e2⟩ := hp
  obtain ⟨_, _, _, _, h3, h4, e3, e4⟩ := hq
  obtain ⟨_, _, _, _, h5, h6, e5, e6⟩ := hr
  unfold CDT.onSegment
  rw [h3.le_max hx h1 h5, h3.min_le hx h1 h5, h4.le_max hy h2 h6, h4.min_le hy h2 h6, e1, e2, e3, e4, e5, e6]

theorem zero_mul_val {x y : F} {w : ℚ} (hx : Rounded.val x = some 0) (hy : Rounded.val y = some w) :
    Rounded.val (mul x y) = some 0 := by
  have hb := big_ge (F := F)
  have := val_mul hx hy (by rw [zero_mul, abs_zero]; linarith)
  rwa [zero_mul, rnd_zero] at this

/-- Orientation along a semi-infinite edge. -/
theorem orient_semi (hg : Grid F g) (hx : SepL (u F) (Lx N)) (hy : SepL (u F) (Ly N)) {f r : Vtx F} {f' r' : Vtx ℚ}
    (hf : Cv g f f') (hN : f' ∈ N) (k : Fin 4) (hr : Xp g N r r') :
    tripletOrientation (semiInf f k).1 (semiInf f k).2 r = tripletOrientation (semiInf f' k).1 (semiInf f' k).2 r' := by
  apply orient_eq
  have hu := u_pos (F := F)
  have hl := u_le (F := F)
  obtain ⟨_, _, _, _, r1, r2, e1, e2⟩ := hr
  obtain ⟨s1, s2⟩ := semi_xc hg hf hN k
  obtain ⟨m1, m2⟩ := semi_exact f' k
  obtain ⟨vx, vx1, -, -, vx2, vx3, vx4, vx5⟩ := r1.sub hx s1
  obtain ⟨vy, vy1, -, -, vy2, vy3, vy4, vy5⟩ := r2.sub hy s2
  rw [← e1, ← m1] at vx2 vx3
  rw [← e2, ← m2] at vy2 vy3
  have hne := val_neg (val_delta (F := F)).choose_spec.1
  obtain ⟨d, hd, hdn⟩ := val_delta (F := F)
  have apd : Ap (delta : F) (142 / 100) (2 * u F) := ⟨d, hd, hdn⟩
  have apn : Ap (neg delta : F) (-(142 / 100)) (2 * u F) := ⟨-d, val_neg hd, by rw [neg_sub_neg, abs_sub_comm]; exact hdn⟩
  have key : ∀ {x : F} {s : ℚ}, Ap x s (15 * u F) → (s = 142 / 100 ∨ s = -(142 / 100)) →
      ∃ v, Rounded.val x = some v ∧ 1 ≤ |v| ∧ |v| ≤ 5 ∧ (0 < v ↔ 0 < s) ∧ (v < 0 ↔ s < 0) := by
    rintro x s ⟨v, hv, hn⟩ hs
    rw [abs_le] at hn
    refine ⟨v, hv, ?_⟩
    rcases hs with rfl | rfl
    · have : 1 ≤ v := by linarith
      exact ⟨this.trans (le_abs_self v), by rw [abs_of_pos (by linarith)]; linarith,
        ⟨fun _ => by norm_num, fun _ => by linarith⟩, fun _ => by linarith, fun h => by norm_num at h⟩
    · have : v ≤ -1 := by linarith
      exact ⟨by rw [abs_of_neg (by linarith)]; linarith, by rw [abs_of_neg (by linarith)]; linarith,
        ⟨fun _ => by linarith, fun h => by norm_num at h⟩, fun _ => by norm_num, fun _ => by linarith⟩
  have caseX : ∀ {s : ℚ} (dx : F), (xDelta k : F) = dx → Rounded.val (yDelta k : F) = some 0 → (xDelta k : ℚ) = s →
      (yDelta k : ℚ) = 0 → Ap dx s (2 * u F) → (s = 142 / 100 ∨ s = -(142 / 100)) →
      Sn (FloatOps.sub (mul (FloatOps.sub (semiInf f k).2.y (semiInf f k).1.y) (FloatOps.sub r.x (semiInf f k).2.x))
          (mul (FloatOps.sub (semiInf f k).2.x (semiInf f k).1.x) (FloatOps.sub r.y (semiInf f k).2.y)))
        (((semiInf f' k).2.y - (semiInf f' k).1.y) * (r'.x - (semiInf f' k).2.x) -
          ((semiInf f' k).2.x - (semiInf f' k).1.x) * (r'.y - (semiInf f' k).2.y)) := by
    intro s dx h1 h2 h3 h4 h5 h6
    have hs : |s| ≤ 142 / 100 := by rcases h6 with rfl | rfl <;> norm_num
    obtain ⟨v, v1, v2, v3, v4, v5⟩ := key (moved_ap hg hf.1 h5 hs) h6
    have z := zero_mul_val (moved_zero hg hf.2 h2) vx1
    obtain ⟨q1, q2⟩ := mul_sn v1 vy1 v2 v3 vy4 vy5 v4 v5 vy2 vy3
    have := (sub_zero_sn q1 z q2).2
    rw [← h1] at this
    refine Sn.congr this ?_
    simp only [semiInf, h3, h4, exact_add]
    ring
  have caseY : ∀ {s : ℚ} (dx : F), (yDelta k : F) = dx → Rounded.val (xDelta k : F) = some 0 → (yDelta k : ℚ) = s →
      (xDelta k : ℚ) = 0 → Ap dx s (2 * u F) → (s = 142 / 100 ∨ s = -(142 / 100)) →
      Sn (FloatOps.sub (mul (FloatOps.sub (semiInf f k).2.y (semiInf f k).1.y) (FloatOps.sub r.x (semiInf f k).2.x))
          (mul (FloatOps.sub (semiInf f k).2.x (semiInf f k).1.x) (FloatOps.sub r.y (semiInf f k).2.y)))
        (((semiInf f' k).2.y - (semiInf f' k).1.y) * (r'.x - (semiInf f' k).2.x) -
          ((semiInf f' k).2.x - (semiInf f' k).1.x) * (r'.y - (semiInf f' k).2.y)) := by
    intro s dx h1 h2 h3 h4 h5 h6
    have hs : |s| ≤ 142 / 100 := by rcases h6 with rfl | rfl <;> norm_num
    obtain ⟨v, v1, v2, v3, v4, v5⟩ := key (moved_ap hg hf.2 h5 hs) h6
    have z := zero_mul_val (moved_zero hg hf.1 h2) vy1
    obtain ⟨q1, q2⟩ := mul_sn v1 vx1 v2 v3 vx4 vx5 v4 v5 vx2 vx3
    have := (sub_zero_sn q1 z q2).1
    rw [← h1] at this
    refine Sn.congr this ?_
    simp only [semiInf, h3, h4, exact_add]
    ring
  clear hne
  fin_cases k
  · exact caseX _ rfl val_zero rfl rfl apn (.inr rfl)
  · exact caseY _ rfl val_zero rfl rfl apd (.inl rfl)
  · exact caseX _ rfl val_zero rfl rfl apd (.inl rfl)
  · exact caseY _ rfl val_zero rfl rfl apn (.inr rfl)

/-- Orientation of three vertices. -/
theorem orient_fin (h : NRobust F g N) {p q r : Vtx F} {p' q' r' : Vtx ℚ} (hp : Cv g p p') (hq : Cv g q q')
    (hr : Cv g r r') (mp : p' ∈ N) (mq : q' ∈ N) (mr : r' ∈ N) (hne : p' ≠ r') :
    tripletOrientation p q r = tripletOrientation p' q' r' := by
  apply orient_eq
  have hu := u_pos (F := F)
  obtain ⟨d1, d2⟩ := Df.det (hq.2.df hp.2) (hr.1.df hq.1) (hq.1.df hp.1) (hr.2.df hq.2)
  rcases h.rest with hG | ⟨h, -⟩
  · exact (hG.orient hp hq hr mp mq mr).sn
  rcases h q' mq p' mp r' mr with h | h | h
  · exact absurd h hne
  · have e1 : (q'.y - p'.y) * (r'.x - q'.x) = 0 := by linarith [h.2]
    have e2 : (q'.x - p'.x) * (r'.y - q'.y) = 0 := by linarith [h.1]
    exact (sg_zero (d2 e1 e2) (by rw [e1, e2, sub_zero])).sn
  · refine (Ap.sg d1 ?_).sn
    rw [show (q'.y - p'.y) * (r'.x - q'.x) - (q'.x - p'.x) * (r'.y - q'.y) =
      (r'.y - q'.y) * (p'.x - q'.x) - (r'.x - q'.x) * (p'.y - q'.y) by ring]
    linarith

/-- No vertex pair is almost aligned with the far end of a semi-infinite edge of another vertex. -/
def NRay (u : ℚ) (N : List (Vtx ℚ)) : Prop := ∀ a ∈ N, ∀ b ∈ N, ∀ f ∈ N, f ≠ a → f ≠ b → ∀ k : Fin 4,
  ((b.y - a.y) * (pos (dirX k) f.x - b.x) = 0 ∧ (b.x - a.x) * (pos (dirY k) f.y - b.y) = 0) ∨
  96 * u ≤ |(b.y - a.y) * (pos (dirX k) f.x - b.x) - (b.x - a.x) * (pos (dirY k) f.y - b.y)|

/-- Difference of a far coordinate and a vertex coordinate. -/
theorem far_sub {x y : F} {z : ℤ} {i j : ℚ} (hS : SepL (u F) L) (hx : Xc g L x z i) (hy : Cd g y j) (hj : L j) :
    Ap (FloatOps.sub x y) (pos z i - j) (16 * u F) ∧ |pos z i - j| ≤ 242 / 100 ∧
      (pos z i - j = 0 → Rounded.val (FloatOps.sub x y) = some 0) := by
  have hu := u_pos (F := F)
  have hl := u_le (F := F)
  have hb := big_ge (F := F)
  have h2 := u_sq (F := F)
  have hz : z = 0 ∨ z = 1 ∨ z = -1 := by have := hx.z_le; have := hx.z_ge; omega
  have hM : |pos z i - j| ≤ 242 / 100 := by
    have := hx.nonneg; have := hx.le; have := hy.nonneg; have := hy.le
    unfold pos
    rw [abs_le]
    rcases hz with rfl | rfl | rfl <;> push_cast <;> constructor <;> linarith
  refine ⟨(Ap.sub ⟨_, hx.val, hx.near⟩ ⟨_, hy.val, hy.near⟩ hM (by nlinarith)).mono (by nlinarith), hM, fun h0 => ?_⟩
  have hy' : Xc g L y 0 j := .of_cd hy hj
  have hp : pos 0 j = j := by simp [pos]
  obtain ⟨v, v1, -, v2, -⟩ := hx.sub hS hy'
  rw [v1, v2 (by rw [hp]; linarith)]

/-- Orientation of two vertices and the far end of a semi-infinite edge. -/
theorem orient_far (hg : Grid F g) (hx : SepL (u F) (Lx N)) (hy : SepL (u F) (Ly N)) (h : NRay (u F) N) {p q f : Vtx F}
    {p' q' f' : Vtx ℚ} (hp : Cv g p p') (hq : Cv g q q') (hf : Cv g f f') (mp : p' ∈ N) (mq : q' ∈ N) (mf : f' ∈ N)
    (h1 : f' ≠ p') (h2 : f' ≠ q') (k : Fin 4) :
    tripletOrientation p q (semiInf f k).2 = tripletOrientation p' q' (semiInf f' k).2 := by
  apply orient_eq
  have hu := u_pos (F := F)
  have hl := u_le (F := F)
  have hb := big_ge (F := F)
  have hu2 := u_sq (F := F)
  have ht := tiny_le (F := F)
  obtain ⟨s1, s2⟩ := semi_xc hg hf mf k
  obtain ⟨m1, m2⟩ := semi_exact f' k
  obtain ⟨a1, a2, a3⟩ := far_sub hx s1 hq.1 ⟨_, mq, rfl⟩
  obtain ⟨b1, b2, b3⟩ := far_sub hy s2 hq.2 ⟨_, mq, rfl⟩
  have dy := hq.2.df hp.2
  have dx := hq.1.df hp.1
  have hr := h p' mp q' mq f' mf h1 h2 k
  rw [m1, m2]
  have zero : ∀ {x y : F} {a b : ℚ}, Df x a → Ap y b (16 * u F) → (b = 0 → Rounded.val y = some 0) → a * b = 0 →
      Rounded.val (mul x y) = some 0 := by
    intro x y a b h1 h2 h3 h4
    rcases mul_eq_zero.1 h4 with h5 | h5
    · obtain ⟨w, hw, -⟩ := h2; exact zero_mul_val (h1.zero h5) hw
    · obtain ⟨w, hw, -⟩ := h1.ap
      have := val_mul hw (h3 h5) (by rw [mul_zero, abs_zero]; linarith)
      rwa [mul_zero, rnd_zero] at this
  rcases hr with ⟨e1, e2⟩ | hr
  · have z1 := zero dy a1 a3 e1
    have z2 := zero dx b1 b3 e2
    have := val_sub z1 z2 (by simp; linarith)
    rw [sub_zero, rnd_zero] at this
    exact (sg_zero this (by rw [e1, e2, sub_zero])).sn
  · have mulAp : ∀ {x y : F} {a b : ℚ}, Df x a → Ap y b (16 * u F) → |b| ≤ 242 / 100 → Ap (mul x y) (a * b) (43 * u F) := by
      intro x y a b h1 h2 h3
      exact (Ap.mul h1.ap h2 h1.le h3 (by nlinarith)).mono (by nlinarith [mul_pos hu hu])
    have p1 := mulAp dy a1 a2
    have p2 := mulAp dx b1 b2
    have hM : |(q'.y - p'.y) * (pos (dirX k) f'.x - q'.x) - (q'.x - p'.x) * (pos (dirY k) f'.y - q'.y)| ≤ 484 / 100 := by
      refine (abs_sub _ _).trans ?_
      rw [abs_mul, abs_mul]
      have := dy.le; have := dx.le
      have := mul_le_mul dy.le a2 (abs_nonneg _) zero_le_one
      have := mul_le_mul dx.le b2 (abs_nonneg _) zero_le_one
      linarith
    refine (Ap.sg ((Ap.sub p1 p2 hM (by nlinarith)).mono (e' := 92 * u F) (by nlinarith)) ?_).sn
    linarith

/-- The intersection test agrees when its comparisons do. -/
theorem edgesIntersect_congr {e d : EV F} {e' d' : EV ℚ} (v11 : vtxEq e.1 d.1 = vtxEq e'.1 d'.1)
    (v12 : vtxEq e.1 d.2 = vtxEq e'.1 d'.2) (v21 : vtxEq e.2 d.1 = vtxEq e'.2 d'.1) (v22 : vtxEq e.2 d.2 = vtxEq e'.2 d'.2)
    (o : (vtxEq e'.1 d'.1 || vtxEq e'.1 d'.2 || vtxEq e'.2 d'.1 || vtxEq e'.2 d'.2) = false →
      tripletOrientation e.1 e.2 d.1 = tripletOrientation e'.1 e'.2 d'.1 ∧
      tripletOrientation e.1 e.2 d.2 = tripletOrientation e'.1 e'.2 d'.2 ∧
      tripletOrientation d.1 d.2 e.1 = tripletOrientation d'.1 d'.2 e'.1 ∧
      tripletOrientation d.1 d.2 e.2 = tripletOrientation d'.1 d'.2 e'.2)
    (s1 : onSegment e.1 d.1 e.2 = onSegment e'.1 d'.1 e'.2) (s2 : onSegment e.1 d.2 e.2 = onSegment e'.1 d'.2 e'.2)
    (s3 : onSegment d.1 e.1 d.2 = onSegment d'.1 e'.1 d'.2) (s4 : onSegment d.1 e.2 d.2 = onSegment d'.1 e'.2 d'.2) :
    edgesIntersect e d = edgesIntersect e' d' := by
  unfold edgesIntersect
  rw [v11, v12, v21, v22]
  split
  · rfl
  · rename_i hb
    obtain ⟨o1, o2, o3, o4⟩ := o (Bool.eq_false_iff.2 hb)
    simp only [o1, o2, o3, o4, s1, s2, s3, s4]

/-- An edge of the test: two vertices, or a semi-infinite edge. -/
inductive Xe (g : ℚ → ℚ) (N : List (Vtx ℚ)) : EV F → EV ℚ → Prop where
  | fin {a b : Vtx F} {a' b' : Vtx ℚ} (ha : Cv g a a') (hb : Cv g b b') (ma : a' ∈ N) (mb : b' ∈ N) : Xe g N (a, b) (a', b')
  | semi {a : Vtx F} {a' : Vtx ℚ} (ha : Cv g a a') (ma : a' ∈ N) (k : Fin 4) : Xe g N (semiInf a k) (semiInf a' k)

theorem Xe.fst {e : EV F} {e' : EV ℚ} (h : Xe g N e e') : Cv g e.1 e'.1 ∧ e'.1 ∈ N := by
  cases h with
  | fin ha _ ma _ => exact ⟨ha, ma⟩
  | semi ha ma k => exact ⟨ha, ma⟩

theorem Xe.snd (hg : Grid F g) {e : EV F} {e' : EV ℚ} (h : Xe g N e e') : Xp g N e.2 e'.2 := by
  cases h with
  | fin _ hb _ mb => exact .of_cv hb mb
  | semi ha ma k => exact .semi hg ha ma k

theorem ne_of_vtxEq {a b : Vtx ℚ} (h : vtxEq a b = false) : a ≠ b := by
  rintro rfl
  simp [vtxEq] at h

theorem Xe.orient (hg : Grid F g) (hN : NRobust F g N) (hR : NRay (u F) N) (hx : SepL (u F) (Lx N))
    (hy : SepL (u F) (Ly N)) {e d : EV F} {e' d' : EV ℚ} (he : Xe g N e e') (hd : Xe g N d d')
    (h11 : vtxEq e'.1 d'.1 = false) (h12 : vtxEq e'.1 d'.2 = false) (h21 : vtxEq e'.2 d'.1 = false) :
    tripletOrientation e.1 e.2 d.1 = tripletOrientation e'.1 e'.2 d'.1 ∧
    tripletOrientation e.1 e.2 d.2 = tripletOrientation e'.1 e'.2 d'.2 := by
  cases he with
  | fin ha hb ma mb =>
    refine ⟨orient_fin hN ha hb hd.fst.1 ma mb hd.fst.2 (ne_of_vtxEq h11), ?_⟩
    cases hd with
    | fin hc hd mc md => exact orient_fin hN ha hb hd ma mb md (ne_of_vtxEq h12)
    | semi hc mc k => exact orient_far hg hx hy hR ha hb hc ma mb mc (ne_of_vtxEq h11).symm (ne_of_vtxEq h21).symm k
  | semi ha ma k =>
    exact ⟨orient_semi hg hx hy ha ma k (.of_cv hd.fst.1 hd.fst.2), orient_semi hg hx hy ha ma k (hd.snd hg)⟩

theorem vtxEq_symm (a b : Vtx ℚ) : vtxEq a b = vtxEq b a := by
  simp [vtxEq, eq_comm]

/-- The intersection test of rounded edges is the exact one. -/
theorem Xe.isect (hg : Grid F g) (hN : NRobust F g N) (hR : NRay (u F) N) {e d : EV F} {e' d' : EV ℚ} (he : Xe g N e e')
    (hd : Xe g N d d') : edgesIntersect e d = edgesIntersect e' d' := by
  have hx : SepL (u F) (Lx N) := by
    rintro _ _ ⟨a, ha, rfl⟩ ⟨b, hb, rfl⟩
    exact hN.x a ha b hb
  have hy : SepL (u F) (Ly N) := by
    rintro _ _ ⟨a, ha, rfl⟩ ⟨b, hb, rfl⟩
    exact hN.y a ha b hb
  have e1 : Xp g N e.1 e'.1 := .of_cv he.fst.1 he.fst.2
  have d1 : Xp g N d.1 d'.1 := .of_cv hd.fst.1 hd.fst.2
  have e2 := he.snd hg
  have d2 := hd.snd hg
  refine edgesIntersect_congr (e1.vtxEq hx hy d1) (e1.vtxEq hx hy d2) (e2.vtxEq hx hy d1) (e2.vtxEq hx hy d2) ?_
    (e1.onSegment hx hy d1 e2) (e1.onSegment hx hy d2 e2) (d1.onSegment hx hy e1 d2) (d1.onSegment hx hy e2 d2)
  intro h
  simp only [Bool.or_eq_false_iff] at h
  obtain ⟨⟨⟨h1, h2⟩, h3⟩, h4⟩ := h
  obtain ⟨o1, o2⟩ := Xe.orient hg hN hR hx hy he hd h1 h2 h3
  rw [vtxEq_symm] at h1 h2 h3
  obtain ⟨o3, o4⟩ := Xe.orient hg hN hR hx hy hd he h1 h3 h2
  exact ⟨o1, o2, o3, o4⟩

theorem agreeC [IdCfg] (hE : P.eps = 2 * u F) {vf : List (Vtx F)} (hg : Grid F g)
    (h : List.Forall₂ (fun v w => Cv g v w) vf N) (hr : NRobust F g N) (hR : NRay (u F) N) : AgreeC vf N := by
  refine ⟨agree P hE hg h hr, ?_⟩
  have conv : ∀ {e e'}, EPair vf N e e' → Xe g N e e' := by
    rintro _ _ (⟨ha, hb⟩ | ⟨ha, k⟩)
    · obtain ⟨a1, a2⟩ := pair_of_forall₂ h ha
      obtain ⟨b1, b2⟩ := pair_of_forall₂ h hb
      exact .fin a1 b1 a2 b2
    · obtain ⟨a1, a2⟩ := pair_of_forall₂ h ha
      exact .semi a1 a2 k
  exact fun e e' d d' he hd => (conv he).isect hg hr hR (conv hd)

end
end Rounded
end CDT

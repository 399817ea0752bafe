import Verif.Model.Rounded
import Verif.Geo.Agree

/-!
# Rounding errors of the predicates

Coordinates of normalized vertices are within `4u` of points of the unit square. Every predicate of the triangulation then
has the value of the exact predicate, provided the exact value is zero for a structural reason (equal coordinates) or large
enough compared with `u`.
-/

set_option linter.unusedSectionVars false
set_option linter.unusedVariables false

namespace CDT
open FloatOps

namespace Rounded

variable {F : Type} [FloatOps F] [Rounded F]

/-- `x` is within `e` of `a`. -/
def Ap (x : F) (a e : ℚ) : Prop := ∃ v, val x = some v ∧ |v - a| ≤ e

theorem Ap.mono {x : F} {a e e' : ℚ} (h : Ap x a e) (he : e ≤ e') : Ap x a e' :=
  ⟨h.choose, h.choose_spec.1, h.choose_spec.2.trans he⟩

theorem abs_le_of_near {v a e A : ℚ} (h : |v - a| ≤ e) (ha : |a| ≤ A) : |v| ≤ A + e := by
  have := abs_add_le a (v - a)
  rw [add_sub_cancel] at this
  linarith

theorem Ap.add {x y : F} {a b e1 e2 M : ℚ} (hx : Ap x a e1) (hy : Ap y b e2) (hM : |a + b| ≤ M)
    (hb : M + (e1 + e2) ≤ big (F := F)) : Ap (FloatOps.add x y) (a + b) (e1 + e2 + u F * (M + (e1 + e2))) := by
  obtain ⟨v, hv, h1⟩ := hx
  obtain ⟨w, hw, h2⟩ := hy
  have h3 : |v + w - (a + b)| ≤ e1 + e2 := by
    have := abs_add_le (v - a) (w - b)
    rw [show v - a + (w - b) = v + w - (a + b) by ring] at this
    linarith
  have h4 := abs_le_of_near h3 hM
  refine ⟨_, val_add hv hw (h4.trans hb), ?_⟩
  have h5 := add_err hv hw
  have h6 : u F * |v + w| ≤ u F * (M + (e1 + e2)) := mul_le_mul_of_nonneg_left h4 u_pos.le
  have := abs_add_le (rnd F (v + w) - (v + w)) (v + w - (a + b))
  rw [sub_add_sub_cancel] at this
  linarith

theorem Ap.sub {x y : F} {a b e1 e2 M : ℚ} (hx : Ap x a e1) (hy : Ap y b e2) (hM : |a - b| ≤ M)
    (hb : M + (e1 + e2) ≤ big (F := F)) : Ap (FloatOps.sub x y) (a - b) (e1 + e2 + u F * (M + (e1 + e2))) := by
  obtain ⟨v, hv, h1⟩ := hx
  obtain ⟨w, hw, h2⟩ := hy
  have h3 : |v - w - (a - b)| ≤ e1 + e2 := by
    have := abs_sub (v - a) (w - b)
    rw [show v - a - (w - b) = v - w - (a - b) by ring] at this
    linarith
  have h4 := abs_le_of_near h3 hM
  refine ⟨_, val_sub hv hw (h4.trans hb), ?_⟩
  have h5 := sub_err hv hw
  have h6 : u F * |v - w| ≤ u F * (M + (e1 + e2)) := mul_le_mul_of_nonneg_left h4 u_pos.le
  have := abs_add_le (rnd F (v - w) - (v - w)) (v - w - (a - b))
  rw [sub_add_sub_cancel] at this
  linarith

theorem Ap.mul {x y : F} {a b e1 e2 A B : ℚ} (hx : Ap x a e1) (hy : Ap y b e2) (hA : |a| ≤ A) (hB : |b| ≤ B)
    (hb : (A + e1) * (B + e2) ≤ big (F := F)) :
    Ap (FloatOps.mul x y) (a * b) (e1 * (B + e2) + A * e2 + (u F * ((A + e1) * (B + e2)) + tiny F)) := by
  obtain ⟨v, hv, h1⟩ := hx
  obtain ⟨w, hw, h2⟩ := hy
  have hv' := abs_le_of_near h1 hA
  have hw' := abs_le_of_near h2 hB
  have h3 : |v * w - a * b| ≤ e1 * (B + e2) + A * e2 := by
    have := abs_add_le ((v - a) * w) (a * (w - b))
    rw [show (v - a) * w + a * (w - b) = v * w - a * b by ring, abs_mul, abs_mul] at this
    have e1 : |v - a| * |w| ≤ e1 * (B + e2) := mul_le_mul h1 hw' (abs_nonneg _) ((abs_nonneg _).trans h1)
    have e2 : |a| * |w - b| ≤ A * e2 := mul_le_mul hA h2 (abs_nonneg _) ((abs_nonneg _).trans hA)
    linarith
  have h4 : |v * w| ≤ (A + e1) * (B + e2) := by
    rw [abs_mul]; exact mul_le_mul hv' hw' (abs_nonneg _) ((abs_nonneg _).trans hv')
  refine ⟨_, val_mul hv hw (h4.trans hb), ?_⟩
  have h5 := rnd_err (F := F) (v * w)
  have h6 : u F * |v * w| ≤ u F * ((A + e1) * (B + e2)) := mul_le_mul_of_nonneg_left h4 u_pos.le
  have := abs_add_le (rnd F (v * w) - v * w) (v * w - a * b)
  rw [sub_add_sub_cancel] at this
  linarith

theorem zero_mul' {x y : F} {b : ℚ} (hx : val x = some 0) (hy : val y = some b) : val (FloatOps.mul x y) = some 0 := by
  rw [val_mul hx hy (by have := big_ge (F := F); simp; linarith), zero_mul, rnd_zero]

theorem mul_zero' {x y : F} {b : ℚ} (hx : val x = some b) (hy : val y = some 0) : val (FloatOps.mul x y) = some 0 := by
  rw [val_mul hx hy (by have := big_ge (F := F); simp; linarith), mul_zero, rnd_zero]

theorem u_sq : u F * u F ≤ u F / 1000 := by nlinarith [u_pos (F := F), u_le (F := F)]

theorem u_cu : u F * u F * u F ≤ u F / 1000000 := by
  nlinarith [u_pos (F := F), u_le (F := F), u_sq (F := F), mul_pos (u_pos (F := F)) (u_pos (F := F))]

/-- A difference of coordinates: within `10u`, and exact when it is zero. -/
structure Df (x : F) (a : ℚ) : Prop where
  ap : Ap x a (10 * u F)
  le : |a| ≤ 1
  zero : a = 0 → val x = some 0

/-- Products of differences. -/
theorem Df.mul {x y : F} {a b : ℚ} (hx : Df x a) (hy : Df y b) :
    Ap (FloatOps.mul x y) (a * b) (22 * u F) ∧ (a * b = 0 → val (FloatOps.mul x y) = some 0) := by
  have hu := u_pos (F := F)
  have hl := u_le (F := F)
  have h2 := u_sq (F := F)
  have h3 := u_cu (F := F)
  have ht := tiny_le (F := F)
  have hb := big_ge (F := F)
  constructor
  · refine (hx.ap.mul hy.ap hx.le hy.le ?_).mono ?_ <;> nlinarith
  · intro h
    obtain ⟨v, hv, _⟩ := hx.ap
    obtain ⟨w, hw, _⟩ := hy.ap
    rcases mul_eq_zero.1 h with h | h
    · exact zero_mul' (hx.zero h) hw
    · exact mul_zero' hv (hy.zero h)

theorem abs_mul_le_one {a b : ℚ} (ha : |a| ≤ 1) (hb : |b| ≤ 1) : |a * b| ≤ 1 := by
  rw [abs_mul]; exact mul_le_one₀ ha (abs_nonneg _) hb

/-- Determinants of differences. -/
theorem Df.det {x y z w : F} {a b c d : ℚ} (hx : Df x a) (hy : Df y b) (hz : Df z c) (hw : Df w d) :
    Ap (FloatOps.sub (FloatOps.mul x y) (FloatOps.mul z w)) (a * b - c * d) (48 * u F) ∧
    (a * b = 0 → c * d = 0 → val (FloatOps.sub (FloatOps.mul x y) (FloatOps.mul z w)) = some 0) := by
  have hu := u_pos (F := F)
  have h2 := u_sq (F := F)
  have hl := u_le (F := F)
  have hb := big_ge (F := F)
  obtain ⟨p1, p2⟩ := hx.mul hy
  obtain ⟨q1, q2⟩ := hz.mul hw
  have hM : |a * b - c * d| ≤ 2 := by
    have := abs_sub (a * b) (c * d)
    have := abs_mul_le_one hx.le hy.le
    have := abs_mul_le_one hz.le hw.le
    linarith
  constructor
  · refine (p1.sub q1 hM ?_).mono ?_ <;> nlinarith
  · intro h h'
    rw [val_sub (p2 h) (q2 h') (by simp; linarith), sub_zero, rnd_zero]

/-- Scalar products of differences. -/
theorem Df.dot {x y z w : F} {a b c d : ℚ} (hx : Df x a) (hy : Df y b) (hz : Df z c) (hw : Df w d) :
    Ap (FloatOps.add (FloatOps.mul x y) (FloatOps.mul z w)) (a * b + c * d) (48 * u F) := by
  have hu := u_pos (F := F)
  have h2 := u_sq (F := F)
  have hl := u_le (F := F)
  have hb := big_ge (F := F)
  obtain ⟨p1, p2⟩ := hx.mul hy
  obtain ⟨q1, q2⟩ := hz.mul hw
  have hM : |a * b + c * d| ≤ 2 := by
    have := abs_add_le (a * b) (c * d)
    have := abs_mul_le_one hx.le hy.le
    have := abs_mul_le_one hz.le hw.le
    linarith
  refine (p1.add q1 hM ?_).mono ?_ <;> nlinarith

/-- A value with the sign of `a`, and near zero like `a`. -/
def Sg (x : F) (a : ℚ) : Prop := ∃ v, val x = some v ∧ ((0 < v ↔ 0 < a) ∧ (v < 0 ↔ a < 0) ∧
  (|v| < 2 * u F ↔ |a| < 2 * u F) ∧ (v ≤ -(2 * u F) ↔ a ≤ -(2 * u F)))

theorem Ap.sg {x : F} {a e : ℚ} (h : Ap x a e) (he : e + 2 * u F ≤ |a|) : Sg x a := by
  obtain ⟨v, hv, h1⟩ := h
  have hu := u_pos (F := F)
  have h0 := (abs_nonneg _).trans h1
  rw [abs_le] at h1
  refine ⟨v, hv, ?_⟩
  rcases le_total 0 a with ha | ha
  · rw [abs_of_nonneg ha] at he ⊢
    have h2 : 2 * u F ≤ v := by linarith
    have h3 : 0 < v := by linarith
    rw [abs_of_pos h3]
    refine ⟨⟨fun _ => by linarith, fun _ => h3⟩, ⟨fun _ => by linarith, fun _ => by linarith⟩,
      ⟨fun _ => by linarith, fun _ => by linarith⟩, ⟨fun _ => by linarith, fun _ => by linarith⟩⟩
  · rw [abs_of_nonpos ha] at he ⊢
    have h2 : v ≤ -(2 * u F) := by linarith
    have h3 : v < 0 := by linarith
    rw [abs_of_neg h3]
    refine ⟨⟨fun _ => by linarith, fun _ => by linarith⟩, ⟨fun _ => by linarith, fun _ => h3⟩,
      ⟨fun _ => by linarith, fun _ => by linarith⟩, ⟨fun _ => by linarith, fun _ => by linarith⟩⟩

theorem sg_zero {x : F} {a : ℚ} (h : val x = some 0) (ha : a = 0) : Sg x a := ⟨0, h, by subst ha; simp⟩

section
variable [P : ExactParams ℚ]

theorem Sg.onLeft {x : F} {a : ℚ} (h : Sg x a) : CDT.onLeft x = CDT.onLeft a := by
  obtain ⟨v, hv, h1, _⟩ := h
  unfold CDT.onLeft
  rw [lt_iff val_zero hv]
  simp [h1]

theorem Sg.onRight {x : F} {a : ℚ} (h : Sg x a) : CDT.onRight x = CDT.onRight a := by
  obtain ⟨v, hv, _, h1, _⟩ := h
  unfold CDT.onRight
  rw [lt_iff hv val_zero]
  simp [h1]

theorem Sg.nearEdge (hE : P.eps = 2 * u F) {x : F} {a : ℚ} (h : Sg x a) : CDT.nearEdge x = CDT.nearEdge a := by
  obtain ⟨v, hv, _, _, h1, _⟩ := h
  unfold CDT.nearEdge
  rw [lt_iff (val_abs hv) val_eps]
  simp [h1, hE]

theorem Sg.le_neg_eps (hE : P.eps = 2 * u F) {x : F} {a : ℚ} (h : Sg x a) :
    FloatOps.le x (neg eps) = FloatOps.le a (neg eps) := by
  obtain ⟨v, hv, _, _, _, h1⟩ := h
  rw [le_iff hv (val_neg val_eps)]
  simp [h1, hE]

/-- A rounded coordinate of the normalized vertices: a function `g` of the exact coordinate. -/
structure Cd (g : ℚ → ℚ) (x : F) (i : ℚ) : Prop where
  val : val x = some (g i)
  nonneg : 0 ≤ i
  le : i ≤ 1
  near : |g i - i| ≤ 4 * u F

/-- The rounding function of the coordinates. -/
structure Grid (F : Type) [FloatOps F] [Rounded F] (g : ℚ → ℚ) : Prop where
  rnd : ∀ i, Rounded.rnd F (g i) = g i

variable {g : ℚ → ℚ}

theorem Cd.ap {x : F} {i : ℚ} (h : Cd g x i) : Ap x i (4 * u F) := ⟨_, h.val, h.near⟩

theorem Cd.df {x y : F} {i j : ℚ} (hx : Cd g x i) (hy : Cd g y j) : Df (FloatOps.sub x y) (i - j) := by
  have hu := u_pos (F := F)
  have h2 := u_sq (F := F)
  have hl := u_le (F := F)
  have hb := big_ge (F := F)
  have hM : |i - j| ≤ 1 := by
    rw [abs_le]; constructor <;> linarith [hx.nonneg, hx.le, hy.nonneg, hy.le]
  refine ⟨(hx.ap.sub hy.ap hM ?_).mono ?_, hM, ?_⟩
  · nlinarith
  · nlinarith
  · intro h
    have : i = j := by linarith
    subst this
    rw [val_sub hx.val hy.val (by simp; linarith), sub_self, rnd_zero]

/-- A rounded vertex. -/
def Cv (g : ℚ → ℚ) (a : Vtx F) (a' : Vtx ℚ) : Prop := Cd g a.x a'.x ∧ Cd g a.y a'.y

/-- A triple with two equal points. -/
theorem side_same {a b p : Vtx F} {a' b' : Vtx ℚ} (ha : Cv g a a') (hb : Cv g b b') (hp : Cv g p b') :
    Sg (edgeSide (a, b) p) (edgeSide (a', b') b') := by
  have hbig := big_ge (F := F)
  have hu := u_pos (F := F)
  have h2 := u_sq (F := F)
  have hl := u_le (F := F)
  have ht := tiny_le (F := F)
  have sub : ∀ {x y z : F} {i j : ℚ}, Cd g x i → Cd g y i → Cd g z j → ∃ v, val (FloatOps.sub x z) = some v ∧
      val (FloatOps.sub y z) = some v ∧ |v| ≤ 2 := by
    intro x y z i j hx hy hz
    have hd := hx.df hz
    obtain ⟨v, hv, h1⟩ := hd.ap
    refine ⟨v, hv, ?_, ?_⟩
    · have h3 : |g i - g j| ≤ big (F := F) := by
        have := hx.near; have := hz.near; have := hd.le
        have e := abs_add_le (g i - i - (g j - j)) (i - j)
        have e' := abs_sub (g i - i) (g j - j)
        rw [show g i - i - (g j - j) + (i - j) = g i - g j by ring] at e
        linarith
      rw [val_sub hy.val hz.val h3, ← hv, val_sub hx.val hz.val h3]
    · have := abs_le_of_near h1 hd.le
      linarith
  obtain ⟨v, v1, v2, v3⟩ := sub hp.2 hb.2 ha.2
  obtain ⟨w, w1, w2, w3⟩ := sub hb.1 hp.1 ha.1
  have hm : |v * w| ≤ 4 := by
    rw [abs_mul]; nlinarith [abs_nonneg v, abs_nonneg w]
  have hm' : |w * v| ≤ 4 := by rwa [mul_comm]
  simp only [edgeSide, exact_sub, exact_mul]
  refine sg_zero ?_ (by ring)
  rw [val_sub (val_mul v1 w1 (by linarith)) (val_mul w2 v2 (by linarith)) (by rw [mul_comm v w, sub_self]; simp; linarith),
    mul_comm v w, sub_self, rnd_zero]

/-- The side test, for a triple with a large or structurally zero determinant. -/
theorem side_sg (hg : Grid F g) {a b p : Vtx F} {a' b' p' : Vtx ℚ} (ha : Cv g a a') (hb : Cv g b b') (hp : Cv g p p')
    (h : b' = p' ∨ ((p'.y - a'.y) * (b'.x - a'.x) = 0 ∧ (p'.x - a'.x) * (b'.y - a'.y) = 0) ∨
      50 * u F ≤ |(p'.y - a'.y) * (b'.x - a'.x) - (p'.x - a'.x) * (b'.y - a'.y)|) :
    Sg (edgeSide (a, b) p) (edgeSide (a', b') p') := by
  have hd := Df.det (hp.2.df ha.2) (hb.1.df ha.1) (hp.1.df ha.1) (hb.2.df ha.2)
  simp only [edgeSide, exact_sub, exact_mul]
  rcases h with rfl | ⟨h1, h2⟩ | h
  · exact side_same ha hb hp
  · exact sg_zero (hd.2 h1 h2) (by rw [h1, h2, sub_zero])
  · exact hd.1.sg (by linarith)

theorem close_eq (hE : P.eps = 2 * u F) (hg : Grid F g) {a b : Vtx F} {a' b' : Vtx ℚ} (ha : Cv g a a') (hb : Cv g b b')
    (hx : a'.x - b'.x = 0 ∨ 12 * u F ≤ |a'.x - b'.x|) (hy : a'.y - b'.y = 0 ∨ 12 * u F ≤ |a'.y - b'.y|) :
    tooClose a b = tooClose a' b' := by
  have key : ∀ {x y : F} {i j : ℚ}, Cd g x i → Cd g y j → (i - j = 0 ∨ 12 * u F ≤ |i - j|) →
      FloatOps.lt (FloatOps.abs (FloatOps.sub x y)) eps = FloatOps.lt (FloatOps.abs (FloatOps.sub i j)) eps := by
    intro x y i j hx hy h
    have hs : Sg (FloatOps.sub x y) (i - j) := by
      rcases h with h | h
      · exact sg_zero ((hx.df hy).zero h) h
      · exact (hx.df hy).ap.sg (by linarith)
    exact hs.nearEdge hE
  unfold tooClose
  rw [key ha.1 hb.1 hx, key ha.2 hb.2 hy]

/-! ### Semi-infinite edges -/

/-- A coordinate moved by the extrapolation distance `s = ±1.42`. -/
theorem moved_ap (hg : Grid F g) {x dx : F} {i s : ℚ} (hx : Cd g x i) (hd : Ap dx s (2 * u F)) (hs : |s| ≤ 142 / 100) :
    Ap (FloatOps.sub (FloatOps.add x dx) x) s (15 * u F) := by
  have hu := u_pos (F := F)
  have h2 := u_sq (F := F)
  have h3 := u_cu (F := F)
  have hl := u_le (F := F)
  have hb := big_ge (F := F)
  have h1 : |i + s| ≤ 242 / 100 := by
    have := abs_add_le i s
    rw [abs_of_nonneg hx.nonneg] at this
    linarith [hx.le]
  have e1 := hx.ap.add hd h1 (by nlinarith)
  have e2 : Ap (FloatOps.add x dx) (i + s) (17 / 2 * u F) := e1.mono (by nlinarith)
  have e3 := e2.sub hx.ap (M := 142 / 100) (by rw [add_sub_cancel_left]; exact hs) (by nlinarith)
  rw [add_sub_cancel_left] at e3
  exact e3.mono (by nlinarith)

theorem moved_zero (hg : Grid F g) {x z : F} {i : ℚ} (hx : Cd g x i) (hz : val z = some 0) :
    val (FloatOps.sub (FloatOps.add x z) x) = some 0 := by
  have hb := big_ge (F := F)
  have hl := u_le (F := F)
  have h1 : |g i| ≤ big (F := F) := by
    have := abs_le_of_near hx.near (A := 1) (by rw [abs_of_nonneg hx.nonneg]; exact hx.le)
    linarith
  have h2 : val (FloatOps.add x z) = some (g i) := by
    rw [val_add hx.val hz (by rw [add_zero]; exact h1), add_zero, hg.rnd]
  rw [val_sub h2 hx.val (by simp; linarith), sub_self, rnd_zero]

/-- The side test for a horizontal half-line. -/
theorem semi_x (hg : Grid F g) {a p : Vtx F} {a' p' : Vtx ℚ} (ha : Cv g a a') (hp : Cv g p p') {dx dy : F} {s : ℚ}
    (hd : Ap dx s (2 * u F)) (hs : |s| = 142 / 100) (hz : val dy = some 0)
    (h : p'.y - a'.y = 0 ∨ 32 * u F ≤ |p'.y - a'.y|) :
    Sg (edgeSide (a, ⟨FloatOps.add a.x dx, FloatOps.add a.y dy⟩) p) ((p'.y - a'.y) * s) := by
  have hu := u_pos (F := F)
  have h2 := u_sq (F := F)
  have h3 := u_cu (F := F)
  have hl := u_le (F := F)
  have hb := big_ge (F := F)
  have ht := tiny_le (F := F)
  have d1 := hp.2.df ha.2
  have d2 := hp.1.df ha.1
  have m1 := moved_ap hg ha.1 hd hs.le
  have m2 := moved_zero hg ha.2 hz
  obtain ⟨w, hw, _⟩ := d2.ap
  have z2 := mul_zero' hw m2
  simp only [edgeSide]
  rcases h with h | h
  · obtain ⟨w1, hw1, _⟩ := m1
    have z1 := zero_mul' (d1.zero h) hw1
    refine sg_zero ?_ (by rw [h, zero_mul])
    rw [val_sub z1 z2 (by simp; linarith), sub_zero, rnd_zero]
  · have p1 := (d1.ap.mul m1 d1.le hs.le (by nlinarith)).mono (e' := 32 * u F) (by nlinarith)
    have hM : |(p'.y - a'.y) * s - 0| ≤ 142 / 100 := by
      rw [sub_zero, abs_mul, hs]
      nlinarith [d1.le]
    have p2 := p1.sub ⟨0, z2, by simp⟩ (e2 := 0) (b := 0) hM (by nlinarith)
    rw [sub_zero] at p2
    refine (p2.mono (e' := 34 * u F) (by nlinarith)).sg ?_
    rw [abs_mul, hs]
    nlinarith

/-- The side test for a vertical half-line. -/
theorem semi_y (hg : Grid F g) {a p : Vtx F} {a' p' : Vtx ℚ} (ha : Cv g a a') (hp : Cv g p p') {dx dy : F} {s : ℚ}
    (hd : Ap dy s (2 * u F)) (hs : |s| = 142 / 100) (hz : val dx = some 0)
    (h : p'.x - a'.x = 0 ∨ 32 * u F ≤ |p'.x - a'.x|) :
    Sg (edgeSide (a, ⟨FloatOps.add a.x dx, FloatOps.add a.y dy⟩) p) (-((p'.x - a'.x) * s)) := by
  have hu := u_pos (F := F)
  have h2 := u_sq (F := F)
  have h3 := u_cu (F := F)
  have hl := u_le (F := F)
  have hb := big_ge (F := F)
  have ht := tiny_le (F := F)
  have d1 := hp.2.df ha.2
  have d2 := hp.1.df ha.1
  have m1 := moved_ap hg ha.2 hd hs.le
  have m2 := moved_zero hg ha.1 hz
  obtain ⟨w, hw, _⟩ := d1.ap
  have z2 := mul_zero' hw m2
  simp only [edgeSide]
  rcases h with h | h
  · obtain ⟨w1, hw1, _⟩ := m1
    have z1 := zero_mul' (d2.zero h) hw1
    refine sg_zero ?_ (by rw [h, zero_mul, neg_zero])
    rw [val_sub z2 z1 (by simp; linarith), sub_zero, rnd_zero]
  · have p1 := (d2.ap.mul m1 d2.le hs.le (by nlinarith)).mono (e' := 32 * u F) (by nlinarith)
    have hM : |0 - (p'.x - a'.x) * s| ≤ 142 / 100 := by
      rw [zero_sub, abs_neg, abs_mul, hs]
      nlinarith [d2.le]
    have p2 := Ap.sub ⟨0, z2, by simp⟩ p1 (e1 := 0) (a := 0) hM (by nlinarith)
    rw [zero_sub] at p2
    refine (p2.mono (e' := 34 * u F) (by nlinarith)).sg ?_
    rw [abs_neg, abs_mul, hs]
    nlinarith

theorem semi_sg (hg : Grid F g) {a p : Vtx F} {a' p' : Vtx ℚ} (ha : Cv g a a') (hp : Cv g p p') (k : Fin 4)
    (hx : p'.x - a'.x = 0 ∨ 32 * u F ≤ |p'.x - a'.x|) (hy : p'.y - a'.y = 0 ∨ 32 * u F ≤ |p'.y - a'.y|) :
    Sg (edgeSide (semiInf a k) p) (edgeSide (semiInf a' k) p') := by
  obtain ⟨d, hd, hd'⟩ := val_delta (F := F)
  have dp : Ap (delta : F) (142 / 100) (2 * u F) := ⟨d, hd, hd'⟩
  have dn : Ap (neg delta : F) (-(142 / 100)) (2 * u F) := by
    refine ⟨-d, val_neg hd, ?_⟩
    rw [show -d - -(142 / 100) = -(d - 142 / 100) by ring, abs_neg]; exact hd'
  have ap : |(142 / 100 : ℚ)| = 142 / 100 := by norm_num
  have an : |(-(142 / 100) : ℚ)| = 142 / 100 := by norm_num
  match k with
  | 0 =>
    have e : edgeSide (semiInf a' 0) p' = (p'.y - a'.y) * -(142 / 100) := by
      simp [edgeSide, semiInf, xDelta, yDelta]
    rw [e]; exact semi_x hg ha hp dn an val_zero hy
  | 1 =>
    have e : edgeSide (semiInf a' 1) p' = -((p'.x - a'.x) * (142 / 100)) := by
      simp [edgeSide, semiInf, xDelta, yDelta]
    rw [e]; exact semi_y hg ha hp dp ap val_zero hx
  | 2 =>
    have e : edgeSide (semiInf a' 2) p' = (p'.y - a'.y) * (142 / 100) := by
      simp [edgeSide, semiInf, xDelta, yDelta]
    rw [e]; exact semi_x hg ha hp dp ap val_zero hy
  | 3 =>
    have e : edgeSide (semiInf a' 3) p' = -((p'.x - a'.x) * -(142 / 100)) := by
      simp [edgeSide, semiInf, xDelta, yDelta]
    rw [e]; exact semi_y hg ha hp dn an val_zero hx

/-! ### The circumcircle test -/

theorem circ_eq [IdCfg] (hg : Grid F g) {a b c p : Vtx F} {a' b' c' p' : Vtx ℚ} (ha : Cv g a a') (hb : Cv g b b')
    (hc : Cv g c c') (hp : Cv g p p') (h1 : 0 < HP.o (HP.ofVtx b') (HP.ofVtx a') (HP.ofVtx c'))
    (h2 : 0 < HP.o (HP.ofVtx p') (HP.ofVtx a') (HP.ofVtx b')) (h : 512 * u F ≤ |crS a' b' c' p'|) :
    inCircumcircle a b c p = inCircumcircle a' b' c' p' := by
  have hu := u_pos (F := F)
  have hq := u_sq (F := F)
  have hcu := u_cu (F := F)
  have hl := u_le (F := F)
  have hbg := big_ge (F := F)
  have ht := tiny_le (F := F)
  have x13 := ha.1.df hc.1
  have x23 := hb.1.df hc.1
  have y13 := ha.2.df hc.2
  have y23 := hb.2.df hc.2
  have x14 := ha.1.df hp.1
  have x24 := hb.1.df hp.1
  have y14 := ha.2.df hp.2
  have y24 := hb.2.df hp.2
  have cA := x13.dot x23 y13 y23
  have cB := x24.dot x14 y24 y14
  have sA := (x13.det y23 x23 y13).1
  have sB := (x24.det y14 x14 y24).1
  have two : ∀ {a b c d : ℚ}, |a| ≤ 1 → |b| ≤ 1 → |c| ≤ 1 → |d| ≤ 1 → |a * b + c * d| ≤ 2 ∧ |a * b - c * d| ≤ 2 := by
    intro a b c d ha hb hc hd
    have e1 := abs_add_le (a * b) (c * d)
    have e2 := abs_sub (a * b) (c * d)
    have e3 := abs_mul_le_one ha hb
    have e4 := abs_mul_le_one hc hd
    exact ⟨by linarith, by linarith⟩
  have bcA := (two x13.le x23.le y13.le y23.le).1
  have bcB := (two x24.le x14.le y24.le y14.le).1
  have bsA := (two x13.le y23.le x23.le y13.le).2
  have bsB := (two x24.le y14.le x14.le y24.le).2
  have s1 : 0 < (a'.x - c'.x) * (b'.y - c'.y) - (b'.x - c'.x) * (a'.y - c'.y) := by
    have : HP.o (HP.ofVtx b') (HP.ofVtx a') (HP.ofVtx c') =
        (a'.x - c'.x) * (b'.y - c'.y) - (b'.x - c'.x) * (a'.y - c'.y) := by simp only [HP.o, HP.ofVtx]; ring
    rwa [this] at h1
  have s2 : 0 < (b'.x - p'.x) * (a'.y - p'.y) - (a'.x - p'.x) * (b'.y - p'.y) := by
    have : HP.o (HP.ofVtx p') (HP.ofVtx a') (HP.ofVtx b') =
        (b'.x - p'.x) * (a'.y - p'.y) - (a'.x - p'.x) * (b'.y - p'.y) := by simp only [HP.o, HP.ofVtx]; ring
    rwa [this] at h2
  rw [Bool.eq_iff_iff, inCircumcircle_iff h1 h2]
  unfold inCircumcircle
  simp only
  unfold crS at h ⊢
  generalize (a'.x - c'.x) * (b'.y - c'.y) - (b'.x - c'.x) * (a'.y - c'.y) = rA at *
  generalize (b'.x - p'.x) * (a'.y - p'.y) - (a'.x - p'.x) * (b'.y - p'.y) = rB at *
  generalize (a'.x - c'.x) * (b'.x - c'.x) + (a'.y - c'.y) * (b'.y - c'.y) = qA at *
  generalize (b'.x - p'.x) * (a'.x - p'.x) + (b'.y - p'.y) * (a'.y - p'.y) = qB at *
  generalize FloatOps.add (FloatOps.mul (FloatOps.sub a.x c.x) (FloatOps.sub b.x c.x))
    (FloatOps.mul (FloatOps.sub a.y c.y) (FloatOps.sub b.y c.y)) = fA at *
  generalize FloatOps.add (FloatOps.mul (FloatOps.sub b.x p.x) (FloatOps.sub a.x p.x))
    (FloatOps.mul (FloatOps.sub b.y p.y) (FloatOps.sub a.y p.y)) = fB at *
  generalize FloatOps.sub (FloatOps.mul (FloatOps.sub a.x c.x) (FloatOps.sub b.y c.y))
    (FloatOps.mul (FloatOps.sub b.x c.x) (FloatOps.sub a.y c.y)) = gA at *
  generalize FloatOps.sub (FloatOps.mul (FloatOps.sub b.x p.x) (FloatOps.sub a.y p.y))
    (FloatOps.mul (FloatOps.sub a.x p.x) (FloatOps.sub b.y p.y)) = gB at *
  have m1 := (sA.mul cB bsA bcB (by nlinarith)).mono (e' := 200 * u F) (by nlinarith)
  have m2 := (sB.mul cA bsB bcA (by nlinarith)).mono (e' := 200 * u F) (by nlinarith)
  have hM : |rA * qB + rB * qA| ≤ 8 := by
    have e1 := abs_add_le (rA * qB) (rB * qA)
    have e2 : |rA * qB| ≤ 2 * 2 := by rw [abs_mul]; exact mul_le_mul bsA bcB (abs_nonneg _) (by norm_num)
    have e3 : |rB * qA| ≤ 2 * 2 := by rw [abs_mul]; exact mul_le_mul bsB bcA (abs_nonneg _) (by norm_num)
    linarith
  have m3 := ((m1.add m2 hM (by nlinarith)).mono (e' := 412 * u F) (by nlinarith)).sg (by linarith)
  obtain ⟨vA, hvA, eA⟩ := cA
  obtain ⟨vB, hvB, eB⟩ := cB
  obtain ⟨v, hv, _, hneg, _⟩ := m3
  rw [le_iff val_zero hvA, le_iff val_zero hvB, lt_iff hvA val_zero, lt_iff hvB val_zero, lt_iff hv val_zero]
  rw [abs_le] at eA eB bsA bsB
  by_cases kA : 0 ≤ vA <;> by_cases kB : 0 ≤ vB
  · have t1 : -(96 * u F) ≤ rA * qB := by nlinarith
    have t2 : -(96 * u F) ≤ rB * qA := by nlinarith
    have : ¬ rA * qB + rB * qA < 0 := by
      intro hlt
      rw [abs_of_neg hlt] at h
      linarith
    simp [kA, kB, this]
  · simp [kA, kB, not_le.1 kB, not_lt.2 kA, hneg]
  · simp [kA, kB, not_le.1 kA, not_lt.2 kB, hneg]
  · have t1 : rA * qB ≤ 96 * u F := by nlinarith
    have t2 : rB * qA ≤ 96 * u F := by nlinarith
    have : rA * qB + rB * qA < 0 := by
      by_contra hlt
      rw [abs_of_nonneg (not_lt.1 hlt)] at h
      linarith
    simp [kA, kB, not_le.1 kA, not_le.1 kB, this]

end
end Rounded
end CDT

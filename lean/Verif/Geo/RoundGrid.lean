import Verif.Geo.RoundErr

/-!
# Predicates on a grid

Coordinates that are multiples of `2^-k`, where numbers of `4k+3` binary digits are not rounded: the predicates are evaluated
without any error.
-/

set_option linter.unusedSectionVars false
set_option linter.unusedVariables false

namespace CDT
open FloatOps

namespace Rounded

variable {F : Type} [FloatOps F] [Rounded F]

/-- `x` has the value `a`, a multiple of `2^-e` of size at most `B`. -/
structure Ez (x : F) (a : ℚ) (e : ℕ) (B : ℚ) : Prop where
  val : val x = some a
  int : ∃ z : ℤ, a * 2 ^ e = z
  le : |a| ≤ B

theorem rnd_exact {a B : ℚ} {e : ℕ} (h : ∃ z : ℤ, a * 2 ^ e = z) (hB : |a| ≤ B) (h1 : 1 ≤ B) (hu : B * 2 ^ e * u F ≤ 1) :
    rnd F a = a := by
  obtain ⟨z, hz⟩ := h
  have hp : (0 : ℚ) < 2 ^ e := by positivity
  have hup := u_pos (F := F)
  have ha : a = (z : ℚ) * 2 ^ (-(e : ℤ)) := by
    rw [← hz, zpow_neg, zpow_natCast]; field_simp
  rw [ha]
  refine rnd_dyadic z _ ?_ ?_
  · rw [← hz, abs_mul, abs_of_pos hp]
    refine le_trans ?_ hu
    gcongr
  · have h2 : u F ≤ 1 / 2 ^ e := by
      rw [le_div_iff₀ hp]
      have : 1 * (2 ^ e * u F) ≤ B * (2 ^ e * u F) := mul_le_mul_of_nonneg_right h1 (by positivity)
      nlinarith
    rw [zpow_neg, zpow_natCast, inv_eq_one_div]
    have := tiny_le (F := F)
    linarith

theorem Ez.sub {x y : F} {a b : ℚ} {e : ℕ} {A B : ℚ} (hx : Ez x a e A) (hy : Ez y b e B) (hA : 1 ≤ A + B) (hl : A + B ≤ 100)
    (hu : (A + B) * 2 ^ e * u F ≤ 1) : Ez (FloatOps.sub x y) (a - b) e (A + B) := by
  obtain ⟨z, hz⟩ := hx.int
  obtain ⟨w, hw⟩ := hy.int
  have h1 : ∃ z : ℤ, (a - b) * 2 ^ e = z := ⟨z - w, by push_cast; rw [sub_mul, hz, hw]⟩
  have h2 : |a - b| ≤ A + B := (abs_sub _ _).trans (add_le_add hx.le hy.le)
  refine ⟨?_, h1, h2⟩
  rw [val_sub hx.val hy.val (by have := big_ge (F := F); linarith), rnd_exact h1 h2 hA hu]

theorem Ez.add {x y : F} {a b : ℚ} {e : ℕ} {A B : ℚ} (hx : Ez x a e A) (hy : Ez y b e B) (hA : 1 ≤ A + B) (hl : A + B ≤ 100)
    (hu : (A + B) * 2 ^ e * u F ≤ 1) : Ez (FloatOps.add x y) (a + b) e (A + B) := by
  obtain ⟨z, hz⟩ := hx.int
  obtain ⟨w, hw⟩ := hy.int
  have h1 : ∃ z : ℤ, (a + b) * 2 ^ e = z := ⟨z + w, by push_cast; rw [add_mul, hz, hw]⟩
  have h2 : |a + b| ≤ A + B := (abs_add_le _ _).trans (add_le_add hx.le hy.le)
  refine ⟨?_, h1, h2⟩
  rw [val_add hx.val hy.val (by have := big_ge (F := F); linarith), rnd_exact h1 h2 hA hu]

theorem Ez.mul {x y : F} {a b : ℚ} {e d : ℕ} {A B : ℚ} (hx : Ez x a e A) (hy : Ez y b d B) (hA : 1 ≤ A * B) (hl : A * B ≤ 100)
    (hu : A * B * 2 ^ (e + d) * u F ≤ 1) : Ez (FloatOps.mul x y) (a * b) (e + d) (A * B) := by
  obtain ⟨z, hz⟩ := hx.int
  obtain ⟨w, hw⟩ := hy.int
  have h1 : ∃ z : ℤ, (a * b) * 2 ^ (e + d) = z := ⟨z * w, by push_cast; rw [← hz, ← hw, pow_add]; ring⟩
  have h2 : |a * b| ≤ A * B := by
    rw [abs_mul]; exact mul_le_mul hx.le hy.le (abs_nonneg _) ((abs_nonneg _).trans hx.le)
  refine ⟨?_, h1, h2⟩
  rw [val_mul hx.val hy.val (by have := big_ge (F := F); linarith), rnd_exact h1 h2 hA hu]

/-- The normalized vertices lie on a grid and are not rounded. -/
def NGrid (F : Type) [FloatOps F] [Rounded F] (g : ℚ → ℚ) (N : List (Vtx ℚ)) : Prop :=
  ∃ k : ℕ, 8 * 16 ^ k * u F ≤ 1 ∧ ∀ a ∈ N, ((∃ z : ℤ, a.x * 2 ^ k = z) ∧ g a.x = a.x) ∧ (∃ z : ℤ, a.y * 2 ^ k = z) ∧ g a.y = a.y

section
variable [P : ExactParams ℚ] {g : ℚ → ℚ} {k : ℕ}

theorem pow_bounds (hk : 8 * 16 ^ k * u F ≤ 1) : 2 * 2 ^ k * u F ≤ 1 ∧ 2 * 2 ^ (k + k) * u F ≤ 1 ∧
    8 * 2 ^ (k + k + (k + k)) * u F ≤ 1 := by
  have hu := u_pos (F := F)
  have h1 : (1 : ℚ) ≤ 2 ^ k := one_le_pow₀ (by norm_num)
  have e4 : (16 : ℚ) ^ k = 2 ^ k * 2 ^ k * (2 ^ k * 2 ^ k) := by
    rw [← mul_pow, ← mul_pow]; norm_num
  rw [e4] at hk
  simp only [pow_add]
  have h2 : (2 : ℚ) ^ k ≤ 2 ^ k * 2 ^ k := by nlinarith
  have h3 : (2 : ℚ) ^ k * 2 ^ k ≤ 2 ^ k * 2 ^ k * (2 ^ k * 2 ^ k) := by
    have : (1 : ℚ) ≤ 2 ^ k * 2 ^ k := by nlinarith
    nlinarith
  refine ⟨le_trans ?_ hk, le_trans ?_ hk, hk⟩
  · exact mul_le_mul_of_nonneg_right (by nlinarith) hu.le
  · exact mul_le_mul_of_nonneg_right (by nlinarith) hu.le

/-- Differences of coordinates on the grid. -/
theorem Cd.ez (hk : 8 * 16 ^ k * u F ≤ 1) {x y : F} {i j : ℚ} (hx : Cd g x i) (hy : Cd g y j)
    (zx : (∃ z : ℤ, i * 2 ^ k = z) ∧ g i = i) (zy : (∃ z : ℤ, j * 2 ^ k = z) ∧ g j = j) :
    Ez (FloatOps.sub x y) (i - j) k 1 := by
  obtain ⟨⟨z, hz⟩, gx⟩ := zx
  obtain ⟨⟨w, hw⟩, gy⟩ := zy
  have h1 : ∃ z : ℤ, (i - j) * 2 ^ k = z := ⟨z - w, by push_cast; rw [sub_mul, hz, hw]⟩
  have h2 : |i - j| ≤ 1 := by
    rw [abs_le]; constructor <;> linarith [hx.nonneg, hx.le, hy.nonneg, hy.le]
  have vx := hx.val
  have vy := hy.val
  rw [gx] at vx
  rw [gy] at vy
  have hp := (pow_bounds hk).1
  have hu := u_pos (F := F)
  have h3 : (0 : ℚ) < 2 ^ k * u F := by positivity
  refine ⟨?_, h1, h2⟩
  rw [val_sub vx vy (by have := big_ge (F := F); linarith), rnd_exact h1 h2 le_rfl (by linarith)]

/-- Determinants and scalar products of differences. -/
theorem Ez.det (hk : 8 * 16 ^ k * u F ≤ 1) {x y z w : F} {a b c d : ℚ} (hx : Ez x a k 1) (hy : Ez y b k 1) (hz : Ez z c k 1)
    (hw : Ez w d k 1) : Ez (FloatOps.sub (FloatOps.mul x y) (FloatOps.mul z w)) (a * b - c * d) (k + k) 2 := by
  obtain ⟨-, h2, -⟩ := pow_bounds hk
  have hu := u_pos (F := F)
  have h3 : (0 : ℚ) < 2 ^ (k + k) * u F := by positivity
  have p := hx.mul hy (by norm_num) (by norm_num) (by linarith)
  have q := hz.mul hw (by norm_num) (by norm_num) (by linarith)
  have := p.sub q (by norm_num) (by norm_num) (by linarith)
  norm_num at this
  exact this

theorem Ez.dot (hk : 8 * 16 ^ k * u F ≤ 1) {x y z w : F} {a b c d : ℚ} (hx : Ez x a k 1) (hy : Ez y b k 1) (hz : Ez z c k 1)
    (hw : Ez w d k 1) : Ez (FloatOps.add (FloatOps.mul x y) (FloatOps.mul z w)) (a * b + c * d) (k + k) 2 := by
  obtain ⟨-, h2, -⟩ := pow_bounds hk
  have hu := u_pos (F := F)
  have h3 : (0 : ℚ) < 2 ^ (k + k) * u F := by positivity
  have p := hx.mul hy (by norm_num) (by norm_num) (by linarith)
  have q := hz.mul hw (by norm_num) (by norm_num) (by linarith)
  have := p.add q (by norm_num) (by norm_num) (by linarith)
  norm_num at this
  exact this

theorem Ez.sg {x : F} {a : ℚ} {e : ℕ} {B : ℚ} (h : Ez x a e B) : Sg x a := ⟨a, h.val, Iff.rfl, Iff.rfl, Iff.rfl, Iff.rfl⟩

variable {N : List (Vtx ℚ)}

theorem NGrid.side (h : NGrid F g N) {a b p : Vtx F} {a' b' p' : Vtx ℚ} (ha : Cv g a a') (hb : Cv g b b') (hp : Cv g p p')
    (ma : a' ∈ N) (mb : b' ∈ N) (mp : p' ∈ N) : Sg (edgeSide (a, b) p) (edgeSide (a', b') p') := by
  obtain ⟨k, hk, h⟩ := h
  obtain ⟨ax, ay⟩ := h a' ma
  obtain ⟨bx, hby⟩ := h b' mb
  obtain ⟨px, py⟩ := h p' mp
  exact (Ez.det hk (hp.2.ez hk ha.2 py ay) (hb.1.ez hk ha.1 bx ax) (hp.1.ez hk ha.1 px ax) (hb.2.ez hk ha.2 hby ay)).sg

theorem NGrid.orient (h : NGrid F g N) {p q r : Vtx F} {p' q' r' : Vtx ℚ} (hp : Cv g p p') (hq : Cv g q q') (hr : Cv g r r')
    (mp : p' ∈ N) (mq : q' ∈ N) (mr : r' ∈ N) :
    Sg (FloatOps.sub (mul (FloatOps.sub q.y p.y) (FloatOps.sub r.x q.x)) (mul (FloatOps.sub q.x p.x) (FloatOps.sub r.y q.y)))
      ((q'.y - p'.y) * (r'.x - q'.x) - (q'.x - p'.x) * (r'.y - q'.y)) := by
  obtain ⟨k, hk, h⟩ := h
  obtain ⟨px, py⟩ := h p' mp
  obtain ⟨qx, qy⟩ := h q' mq
  obtain ⟨rx, ry⟩ := h r' mr
  exact (Ez.det hk (hq.2.ez hk hp.2 qy py) (hr.1.ez hk hq.1 rx qx) (hq.1.ez hk hp.1 qx px) (hr.2.ez hk hq.2 ry qy)).sg

theorem NGrid.circ (h : NGrid F g N) {a b c p : Vtx F} {a' b' c' p' : Vtx ℚ} (ha : Cv g a a') (hb : Cv g b b')
    (hc : Cv g c c') (hp : Cv g p p') (ma : a' ∈ N) (mb : b' ∈ N) (mc : c' ∈ N) (mp : p' ∈ N) :
    inCircumcircle a b c p = inCircumcircle a' b' c' p' := by
  obtain ⟨k, hk, h⟩ := h
  obtain ⟨ax, ay⟩ := h a' ma
  obtain ⟨bx, hby⟩ := h b' mb
  obtain ⟨cx, cy⟩ := h c' mc
  obtain ⟨px, py⟩ := h p' mp
  have x13 := ha.1.ez hk hc.1 ax cx
  have x23 := hb.1.ez hk hc.1 bx cx
  have y13 := ha.2.ez hk hc.2 ay cy
  have y23 := hb.2.ez hk hc.2 hby cy
  have x14 := ha.1.ez hk hp.1 ax px
  have x24 := hb.1.ez hk hp.1 bx px
  have y14 := ha.2.ez hk hp.2 ay py
  have y24 := hb.2.ez hk hp.2 hby py
  have cA := Ez.dot hk x13 x23 y13 y23
  have cB := Ez.dot hk x24 x14 y24 y14
  have sA := Ez.det hk x13 y23 x23 y13
  have sB := Ez.det hk x24 y14 x14 y24
  obtain ⟨-, -, h4⟩ := pow_bounds hk
  have h5 : (0 : ℚ) < 2 ^ (k + k + (k + k)) * u F := by have := u_pos (F := F); positivity
  have m1 := sA.mul cB (by norm_num) (by norm_num) (by linarith)
  have m2 := sB.mul cA (by norm_num) (by norm_num) (by linarith)
  have m := m1.add m2 (by norm_num) (by norm_num) (by linarith)
  unfold inCircumcircle
  simp only [le_iff val_zero cA.val, le_iff val_zero cB.val, lt_iff cA.val val_zero, lt_iff cB.val val_zero,
    lt_iff m.val val_zero, exact_le, exact_lt, exact_sub, exact_mul, exact_add, exact_zero]

/-- Different coordinates on the grid are not close, and small determinants are zero. -/
theorem NGrid.sep (h : NGrid F g N) : (∀ a ∈ N, ∀ b ∈ N, (a.x - b.x = 0 ∨ 32 * u F ≤ |a.x - b.x|) ∧
      (a.y - b.y = 0 ∨ 32 * u F ≤ |a.y - b.y|)) ∧
    ∀ a ∈ N, ∀ b ∈ N, ∀ c ∈ N, |(b.y - a.y) * (c.x - a.x) - (b.x - a.x) * (c.y - a.y)| < 2 * u F →
      (b.y - a.y) * (c.x - a.x) - (b.x - a.x) * (c.y - a.y) = 0 := by
  obtain ⟨k, hk, h⟩ := h
  have hu := u_pos (F := F)
  have big : ∀ {a : ℚ} {e : ℕ} {z : ℤ}, a * 2 ^ e = z → a = 0 ∨ 1 / 2 ^ e ≤ |a| := by
    intro a e z hz
    have hp : (0 : ℚ) < 2 ^ e := by positivity
    rcases eq_or_ne z 0 with rfl | h0
    · left; simpa using hz
    · right
      rw [div_le_iff₀ hp, ← abs_of_pos hp, ← abs_mul, hz]
      exact_mod_cast Int.one_le_abs h0
  have k1 : 32 * u F ≤ 1 / 2 ^ k := by
    rw [le_div_iff₀ (by positivity)]
    rcases Nat.eq_zero_or_pos k with rfl | h0
    · have := u_le (F := F); norm_num; linarith
    · have e : (16 : ℚ) ^ k = 8 ^ k * 2 ^ k := by rw [← mul_pow]; norm_num
      have e8 : (8 : ℚ) ≤ 8 ^ k := le_self_pow₀ (by norm_num) h0.ne'
      rw [e] at hk
      have : (0 : ℚ) < 2 ^ k * u F := by positivity
      nlinarith
  have k2 : 2 * u F ≤ 1 / 2 ^ (k + k) := by
    rw [le_div_iff₀ (by positivity)]
    have := (pow_bounds hk).2.1
    linarith
  have dz : ∀ {i j : ℚ}, (∃ z : ℤ, i * 2 ^ k = z) → (∃ z : ℤ, j * 2 ^ k = z) → ∃ z : ℤ, (i - j) * 2 ^ k = z := by
    rintro i j ⟨z, hz⟩ ⟨w, hw⟩
    exact ⟨z - w, by push_cast; rw [sub_mul, hz, hw]⟩
  refine ⟨fun a ha b hb => ⟨?_, ?_⟩, fun a ha b hb c hc hlt => ?_⟩
  · obtain ⟨z, hz⟩ := dz (h a ha).1.1 (h b hb).1.1
    exact (big hz).imp id k1.trans
  · obtain ⟨z, hz⟩ := dz (h a ha).2.1 (h b hb).2.1
    exact (big hz).imp id k1.trans
  · obtain ⟨z1, h1⟩ := dz (h b hb).2.1 (h a ha).2.1
    obtain ⟨z2, h2⟩ := dz (h c hc).1.1 (h a ha).1.1
    obtain ⟨z3, h3⟩ := dz (h b hb).1.1 (h a ha).1.1
    obtain ⟨z4, h4⟩ := dz (h c hc).2.1 (h a ha).2.1
    have : ((b.y - a.y) * (c.x - a.x) - (b.x - a.x) * (c.y - a.y)) * 2 ^ (k + k) = ((z1 * z2 - z3 * z4 : ℤ) : ℚ) := by
      push_cast
      rw [← h1, ← h2, ← h3, ← h4, pow_add]; ring
    rcases big this with h5 | h5
    · exact h5
    · linarith

end
end Rounded
end CDT

import Verif.Proofs.RelErr

/-!
# C70: error of the projection of planar 3d vertices, in IEEE arithmetic
-/

set_option linter.unusedSectionVars false

namespace CDT
open FloatOps

/-! ## Specification -/

namespace Spec

/-- The vertex over the reals. -/
noncomputable def toReal3 (v : Vtx3 ℚ) : Vtx3 ℝ := ⟨v.x, v.y, v.z⟩

/-- Sum of the absolute values of the coordinates. -/
def norm1 (v : Vtx3 ℚ) : ℚ := |v.x| + |v.y| + |v.z|

/-- `e` is the direction from the vertex `v1` to the vertex `v0`, and `σ` their distance. -/
structure Direction (v0 v1 : Vtx3 ℚ) (e : Vtx3 ℝ) (σ : ℝ) : Prop where
  pos : 0 < σ
  unit : dot3 e e = 1
  x : σ * e.x = v0.x - v1.x
  y : σ * e.y = v0.y - v1.y
  z : σ * e.z = v0.z - v1.z

/-- Vector product. -/
def cross {K : Type} [CommRing K] (a b : Vtx3 K) : Vtx3 K :=
  ⟨a.y * b.z - a.z * b.y, a.z * b.x - a.x * b.z, a.x * b.y - a.y * b.x⟩

/-- Coordinates for which no operation of the projection overflows or loses its relative precision: all are at most `B`, and
the distance `σ` of the first two vertices is not too small. -/
structure InRange (f : Fmt) (vs : List (Vtx3 ℚ)) (B : ℚ) (σ : ℝ) : Prop where
  one : 1 ≤ B
  coord : ∀ v ∈ vs, |v.x| ≤ B ∧ |v.y| ≤ B ∧ |v.z| ≤ B
  big : 64 * B ^ 2 ≤ Fl.big f
  low : 8 * f.tin ≤ f.ulp * σ ^ 2
  high : 8 * f.tin * σ ≤ f.ulp
  recip : 2 ≤ σ * (Fl.big f : ℚ)

end Spec

section
variable {f : Fmt} [Fl.Ok f]

theorem Ap.absorb {α β c τ : ℝ} {y : Fl f} {x : ℝ} (h : Ap f α c τ y x) (ht : τ ≤ β * f.ulp * c) : Ap f (α + β) c 0 y x := by
  obtain ⟨q, h1, h2, h3, h4⟩ := h
  exact ⟨q, h1, h2, h3, h4.trans (by linarith)⟩

theorem Ap.abs_le {α c τ : ℝ} {y : Fl f} {x : ℝ} (h : Ap f α c τ y x) : |x| ≤ c := by
  obtain ⟨q, h1, h2, h3, h4⟩ := h; exact h3

/-- Scalar product of three terms. -/
theorem Ap.add3 {α c1 c2 c3 τ1 τ2 τ3 : ℝ} {y1 y2 y3 : Fl f} {x1 x2 x3 : ℝ} (h0 : 0 ≤ α) (h20 : α ≤ 20)
    (h1 : Ap f α c1 τ1 y1 x1) (h2 : Ap f α c2 τ2 y2 x2) (h3 : Ap f α c3 τ3 y3 x3) (t1 : 0 ≤ τ1) (t2 : 0 ≤ τ2) (t3 : 0 ≤ τ3)
    (hb : 2 * (c1 + c2 + c3 + τ1 + τ2 + τ3) ≤ (Fl.big f : ℚ)) :
    Ap f (α + 2.01) (c1 + c2 + c3) (1.01 * (τ1 + τ2 + τ3)) (FloatOps.add (FloatOps.add y1 y2) y3) (x1 + x2 + x3) := by
  have hu := ulp_pos (f := f)
  have hu' := ulp_le (f := f)
  have c1' := (abs_nonneg _).trans h1.abs_le
  have c2' := (abs_nonneg _).trans h2.abs_le
  have c3' := (abs_nonneg _).trans h3.abs_le
  have au : α * f.ulp ≤ 20 / 131072 := by
    have : α * f.ulp ≤ 20 * (1 / 131072) := by gcongr
    linarith
  have au0 : 0 ≤ α * f.ulp := by positivity
  have A := h1.add h2 (by nlinarith)
  have A' := A.mono (α' := α + 1.001) (c' := c1 + c2) (τ' := 1.001 * (τ1 + τ2)) (by linarith) (by linarith) le_rfl
    (by nlinarith)
  have B := h3.mono (α' := α + 1.001) (c' := c3) (τ' := τ3) h0 (by linarith) le_rfl le_rfl
  have au1 : (α + 1.001) * f.ulp ≤ 22 / 131072 := by
    have : 1.001 * f.ulp ≤ 2 / 131072 := by linarith
    linarith
  have au10 : 0 ≤ (α + 1.001) * f.ulp := by positivity
  have C := A'.add B (by nlinarith)
  refine C.mono (by positivity) (by linarith) le_rfl ?_
  nlinarith

/-- Root and reciprocal, from the sum of squares. -/
theorem recip_err {s : Fl f} {σ : ℝ} (hσ : 0 < σ) (hs : Ap f 5.5 (σ ^ 2) 0 s (σ ^ 2)) (low : 8 * f.tin ≤ f.ulp * σ ^ 2)
    (high : 8 * f.tin * σ ≤ f.ulp) (hr : 2 ≤ σ * (Fl.big f : ℚ)) :
    Ap f 5.2 (1 / σ) 0 (FloatOps.div FloatOps.one (FloatOps.sqrt s)) (1 / σ) := by
  have hu := ulp_pos (f := f)
  have hu' := ulp_le (f := f)
  have ht := tin_pos (f := f)
  have ht' := tin_le (f := f)
  obtain ⟨q, rfl, hn, -, he⟩ := hs
  rw [add_zero, abs_sub_le_iff] at he
  obtain ⟨he1, he2⟩ := he
  have hσ2 : 0 < σ ^ 2 := by positivity
  have hq0 : (0 : ℝ) < q := by nlinarith
  obtain ⟨r, hr1, hrn, hr2⟩ := sqrt_err (f := f) (q := q) (by exact_mod_cast hq0) hn
  have u1 : √(q : ℝ) ≤ (1 + 2.8 * f.ulp) * σ := by
    rw [Real.sqrt_le_left (by positivity)]
    nlinarith
  have l1 : (1 - 2.8 * f.ulp) * σ ≤ √(q : ℝ) := by
    apply Real.le_sqrt_of_sq_le
    have : ((1 - 2.8 * f.ulp) * σ) ^ 2 = (1 - 5.6 * f.ulp + 7.84 * f.ulp * f.ulp) * σ ^ 2 := by ring
    rw [this]
    have h2 : f.ulp * f.ulp ≤ f.ulp * (1 / 131072) := by gcongr
    nlinarith
  have tσ : 8 * f.tin ≤ f.ulp * σ := by
    rcases le_total σ 1 with h | h
    · nlinarith
    · nlinarith
  have hrσ : |(r : ℝ) - σ| ≤ 4 * f.ulp * σ := by
    have h1 : |(r : ℝ) - σ| ≤ |(r : ℝ) - √(q : ℝ)| + |√(q : ℝ) - σ| := abs_sub_le _ _ _
    have h2 : |√(q : ℝ) - σ| ≤ 2.8 * f.ulp * σ := by rw [abs_sub_le_iff]; constructor <;> linarith
    have h3 : f.ulp * √(q : ℝ) ≤ 1.01 * (f.ulp * σ) := by
      have : f.ulp * √(q : ℝ) ≤ f.ulp * ((1 + 2.8 * f.ulp) * σ) := by gcongr
      have h4 : f.ulp * σ * f.ulp ≤ f.ulp * σ * (1 / 131072) := by gcongr
      nlinarith
    have : 0 < f.ulp * σ := by positivity
    linarith
  have hr0 : 0.999 * σ ≤ r := by
    rw [abs_sub_le_iff] at hrσ
    nlinarith [hrσ.2]
  have hrpos : (0 : ℝ) < r := by linarith
  have hrq : (0 : ℚ) < r := by exact_mod_cast hrpos
  have hinv : |1 / (r : ℝ) - 1 / σ| ≤ 4.01 * f.ulp * (1 / σ) := by
    have e : 1 / (r : ℝ) - 1 / σ = (σ - r) / (r * σ) := by field_simp
    rw [e, abs_div, abs_of_pos (by positivity : (0 : ℝ) < r * σ), div_le_iff₀ (by positivity), abs_sub_comm]
    have e2 : 4.01 * f.ulp * (1 / σ) * (r * σ) = 4.01 * f.ulp * r := by field_simp
    rw [e2]
    nlinarith
  have hle : 1 / (r : ℝ) ≤ 1.01 * (1 / σ) := by
    rw [abs_sub_le_iff] at hinv
    have : 0 < 1 / σ := by positivity
    nlinarith [hinv.1]
  have hbig : 1 / σ ≤ (Fl.big f : ℚ) / 2 := by
    rw [div_le_iff₀ hσ]; linarith
  have hbnd : |((1 / r : ℚ) : ℝ)| ≤ (Fl.big f : ℚ) := by
    push_cast
    rw [abs_of_pos (by positivity)]
    have : 0 < 1 / σ := by positivity
    linarith
  obtain ⟨z, hz, hzn, hze⟩ := mk_err (f := f) hbnd
  refine ⟨z, ?_, hzn, le_of_eq (abs_of_pos (by positivity)), ?_⟩
  · rw [hr1]
    show Fl.div (.fin 1 : Fl f) (.fin r) = _
    rw [Fl.div, if_neg hrq.ne']
    exact hz
  · push_cast at hze
    rw [abs_of_pos (by positivity : (0 : ℝ) < 1 / (r : ℝ))] at hze
    have h1 : |(z : ℝ) - 1 / σ| ≤ |(z : ℝ) - 1 / (r : ℝ)| + |1 / (r : ℝ) - 1 / σ| := abs_sub_le _ _ _
    have h2 : 8 * f.tin ≤ f.ulp * (1 / σ) := by
      rw [mul_one_div, le_div_iff₀ hσ]; exact high
    have h3 : f.ulp * (1 / (r : ℝ)) ≤ f.ulp * (1.01 * (1 / σ)) := by gcongr
    have : 0 < f.ulp * (1 / σ) := by positivity
    linarith

/-- The first basis vector. -/
theorem normalize_err {vs : List (Vtx3 ℚ)} {v0 v1 : Vtx3 ℚ} {e : Vtx3 ℝ} {σ : ℝ} {B : ℚ} (hd : Spec.Direction v0 v1 e σ)
    (hr : Spec.InRange f vs B σ) (m0 : v0 ∈ vs) (m1 : v1 ∈ vs) (n0 : v0.Number f) (n1 : v1.Number f) :
    Ap f 7.3 |e.x| f.tin (Vtx3.normalize (Vtx3.sub' (flVtx3 f v0) (flVtx3 f v1))).x e.x ∧
    Ap f 7.3 |e.y| f.tin (Vtx3.normalize (Vtx3.sub' (flVtx3 f v0) (flVtx3 f v1))).y e.y ∧
    Ap f 7.3 |e.z| f.tin (Vtx3.normalize (Vtx3.sub' (flVtx3 f v0) (flVtx3 f v1))).z e.z := by
  have hu := ulp_pos (f := f)
  have hu' := ulp_le (f := f)
  have ht := tin_pos (f := f)
  have ht' := tin_le (f := f)
  have hσ := hd.pos
  obtain ⟨b0x, b0y, b0z⟩ := hr.coord v0 m0
  obtain ⟨b1x, b1y, b1z⟩ := hr.coord v1 m1
  have hB : (1 : ℝ) ≤ B := by exact_mod_cast hr.one
  have hbig : 64 * (B : ℝ) ^ 2 ≤ (Fl.big f : ℚ) := by exact_mod_cast hr.big
  have hBB : (B : ℝ) ≤ (B : ℝ) ^ 2 := by nlinarith
  have key : ∀ a b : ℚ, |a| ≤ B → |b| ≤ B → f.Number a → f.Number b → ∀ w : ℝ, σ * w = a - b →
      |((a - b : ℚ) : ℝ)| ≤ 2 * B ∧ ((a - b : ℚ) : ℝ) = σ * w ∧
      Ap f 1 |((a - b : ℚ) : ℝ)| 0 (FloatOps.sub (.fin a : Fl f) (.fin b)) ((a - b : ℚ) : ℝ) := by
    intro a b ha hb na nb w hw
    have h : |((a - b : ℚ) : ℝ)| ≤ 2 * B := by
      have : |a - b| ≤ 2 * B := (abs_sub _ _).trans (by linarith)
      exact_mod_cast this
    exact ⟨h, by push_cast; linarith, Ap.sub_exact na nb (by linarith)⟩
  obtain ⟨kx, ex, Dx⟩ := key _ _ b0x b1x n0.1 n1.1 _ hd.x
  obtain ⟨ky, ey, Dy⟩ := key _ _ b0y b1y n0.2.1 n1.2.1 _ hd.y
  obtain ⟨kz, ez, Dz⟩ := key _ _ b0z b1z n0.2.2 n1.2.2 _ hd.z
  rw [ex] at Dx kx
  rw [ey] at Dy ky
  rw [ez] at Dz kz
  -- squares
  have sq : ∀ {w : ℝ} {y : Fl f}, |σ * w| ≤ 2 * B → Ap f 1 |σ * w| 0 y (σ * w) →
      Ap f 3.001 ((σ * w) ^ 2) f.tin (FloatOps.mul y y) ((σ * w) ^ 2) ∧ (σ * w) ^ 2 ≤ 4 * (B : ℝ) ^ 2 := by
    intro w y hw h
    have e2 : |σ * w| * |σ * w| = (σ * w) ^ 2 := by rw [abs_mul_abs_self]; ring
    have e3 : (σ * w) ^ 2 ≤ 4 * (B : ℝ) ^ 2 := by
      rw [← e2]
      calc |σ * w| * |σ * w| ≤ (2 * B) * (2 * B) := by gcongr
        _ = _ := by ring
    have h2 := h.mul h (by norm_num) (by
      rw [e2]
      have : (1 + 1 * f.ulp) * (1 + 1 * f.ulp) ≤ 2 := by nlinarith
      calc (1 + 1 * f.ulp) * (1 + 1 * f.ulp) * (σ * w) ^ 2 ≤ 2 * (4 * (B : ℝ) ^ 2) := by gcongr
        _ ≤ _ := by nlinarith)
    rw [e2, ← pow_two (σ * w)] at h2
    refine ⟨h2.mono (by positivity) ?_ le_rfl le_rfl, e3⟩
    nlinarith
  obtain ⟨Sx, sx⟩ := sq kx Dx
  obtain ⟨Sy, sy⟩ := sq ky Dy
  obtain ⟨Sz, sz⟩ := sq kz Dz
  have hsum : (σ * e.x) ^ 2 + (σ * e.y) ^ 2 + (σ * e.z) ^ 2 = σ ^ 2 := by
    have := hd.unit
    unfold Spec.dot3 at this
    calc _ = σ ^ 2 * (e.x * e.x + e.y * e.y + e.z * e.z) := by ring
      _ = _ := by rw [this, mul_one]
  have S := Ap.add3 (by norm_num) (by norm_num) Sx Sy Sz ht.le ht.le ht.le (by nlinarith)
  rw [hsum] at S
  have S' := (S.absorb (β := 0.48) (by nlinarith [hr.low])).mono (α' := 5.5) (by norm_num) (by norm_num) le_rfl le_rfl
  have R := recip_err hσ S' hr.low hr.high hr.recip
  have fin' : ∀ {w : ℝ} {y : Fl f}, |w| ≤ 1 → Ap f 1 |σ * w| 0 y (σ * w) →
      Ap f 7.3 |w| f.tin (FloatOps.mul y (FloatOps.div FloatOps.one (FloatOps.sqrt (Vtx3.dot (Vtx3.sub' (flVtx3 f v0) (flVtx3 f v1))
        (Vtx3.sub' (flVtx3 f v0) (flVtx3 f v1)))))) w := by
    intro w y hw h
    have e2 : |σ * w| * (1 / σ) = |w| := by rw [abs_mul, abs_of_pos hσ]; field_simp
    have h2 := h.mul R (by norm_num) (by
      rw [e2]
      have : (1 + 1 * f.ulp) * (1 + 5.2 * f.ulp) ≤ 2 := by nlinarith
      calc (1 + 1 * f.ulp) * (1 + 5.2 * f.ulp) * |w| ≤ 2 * 1 := by gcongr
        _ ≤ _ := by nlinarith)
    have e3 : σ * w * (1 / σ) = w := by field_simp
    rw [e2, e3] at h2
    exact h2.mono (by positivity) (by nlinarith) le_rfl le_rfl
  have he := hd.unit
  unfold Spec.dot3 at he
  exact ⟨fin' (abs_le_one_iff_mul_self_le_one.2 (by nlinarith [mul_self_nonneg e.y, mul_self_nonneg e.z])) Dx,
    fin' (abs_le_one_iff_mul_self_le_one.2 (by nlinarith [mul_self_nonneg e.x, mul_self_nonneg e.z])) Dy,
    fin' (abs_le_one_iff_mul_self_le_one.2 (by nlinarith [mul_self_nonneg e.y, mul_self_nonneg e.x])) Dz⟩

/-- A component of the vector product with a number vector. -/
theorem cross_err {w1 w2 τ : ℝ} {y1 y2 : Fl f} {a1 a2 : ℚ} (h1 : Ap f 7.3 |w1| f.tin y1 w1) (h2 : Ap f 7.3 |w2| f.tin y2 w2)
    (n1 : |(a1 : ℝ)| ≤ 2) (n2 : |(a2 : ℝ)| ≤ 2) (hw1 : |w1| ≤ 1) (hw2 : |w2| ≤ 1) (hb : (64 : ℝ) ≤ (Fl.big f : ℚ)) (hτ : τ = 6.1 * f.tin) :
    Ap f 9.4 (|(a1 : ℝ)| * |w1| + |(a2 : ℝ)| * |w2|) τ (FloatOps.sub (FloatOps.mul y1 (.fin a1)) (FloatOps.mul (.fin a2) y2))
      (a1 * w1 - a2 * w2) := by
  have hu := ulp_pos (f := f)
  have hu' := ulp_le (f := f)
  have ht := tin_pos (f := f)
  have ht' := tin_le (f := f)
  have pre : ∀ {w : ℝ} {a : ℚ}, |w| ≤ 1 → |(a : ℝ)| ≤ 2 → |(a : ℝ)| * ((1 + 7.3 * f.ulp) * |w| + f.tin) ≤ (Fl.big f : ℚ) ∧
      (1 + f.ulp) * (|(a : ℝ)| * f.tin) + f.tin ≤ 3.01 * f.tin ∧ |(a : ℝ)| * |w| ≤ 2 := by
    intro w a hw ha
    have k1 : (1 + 7.3 * f.ulp) * |w| ≤ (1 + 7.3 * f.ulp) * 1 := by gcongr
    have k2 : |(a : ℝ)| * ((1 + 7.3 * f.ulp) * |w| + f.tin) ≤ 2 * ((1 + 7.3 * f.ulp) * 1 + f.tin) := by gcongr
    have k3 : |(a : ℝ)| * f.tin ≤ 2 * f.tin := by gcongr
    have k4 : |(a : ℝ)| * |w| ≤ 2 * 1 := by gcongr
    refine ⟨by linarith, ?_, by linarith⟩
    nlinarith
  obtain ⟨p1, t1, c1⟩ := pre hw1 n1
  obtain ⟨p2, t2, c2⟩ := pre hw2 n2
  have m1 := (h1.mul_exact' (a := a1) p1).mono (α' := 8.31) (by positivity) (by linarith) le_rfl t1
  have m2 := (h2.mul_exact (a := a2) p2).mono (α' := 8.31) (by positivity) (by linarith) le_rfl t2
  have := m1.sub m2 (by nlinarith)
  refine this.mono (by positivity) (by linarith) le_rfl ?_
  rw [hτ]
  nlinarith

/-- The scalar product of a vertex and a basis vector. -/
theorem dot_err {v : Vtx3 ℚ} {b : Vtx3 (Fl f)} {w c : Vtx3 ℝ} {α κ : ℝ} {B : ℚ} (h0 : 0 ≤ α) (hα : α ≤ 10)
    (hx : Ap f α c.x (κ * f.tin) b.x w.x) (hy : Ap f α c.y (κ * f.tin) b.y w.y) (hz : Ap f α c.z (κ * f.tin) b.z w.z)
    (k0 : 0 ≤ κ) (hκ : κ ≤ 7) (bx : |v.x| ≤ B) (by' : |v.y| ≤ B) (bz : |v.z| ≤ B) (c3 : c.x ≤ 2 ∧ c.y ≤ 2 ∧ c.z ≤ 2)
    (hB : 1 ≤ B) (hbig : 64 * B ^ 2 ≤ Fl.big f) :
    ∃ q : ℚ, (flVtx3 f v).dot b = .fin q ∧ f.Number q ∧
      |(q : ℝ) - (v.x * w.x + v.y * w.y + v.z * w.z)| ≤
        (α + 3.02) * f.ulp * (|(v.x : ℝ)| * c.x + |(v.y : ℝ)| * c.y + |(v.z : ℝ)| * c.z) + 1.02 * κ * f.tin * (Spec.norm1 v : ℚ) + 4 * f.tin := by
  have hu := ulp_pos (f := f)
  have hu' := ulp_le (f := f)
  have ht := tin_pos (f := f)
  have ht' := tin_le (f := f)
  have hB' : (1 : ℝ) ≤ B := by exact_mod_cast hB
  have hbig' : 64 * (B : ℝ) ^ 2 ≤ (Fl.big f : ℚ) := by exact_mod_cast hbig
  have hBB : (B : ℝ) ≤ (B : ℝ) ^ 2 := by nlinarith
  have au : α * f.ulp ≤ 10 / 131072 := by
    have : α * f.ulp ≤ 10 * (1 / 131072) := by gcongr
    linarith
  have au0 : 0 ≤ α * f.ulp := by positivity
  have kt : κ * f.tin ≤ 0.001 := by
    have : κ * f.tin ≤ 7 * f.tin := by gcongr
    linarith
  have kt0 : 0 ≤ κ * f.tin := by positivity
  have pre : ∀ {a : ℚ} {c w : ℝ} {y : Fl f}, |a| ≤ B → c ≤ 2 → Ap f α c (κ * f.tin) y w →
      Ap f (α + 1.001) (|(a : ℝ)| * c) (1.001 * (|(a : ℝ)| * (κ * f.tin)) + f.tin) (FloatOps.mul (.fin a) y) (a * w) ∧
      |(a : ℝ)| * c ≤ 2 * B ∧ |(a : ℝ)| * (κ * f.tin) ≤ 0.001 * B ∧ 0 ≤ |(a : ℝ)| * (κ * f.tin) := by
    intro a c w y ha hc h
    have ha' : |(a : ℝ)| ≤ B := by exact_mod_cast ha
    have c0 := (abs_nonneg _).trans h.abs_le
    have k1 : (1 + α * f.ulp) * c ≤ (1 + 10 / 131072) * 2 := by gcongr
    have k2 : |(a : ℝ)| * ((1 + α * f.ulp) * c + κ * f.tin) ≤ B * ((1 + 10 / 131072) * 2 + 0.001) := by gcongr
    have k3 : |(a : ℝ)| * c ≤ B * 2 := by gcongr
    have k4 : |(a : ℝ)| * (κ * f.tin) ≤ B * 0.001 := by gcongr
    have k5 : 0 ≤ |(a : ℝ)| * (κ * f.tin) := by positivity
    refine ⟨(h.mul_exact (a := a) (by linarith)).mono (by positivity) (by linarith) le_rfl ?_, by linarith, by linarith, k5⟩
    nlinarith
  obtain ⟨mx, cx, tx, px⟩ := pre bx c3.1 hx
  obtain ⟨my, cy, ty, py⟩ := pre by' c3.2.1 hy
  obtain ⟨mz, cz, tz, pz⟩ := pre bz c3.2.2 hz
  have := Ap.add3 (by linarith) (by linarith) mx my mz (by linarith) (by linarith) (by linarith) (by linarith)
  obtain ⟨q, hq, hn, -, he⟩ := this
  refine ⟨q, hq, hn, he.trans ?_⟩
  have cx0 := (abs_nonneg _).trans hx.abs_le
  have cy0 := (abs_nonneg _).trans hy.abs_le
  have cz0 := (abs_nonneg _).trans hz.abs_le
  have e : ((Spec.norm1 v : ℚ) : ℝ) = |(v.x : ℝ)| + |(v.y : ℝ)| + |(v.z : ℝ)| := by unfold Spec.norm1; push_cast; rfl
  rw [e]
  have hC : 0 ≤ f.ulp * (|(v.x : ℝ)| * c.x + |(v.y : ℝ)| * c.y + |(v.z : ℝ)| * c.z) := by positivity
  nlinarith

theorem abs_le_of_sq {a b c : ℝ} (h : a * a + b * b + c * c = 1) : |a| ≤ 1 ∧ |b| ≤ 1 ∧ |c| ≤ 1 :=
  ⟨abs_le_one_iff_mul_self_le_one.2 (by nlinarith [mul_self_nonneg b, mul_self_nonneg c]),
   abs_le_one_iff_mul_self_le_one.2 (by nlinarith [mul_self_nonneg a, mul_self_nonneg c]),
   abs_le_one_iff_mul_self_le_one.2 (by nlinarith [mul_self_nonneg b, mul_self_nonneg a])⟩

/-- Two components of a unit vector against two components of a unit vector. -/
theorem cauchy2 {a b c d : ℝ} (h1 : a * a + b * b ≤ 1) (h2 : c * c + d * d ≤ 1) : |a| * |c| + |b| * |d| ≤ 1 := by
  have e : ∀ x : ℝ, |x| * |x| = x * x := fun x => abs_mul_abs_self x
  nlinarith [mul_self_nonneg (|a| - |c|), mul_self_nonneg (|b| - |d|), e a, e b, e c, e d]

theorem sum2 {a b : ℝ} (h : a * a + b * b ≤ 1) : |a| + |b| ≤ 1.5 := by
  have e : ∀ x : ℝ, |x| * |x| = x * x := fun x => abs_mul_abs_self x
  nlinarith [mul_self_nonneg (|a| - |b|), e a, e b, abs_nonneg a, abs_nonneg b]

/-- A component of the second basis vector. -/
theorem basis2_err {w1 w2 N1 N2 η : ℝ} {y1 y2 : Fl f} {a1 a2 : ℚ} (h1 : Ap f 7.3 |w1| f.tin y1 w1) (h2 : Ap f 7.3 |w2| f.tin y2 w2)
    (n1 : |(a1 : ℝ) - N1| ≤ η) (n2 : |(a2 : ℝ) - N2| ≤ η) (hη : η ≤ 1 / 100) (hw : w1 * w1 + w2 * w2 ≤ 1) (hN : N1 * N1 + N2 * N2 ≤ 1)
    (hb : (64 : ℝ) ≤ (Fl.big f : ℚ)) :
    ∃ m : ℝ, Ap f 9.4 1.015 (6.1 * f.tin) (FloatOps.sub (FloatOps.mul y1 (.fin (-a1))) (FloatOps.mul (.fin (-a2)) y2)) m ∧
      |m - (N2 * w2 - N1 * w1)| ≤ 1.5 * η := by
  have η0 : 0 ≤ η := (abs_nonneg _).trans n1
  have nle : ∀ {a : ℚ} {w : ℝ}, |(a : ℝ) - w| ≤ η → |(a : ℝ)| ≤ |w| + η := by
    intro a w h
    have e : (a : ℝ) = (a - w) + w := by ring
    rw [e]; exact (abs_add_le _ _).trans (by linarith)
  have k1 := nle n1
  have k2 := nle n2
  have N1' : |N1| ≤ 1 := abs_le_one_iff_mul_self_le_one.2 (by nlinarith [mul_self_nonneg N2])
  have N2' : |N2| ≤ 1 := abs_le_one_iff_mul_self_le_one.2 (by nlinarith [mul_self_nonneg N1])
  have w1' : |w1| ≤ 1 := abs_le_one_iff_mul_self_le_one.2 (by nlinarith [mul_self_nonneg w2])
  have w2' : |w2| ≤ 1 := abs_le_one_iff_mul_self_le_one.2 (by nlinarith [mul_self_nonneg w1])
  have C := cross_err (a1 := -a1) (a2 := -a2) h1 h2 (by push_cast; rw [abs_neg]; linarith) (by push_cast; rw [abs_neg]; linarith)
    w1' w2' hb rfl
  push_cast at C
  rw [abs_neg, abs_neg] at C
  have g1 : |(a1 : ℝ)| * |w1| ≤ (|N1| + η) * |w1| := by gcongr
  have g2 : |(a2 : ℝ)| * |w2| ≤ (|N2| + η) * |w2| := by gcongr
  have g3 := cauchy2 hN hw
  have g4 := sum2 hw
  have g5 : η * (|w1| + |w2|) ≤ η * 1.5 := by gcongr
  refine ⟨_, C.mono (by norm_num) le_rfl (by linarith) le_rfl, ?_⟩
  have e : -(a1 : ℝ) * w1 - -(a2 : ℝ) * w2 - (N2 * w2 - N1 * w1) = (a2 - N2) * w2 - (a1 - N1) * w1 := by ring
  rw [e]
  refine (abs_sub _ _).trans ?_
  rw [abs_mul, abs_mul]
  have g6 : |(a2 : ℝ) - N2| * |w2| ≤ η * |w2| := by gcongr
  have g7 : |(a1 : ℝ) - N1| * |w1| ≤ η * |w1| := by gcongr
  linarith

/-- The coordinates of one vertex. -/
theorem coord_err {v : Vtx3 ℚ} {b : Vtx3 (Fl f)} {w m : Vtx3 ℝ} {α κ c β K : ℝ} {B : ℚ} (h0 : 0 ≤ α) (hα : α ≤ 10)
    (hx : Ap f α c (κ * f.tin) b.x m.x) (hy : Ap f α c (κ * f.tin) b.y m.y) (hz : Ap f α c (κ * f.tin) b.z m.z)
    (k0 : 0 ≤ κ) (hκ : κ ≤ 7) (hc : |v.x| ≤ B ∧ |v.y| ≤ B ∧ |v.z| ≤ B) (hc2 : c ≤ 2) (hB : 1 ≤ B) (hbig : 64 * B ^ 2 ≤ Fl.big f)
    (ex : |m.x - w.x| ≤ β) (ey : |m.y - w.y| ≤ β) (ez : |m.z - w.z| ≤ β) (hK : (α + 3.02) * c + 1.02 * κ / 256 ≤ K) :
    ∃ q : ℚ, (flVtx3 f v).dot b = .fin q ∧
      |(q : ℝ) - Spec.dot3 (Spec.toReal3 v) w| ≤ (K * f.ulp + β) * (Spec.norm1 v : ℚ) + 4 * f.tin := by
  have hu := ulp_pos (f := f)
  have ht := tin_pos (f := f)
  have ht' := tin_le (f := f)
  obtain ⟨q, hq, -, k⟩ := dot_err (v := v) (b := b) (w := m) (c := ⟨c, c, c⟩) h0 hα hx hy hz k0 hκ hc.1 hc.2.1 hc.2.2
    ⟨hc2, hc2, hc2⟩ hB hbig
  refine ⟨q, hq, ?_⟩
  have eA : ((Spec.norm1 v : ℚ) : ℝ) = |(v.x : ℝ)| + |(v.y : ℝ)| + |(v.z : ℝ)| := by unfold Spec.norm1; push_cast; rfl
  simp only at k
  have hA : 0 ≤ |(v.x : ℝ)| + |(v.y : ℝ)| + |(v.z : ℝ)| := by positivity
  have k1 : |((v.x : ℝ) * m.x + v.y * m.y + v.z * m.z) - Spec.dot3 (Spec.toReal3 v) w| ≤ β * (|(v.x : ℝ)| + |(v.y : ℝ)| + |(v.z : ℝ)|) := by
    have e : ((v.x : ℝ) * m.x + v.y * m.y + v.z * m.z) - Spec.dot3 (Spec.toReal3 v) w =
        v.x * (m.x - w.x) + v.y * (m.y - w.y) + v.z * (m.z - w.z) := by simp only [Spec.dot3, Spec.toReal3]; ring
    rw [e]
    refine (abs_add_three _ _ _).trans ?_
    rw [abs_mul, abs_mul, abs_mul]
    have g1 : |(v.x : ℝ)| * |m.x - w.x| ≤ |(v.x : ℝ)| * β := by gcongr
    have g2 : |(v.y : ℝ)| * |m.y - w.y| ≤ |(v.y : ℝ)| * β := by gcongr
    have g3 : |(v.z : ℝ)| * |m.z - w.z| ≤ |(v.z : ℝ)| * β := by gcongr
    linarith
  have k2 : 1.02 * κ * f.tin * (|(v.x : ℝ)| + |(v.y : ℝ)| + |(v.z : ℝ)|) ≤ 1.02 * κ * (f.ulp / 256) * (|(v.x : ℝ)| + |(v.y : ℝ)| + |(v.z : ℝ)|) := by
    gcongr
  have k3 : ((α + 3.02) * c + 1.02 * κ / 256) * (f.ulp * (|(v.x : ℝ)| + |(v.y : ℝ)| + |(v.z : ℝ)|)) ≤
      K * (f.ulp * (|(v.x : ℝ)| + |(v.y : ℝ)| + |(v.z : ℝ)|)) := by gcongr
  rw [eA] at k ⊢
  have k4 := abs_sub_le (q : ℝ) ((v.x : ℝ) * m.x + v.y * m.y + v.z * m.z) (Spec.dot3 (Spec.toReal3 v) w)
  refine k4.trans ?_
  linarith

theorem map_choice {A C D : Type} {g : A → C} {k : D → C} {P : A → D → Prop} : ∀ (l : List A), (∀ a ∈ l, ∃ d, g a = k d ∧ P a d) →
    ∃ m : List D, l.map g = m.map k ∧ m.length = l.length ∧ ∀ (i : Nat) (a : A) (d : D), l[i]? = some a → m[i]? = some d → P a d
  | [], _ => ⟨[], rfl, rfl, by simp⟩
  | a :: l, h => by
    obtain ⟨d, e1, p1⟩ := h a (by simp)
    obtain ⟨m, e2, e3, p2⟩ := map_choice l fun b hb => h b (List.mem_cons_of_mem _ hb)
    refine ⟨d :: m, by simp [e1, e2], by simp [e3], ?_⟩
    intro i a' d' ha hd
    cases i with
    | zero =>
      simp only [List.getElem?_cons_zero, Option.some.injEq] at ha hd
      subst ha; subst hd; exact p1
    | succ i => exact p2 i a' d' (by simpa using ha) (by simpa using hd)

/-- **C70**: in `f32` and `f64` the projected coordinates are the coordinates in the orthogonal frame of the direction of the
first two vertices and the normal, up to a few units in the last place of the coordinates of the vertex, and the error of the
given normal. -/
theorem C70_projection (vs : List (Vtx3 ℚ)) (n v0 v1 : Vtx3 ℚ) (N e : Vtx3 ℝ) (σ η : ℝ) (B : ℚ) (hv : ∀ v ∈ vs, v.Number f)
    (h0 : vs[0]? = some v0) (h1 : vs[1]? = some v1) (hd : Spec.Direction v0 v1 e σ) (hr : Spec.InRange f vs B σ)
    (hN : Spec.dot3 N N = 1) (hη : η ≤ 1 / 100)
    (hnN : |(n.x : ℝ) - N.x| ≤ η ∧ |(n.y : ℝ) - N.y| ≤ η ∧ |(n.z : ℝ) - N.z| ≤ η) :
    ∃ pv : List (Vtx ℚ), transformTo2d (vs.map (flVtx3 f)) (flVtx3 f n) = .ok (flVerts f pv) ∧ pv.length = vs.length ∧
      ∀ (i : Nat) (v : Vtx3 ℚ) (p : Vtx ℚ), vs[i]? = some v → pv[i]? = some p →
        |(p.x : ℝ) - Spec.dot3 (Spec.toReal3 v) e| ≤ 11 * f.ulp * (Spec.norm1 v : ℚ) + 4 * f.tin ∧
        |(p.y : ℝ) - Spec.dot3 (Spec.toReal3 v) (Spec.cross N e)| ≤ (13 * f.ulp + 1.5 * η) * (Spec.norm1 v : ℚ) + 4 * f.tin := by
  have m0 := List.mem_of_getElem? h0
  have m1 := List.mem_of_getElem? h1
  obtain ⟨Bx, By, Bz⟩ := normalize_err hd hr m0 m1 (hv _ m0) (hv _ m1)
  have he := hd.unit
  have hN' := hN
  unfold Spec.dot3 at he hN'
  obtain ⟨ex, ey, ez⟩ := abs_le_of_sq he
  obtain ⟨nx, ny, nz⟩ := hnN
  have hB : (1 : ℝ) ≤ B := by exact_mod_cast hr.one
  have hbig : 64 * (B : ℝ) ^ 2 ≤ (Fl.big f : ℚ) := by exact_mod_cast hr.big
  have hb64 : (64 : ℝ) ≤ (Fl.big f : ℚ) := by nlinarith
  obtain ⟨mx, Cx, dx⟩ := basis2_err (N1 := N.z) (N2 := N.y) By Bz nz ny hη (by nlinarith [mul_self_nonneg e.x]) (by nlinarith [mul_self_nonneg N.x]) hb64
  obtain ⟨my, Cy, dy⟩ := basis2_err (N1 := N.x) (N2 := N.z) Bz Bx nx nz hη (by nlinarith [mul_self_nonneg e.y]) (by nlinarith [mul_self_nonneg N.y]) hb64
  obtain ⟨mz, Cz, dz⟩ := basis2_err (N1 := N.y) (N2 := N.x) Bx By ny nx hη (by nlinarith [mul_self_nonneg e.z]) (by nlinarith [mul_self_nonneg N.z]) hb64
  have Bx' := Bx.mono (α' := 7.3) (c' := 1) (τ' := 1 * f.tin) (by norm_num) le_rfl ex (by rw [one_mul])
  have By' := By.mono (α' := 7.3) (c' := 1) (τ' := 1 * f.tin) (by norm_num) le_rfl ey (by rw [one_mul])
  have Bz' := Bz.mono (α' := 7.3) (c' := 1) (τ' := 1 * f.tin) (by norm_num) le_rfl ez (by rw [one_mul])
  clear Bx By Bz
  have hb2x : ∀ b : Vtx3 (Fl f), (b.cross (flVtx3 f n).neg').x = FloatOps.sub (FloatOps.mul b.y (.fin (-n.z))) (FloatOps.mul (.fin (-n.y)) b.z) := fun _ => rfl
  have hb2y : ∀ b : Vtx3 (Fl f), (b.cross (flVtx3 f n).neg').y = FloatOps.sub (FloatOps.mul b.z (.fin (-n.x))) (FloatOps.mul (.fin (-n.z)) b.x) := fun _ => rfl
  have hb2z : ∀ b : Vtx3 (Fl f), (b.cross (flVtx3 f n).neg').z = FloatOps.sub (FloatOps.mul b.x (.fin (-n.y))) (FloatOps.mul (.fin (-n.x)) b.y) := fun _ => rfl
  rw [← hb2x] at Cx
  rw [← hb2y] at Cy
  rw [← hb2z] at Cz
  have main : ∀ v ∈ vs, ∃ p : Vtx ℚ, (⟨(flVtx3 f v).dot (Vtx3.normalize (Vtx3.sub' (flVtx3 f v0) (flVtx3 f v1))),
        (flVtx3 f v).dot ((Vtx3.normalize (Vtx3.sub' (flVtx3 f v0) (flVtx3 f v1))).cross (flVtx3 f n).neg')⟩ : Vtx (Fl f)) = ⟨.fin p.x, .fin p.y⟩ ∧
      |(p.x : ℝ) - Spec.dot3 (Spec.toReal3 v) e| ≤ 11 * f.ulp * (Spec.norm1 v : ℚ) + 4 * f.tin ∧
      |(p.y : ℝ) - Spec.dot3 (Spec.toReal3 v) (Spec.cross N e)| ≤ (13 * f.ulp + 1.5 * η) * (Spec.norm1 v : ℚ) + 4 * f.tin := by
    generalize Vtx3.normalize (Vtx3.sub' (flVtx3 f v0) (flVtx3 f v1)) = b1 at *
    generalize b1.cross (flVtx3 f n).neg' = b2 at *
    intro v hvm
    have cv := hr.coord v hvm
    obtain ⟨x, hx, kx⟩ := coord_err (v := v) (b := b1) (w := e) (m := e) (α := 7.3) (κ := 1) (c := 1) (β := 0) (K := 11) (by norm_num) (by norm_num)
      Bx' By' Bz' (by norm_num) (by norm_num) cv (by norm_num) hr.one hr.big (by simp) (by simp) (by simp) (by norm_num)
    obtain ⟨y, hy, ky⟩ := coord_err (v := v) (b := b2) (w := Spec.cross N e) (m := ⟨mx, my, mz⟩) (α := 9.4) (κ := 6.1) (c := 1.015) (β := 1.5 * η)
      (K := 13) (by norm_num) (by norm_num) Cx Cy Cz (by norm_num) (by norm_num) cv (by norm_num) hr.one hr.big dx dy dz (by norm_num)
    rw [add_zero] at kx
    exact ⟨⟨x, y⟩, by rw [hx, hy], kx, ky⟩
  obtain ⟨pv, e1, e2, e3⟩ := map_choice (k := fun p : Vtx ℚ => (⟨.fin p.x, .fin p.y⟩ : Vtx (Fl f))) vs main
  refine ⟨pv, ?_, e2, e3⟩
  unfold transformTo2d
  rw [getI_of (by rw [List.getElem?_map, h0]; rfl : (vs.map (flVtx3 f))[0]? = some (flVtx3 f v0)), Res.ok_bind,
    getI_of (by rw [List.getElem?_map, h1]; rfl : (vs.map (flVtx3 f))[1]? = some (flVtx3 f v1)), Res.ok_bind]
  dsimp only
  rw [List.map_map]
  exact congrArg Res.ok e1

theorem sqrt_le_add (a b x y : ℝ) : √((a + x) ^ 2 + (b + y) ^ 2) ≤ √(a ^ 2 + b ^ 2) + (|x| + |y|) := by
  set R := √(a ^ 2 + b ^ 2) with hR
  have hR0 : 0 ≤ R := Real.sqrt_nonneg _
  have hRR : R ^ 2 = a ^ 2 + b ^ 2 := Real.sq_sqrt (by positivity)
  have ha : |a| ≤ R := Real.abs_le_sqrt (by nlinarith [sq_nonneg b])
  have hb : |b| ≤ R := Real.abs_le_sqrt (by nlinarith [sq_nonneg a])
  rw [Real.sqrt_le_left (by positivity)]
  have h1 : a * x ≤ R * |x| := (le_abs_self _).trans (by rw [abs_mul]; gcongr)
  have h2 : b * y ≤ R * |y| := (le_abs_self _).trans (by rw [abs_mul]; gcongr)
  have h3 : 0 ≤ |x| * |y| := by positivity
  nlinarith [sq_abs x, sq_abs y]

/-- Lengths in the plane change by at most the sum of the changes of the coordinates. -/
theorem abs_sqrt_sub (a b c d : ℝ) : |√(a ^ 2 + b ^ 2) - √(c ^ 2 + d ^ 2)| ≤ |a - c| + |b - d| := by
  have h1 := sqrt_le_add c d (a - c) (b - d)
  have h2 := sqrt_le_add a b (c - a) (d - b)
  rw [add_sub_cancel, add_sub_cancel] at h1 h2
  rw [abs_sub_comm c a, abs_sub_comm d b] at h2
  rw [abs_sub_le_iff]
  constructor <;> linarith

/-- **C70**: the distances of the projected vertices are the distances of the vertices, up to a few units in the last place of
the coordinates of the vertices, and the error of the given normal. -/
theorem C70_distances (vs : List (Vtx3 ℚ)) (n v0 v1 : Vtx3 ℚ) (N e : Vtx3 ℝ) (σ η : ℝ) (B : ℚ) (hv : ∀ v ∈ vs, v.Number f)
    (h0 : vs[0]? = some v0) (h1 : vs[1]? = some v1) (hd : Spec.Direction v0 v1 e σ) (hr : Spec.InRange f vs B σ)
    (hN : Spec.Coplanar N (vs.map Spec.toReal3)) (hη : η ≤ 1 / 100)
    (hnN : |(n.x : ℝ) - N.x| ≤ η ∧ |(n.y : ℝ) - N.y| ≤ η ∧ |(n.z : ℝ) - N.z| ≤ η) :
    ∃ pv : List (Vtx ℚ), transformTo2d (vs.map (flVtx3 f)) (flVtx3 f n) = .ok (flVerts f pv) ∧ pv.length = vs.length ∧
      ∀ (i j : Nat) (v w : Vtx3 ℚ) (p q : Vtx ℚ), vs[i]? = some v → vs[j]? = some w → pv[i]? = some p → pv[j]? = some q →
        |√((Plane.dist2 p q : ℚ) : ℝ) - √((Spec.dist3 v w : ℚ) : ℝ)| ≤
          (24 * f.ulp + 1.5 * η) * ((Spec.norm1 v : ℚ) + (Spec.norm1 w : ℚ)) + 16 * f.tin := by
  obtain ⟨pv, e1, e2, e3⟩ := C70_projection vs n v0 v1 N e σ η B hv h0 h1 hd hr hN.1 hη hnN
  refine ⟨pv, e1, e2, ?_⟩
  intro i j v w p q hi hj pi qj
  obtain ⟨a1, a2⟩ := e3 i v p hi pi
  obtain ⟨b1, b2⟩ := e3 j w q hj qj
  have mem : ∀ {i : Nat} {v : Vtx3 ℚ}, vs[i]? = some v → Spec.toReal3 v ∈ vs.map Spec.toReal3 := fun h =>
    List.mem_map_of_mem (List.mem_of_getElem? h)
  have heN : Spec.dot3 e N = 0 := by
    have := hN.2 _ (mem h0) _ (mem h1)
    have h2 : σ * Spec.dot3 e N = 0 := by
      calc σ * Spec.dot3 e N = (σ * e.x) * N.x + (σ * e.y) * N.y + (σ * e.z) * N.z := by unfold Spec.dot3; ring
        _ = Spec.dot3 N (Spec.toReal3 v0) - Spec.dot3 N (Spec.toReal3 v1) := by
          rw [hd.x, hd.y, hd.z]; simp only [Spec.dot3, Spec.toReal3]; ring
        _ = 0 := by rw [this, sub_self]
    exact (mul_eq_zero.1 h2).resolve_left hd.pos.ne'
  set V := Spec.toReal3 v
  set W := Spec.toReal3 w
  have hVW : Spec.dot3 (⟨V.x - W.x, V.y - W.y, V.z - W.z⟩ : Vtx3 ℝ) N = 0 := by
    have := hN.2 _ (mem hi) _ (mem hj)
    simp only [Spec.dot3] at this ⊢
    linarith
  have fr := frame_norm ⟨V.x - W.x, V.y - W.y, V.z - W.z⟩ e N hd.unit hN.1 heN hVW
  have d3 : ((Spec.dist3 v w : ℚ) : ℝ) =
      (Spec.dot3 V e - Spec.dot3 W e) ^ 2 + (Spec.dot3 V (Spec.cross N e) - Spec.dot3 W (Spec.cross N e)) ^ 2 := by
    have h1 : ((Spec.dist3 v w : ℚ) : ℝ) = Spec.dot3 (⟨V.x - W.x, V.y - W.y, V.z - W.z⟩ : Vtx3 ℝ) ⟨V.x - W.x, V.y - W.y, V.z - W.z⟩ := by
      simp only [Spec.dist3, Spec.dot3, V, W, Spec.toReal3]; push_cast; ring
    rw [h1, ← fr]
    simp only [Spec.dot3, Spec.cross]; ring
  have d2 : ((Plane.dist2 p q : ℚ) : ℝ) = ((p.x : ℝ) - q.x) ^ 2 + ((p.y : ℝ) - q.y) ^ 2 := by
    simp only [Plane.dist2]; push_cast; ring
  rw [d2, d3]
  refine (abs_sqrt_sub _ _ _ _).trans ?_
  have k1 : |(p.x : ℝ) - q.x - (Spec.dot3 V e - Spec.dot3 W e)| ≤ |(p.x : ℝ) - Spec.dot3 V e| + |(q.x : ℝ) - Spec.dot3 W e| := by
    have e : (p.x : ℝ) - q.x - (Spec.dot3 V e - Spec.dot3 W e) = ((p.x : ℝ) - Spec.dot3 V e) - ((q.x : ℝ) - Spec.dot3 W e) := by ring
    rw [e]; exact abs_sub _ _
  have k2 : |(p.y : ℝ) - q.y - (Spec.dot3 V (Spec.cross N e) - Spec.dot3 W (Spec.cross N e))| ≤
      |(p.y : ℝ) - Spec.dot3 V (Spec.cross N e)| + |(q.y : ℝ) - Spec.dot3 W (Spec.cross N e)| := by
    have e : (p.y : ℝ) - q.y - (Spec.dot3 V (Spec.cross N e) - Spec.dot3 W (Spec.cross N e)) =
      ((p.y : ℝ) - Spec.dot3 V (Spec.cross N e)) - ((q.y : ℝ) - Spec.dot3 W (Spec.cross N e)) := by ring
    rw [e]; exact abs_sub _ _
  linarith

end

end CDT

/-! ## The two formats -/

namespace CDT

section
variable {f : Fmt} [Fl.Ok f]

/-- Coordinates up to `2^k`, and first two vertices at a distance of at least `2^-k`. -/
theorem inRange_of {vs : List (Vtx3 ℚ)} {v0 v1 : Vtx3 ℚ} {e : Vtx3 ℝ} {σ : ℝ} (k : Nat) (hd : Spec.Direction v0 v1 e σ) (m0 : v0 ∈ vs)
    (m1 : v1 ∈ vs) (hc : ∀ v ∈ vs, |v.x| ≤ 2 ^ k ∧ |v.y| ≤ 2 ^ k ∧ |v.z| ≤ 2 ^ k) (hσ : 1 / 2 ^ k ≤ σ) (k1 : 2 * k + 6 ≤ f.emax)
    (k2 : 2 * k + f.prec + 2 ≤ f.qmin) (k3 : k + f.prec + 4 ≤ f.qmin) : Spec.InRange f vs (2 ^ k) σ := by
  have hb := Fl.big_ge f
  have hσ0 := hd.pos
  have tin_eq : 8 * f.tin = 4 / 2 ^ f.qmin := by unfold Fmt.tin; rw [zpow_neg, zpow_natCast]; field_simp; norm_num
  have hup : σ ≤ 4 * 2 ^ k := by
    have h2 : σ ^ 2 ≤ (4 * 2 ^ k) ^ 2 := by
      have hu := hd.unit
      unfold Spec.dot3 at hu
      have key : ∀ a b : ℚ, |a| ≤ 2 ^ k → |b| ≤ 2 ^ k → ((a : ℝ) - b) ^ 2 ≤ (2 * 2 ^ k) ^ 2 := by
        intro a b ha hb
        have : |a - b| ≤ 2 * 2 ^ k := (abs_sub _ _).trans (by linarith)
        have h : |(a : ℝ) - b| ≤ 2 * 2 ^ k := by exact_mod_cast this
        exact sq_le_sq' (by linarith [(abs_le.1 h).1]) (abs_le.1 h).2
      obtain ⟨a1, a2, a3⟩ := hc v0 m0
      obtain ⟨b1, b2, b3⟩ := hc v1 m1
      have x := key _ _ a1 b1
      have y := key _ _ a2 b2
      have z := key _ _ a3 b3
      rw [← hd.x] at x
      rw [← hd.y] at y
      rw [← hd.z] at z
      have : σ ^ 2 = (σ * e.x) ^ 2 + (σ * e.y) ^ 2 + (σ * e.z) ^ 2 := by
        calc σ ^ 2 = σ ^ 2 * (e.x * e.x + e.y * e.y + e.z * e.z) := by rw [hu, mul_one]
          _ = _ := by ring
      rw [this]
      have : (0 : ℝ) < 2 ^ k := by positivity
      nlinarith
    exact abs_le_of_sq_le_sq' h2 (by positivity) |>.2
  refine ⟨one_le_pow₀ (by norm_num), hc, ?_, ?_, ?_, ?_⟩
  · refine le_trans ?_ hb
    calc (64 : ℚ) * (2 ^ k) ^ 2 = 2 ^ (2 * k + 6) := by rw [pow_add, pow_mul']; ring
      _ ≤ _ := pow_le_pow_right₀ (by norm_num) k1
  · rw [tin_eq]
    have h1 : (1 / 2 ^ k : ℝ) ^ 2 ≤ σ ^ 2 := by gcongr
    unfold Fmt.ulp
    refine le_trans ?_ (mul_le_mul_of_nonneg_left h1 (by positivity))
    have h2 : (2 : ℝ) ^ (2 * k + f.prec + 2) ≤ 2 ^ f.qmin := pow_le_pow_right₀ (by norm_num) k2
    have h3 : (2 : ℝ) ^ (2 * k + f.prec + 2) = (2 ^ k) ^ 2 * 2 ^ f.prec * 4 := by rw [pow_add, pow_add, pow_mul']; ring
    rw [h3] at h2
    rw [div_le_iff₀ (by positivity)]
    calc (4 : ℝ) = 1 / 2 ^ f.prec * (1 / 2 ^ k) ^ 2 * ((2 ^ k) ^ 2 * 2 ^ f.prec * 4) := by field_simp
      _ ≤ _ := by gcongr
  · rw [tin_eq]
    have h2 : (2 : ℝ) ^ (k + f.prec + 4) ≤ 2 ^ f.qmin := pow_le_pow_right₀ (by norm_num) k3
    have h3 : (2 : ℝ) ^ (k + f.prec + 4) = 2 ^ k * 2 ^ f.prec * 16 := by rw [pow_add, pow_add]; norm_num
    rw [h3] at h2
    unfold Fmt.ulp
    refine le_trans (mul_le_mul_of_nonneg_left hup (by positivity)) ?_
    rw [div_mul_eq_mul_div, div_le_div_iff₀ (by positivity) (by positivity)]
    linarith
  · have h1 : (2 : ℝ) ^ f.emax ≤ (Fl.big f : ℚ) := by exact_mod_cast hb
    have h2 : (2 : ℝ) ^ (k + 1) ≤ 2 ^ f.emax := pow_le_pow_right₀ (by norm_num) (by omega)
    rw [pow_succ] at h2
    calc (2 : ℝ) = 1 / 2 ^ k * (2 ^ k * 2) := by field_simp
      _ ≤ σ * (Fl.big f : ℚ) := by gcongr; linarith

end

/-- **C70** for `f64` (`DVec3`): distances change by less than `30 * 2^-53` times the coordinates, if the normal is given to
the last place. -/
theorem C70_f64 (vs : List (Vtx3 ℚ)) (n v0 v1 : Vtx3 ℚ) (N e : Vtx3 ℝ) (σ : ℝ) (hv : ∀ v ∈ vs, v.Number binary64)
    (h0 : vs[0]? = some v0) (h1 : vs[1]? = some v1) (hd : Spec.Direction v0 v1 e σ)
    (hc : ∀ v ∈ vs, |v.x| ≤ 2 ^ 500 ∧ |v.y| ≤ 2 ^ 500 ∧ |v.z| ≤ 2 ^ 500) (hσ : 1 / 2 ^ 500 ≤ σ)
    (hN : Spec.Coplanar N (vs.map Spec.toReal3))
    (hnN : |(n.x : ℝ) - N.x| ≤ 1 / 2 ^ 53 ∧ |(n.y : ℝ) - N.y| ≤ 1 / 2 ^ 53 ∧ |(n.z : ℝ) - N.z| ≤ 1 / 2 ^ 53) :
    ∃ pv : List (Vtx ℚ), transformTo2d (vs.map (flVtx3 binary64)) (flVtx3 binary64 n) = .ok (flVerts binary64 pv) ∧ pv.length = vs.length ∧
      ∀ (i j : Nat) (v w : Vtx3 ℚ) (p q : Vtx ℚ), vs[i]? = some v → vs[j]? = some w → pv[i]? = some p → pv[j]? = some q →
        |√((Plane.dist2 p q : ℚ) : ℝ) - √((Spec.dist3 v w : ℚ) : ℝ)| ≤
          30 / 2 ^ 53 * ((Spec.norm1 v : ℚ) + (Spec.norm1 w : ℚ)) + 8 / 2 ^ 1074 := by
  have hr := inRange_of (f := binary64) 500 hd (List.mem_of_getElem? h0) (List.mem_of_getElem? h1) hc hσ (by decide) (by decide) (by decide)
  obtain ⟨pv, e1, e2, e3⟩ := C70_distances (f := binary64) vs n v0 v1 N e σ _ _ hv h0 h1 hd hr hN (by norm_num) hnN
  refine ⟨pv, e1, e2, ?_⟩
  intro i j v w p q hi hj hp hq
  refine (e3 i j v w p q hi hj hp hq).trans ?_
  have hA : (0 : ℝ) ≤ (Spec.norm1 v : ℚ) + (Spec.norm1 w : ℚ) := by unfold Spec.norm1; push_cast; positivity
  have hu : binary64.ulp = 1 / 2 ^ 53 := rfl
  have ht : 16 * binary64.tin = 8 / 2 ^ 1074 := by
    have : binary64.tin = 1 / 2 * 2 ^ (-((1074 : ℕ) : ℤ)) := rfl
    rw [this, zpow_neg, zpow_natCast, div_eq_mul_inv 8]
    generalize (_ : ℝ)⁻¹ = z
    ring
  rw [hu, ht]
  gcongr
  norm_num

/-- **C70** for `f32` (`Vec3`). -/
theorem C70_f32 (vs : List (Vtx3 ℚ)) (n v0 v1 : Vtx3 ℚ) (N e : Vtx3 ℝ) (σ : ℝ) (hv : ∀ v ∈ vs, v.Number binary32)
    (h0 : vs[0]? = some v0) (h1 : vs[1]? = some v1) (hd : Spec.Direction v0 v1 e σ)
    (hc : ∀ v ∈ vs, |v.x| ≤ 2 ^ 60 ∧ |v.y| ≤ 2 ^ 60 ∧ |v.z| ≤ 2 ^ 60) (hσ : 1 / 2 ^ 60 ≤ σ)
    (hN : Spec.Coplanar N (vs.map Spec.toReal3))
    (hnN : |(n.x : ℝ) - N.x| ≤ 1 / 2 ^ 24 ∧ |(n.y : ℝ) - N.y| ≤ 1 / 2 ^ 24 ∧ |(n.z : ℝ) - N.z| ≤ 1 / 2 ^ 24) :
    ∃ pv : List (Vtx ℚ), transformTo2d (vs.map (flVtx3 binary32)) (flVtx3 binary32 n) = .ok (flVerts binary32 pv) ∧ pv.length = vs.length ∧
      ∀ (i j : Nat) (v w : Vtx3 ℚ) (p q : Vtx ℚ), vs[i]? = some v → vs[j]? = some w → pv[i]? = some p → pv[j]? = some q →
        |√((Plane.dist2 p q : ℚ) : ℝ) - √((Spec.dist3 v w : ℚ) : ℝ)| ≤
          30 / 2 ^ 24 * ((Spec.norm1 v : ℚ) + (Spec.norm1 w : ℚ)) + 8 / 2 ^ 149 := by
  have hr := inRange_of (f := binary32) 60 hd (List.mem_of_getElem? h0) (List.mem_of_getElem? h1) hc hσ (by decide) (by decide) (by decide)
  obtain ⟨pv, e1, e2, e3⟩ := C70_distances (f := binary32) vs n v0 v1 N e σ _ _ hv h0 h1 hd hr hN (by norm_num) hnN
  refine ⟨pv, e1, e2, ?_⟩
  intro i j v w p q hi hj hp hq
  refine (e3 i j v w p q hi hj hp hq).trans ?_
  have hA : (0 : ℝ) ≤ (Spec.norm1 v : ℚ) + (Spec.norm1 w : ℚ) := by unfold Spec.norm1; push_cast; positivity
  have hu : binary32.ulp = 1 / 2 ^ 24 := rfl
  have ht : 16 * binary32.tin = 8 / 2 ^ 149 := by
    have : binary32.tin = 1 / 2 * 2 ^ (-((149 : ℕ) : ℤ)) := rfl
    rw [this, zpow_neg, zpow_natCast, div_eq_mul_inv 8]
    generalize (_ : ℝ)⁻¹ = z
    ring
  rw [hu, ht]
  gcongr
  norm_num

/-! ## Example -/

/-- A rectangle in the plane `2 x + y = 2 z`. -/
def tilted : List (Vtx3 ℚ) := [⟨1, 2, 2⟩, ⟨0, 0, 0⟩, ⟨2, -2, 1⟩, ⟨3, 0, 3⟩]

/-- Its normal `(2, 1, -2) / 3`, in `f64`. -/
def tiltedNormal : Vtx3 ℚ := ⟨6004799503160661 / 2 ^ 53, 6004799503160661 / 2 ^ 54, -6004799503160661 / 2 ^ 53⟩

theorem tilted_number : ∀ v ∈ tilted, v.Number binary64 := by
  have h : ∀ z : ℤ, |z| < 2 ^ 53 → binary64.Number z := by
    intro z hz
    exact ⟨z, 0, by simp, hz, by decide, by decide⟩
  have h2 := h 2 (by decide)
  have h1 := h 1 (by decide)
  have h3 := h 3 (by decide)
  have h0 := h 0 (by decide)
  have h4 := h (-2) (by decide)
  intro v hv
  simp only [tilted, List.mem_cons, List.not_mem_nil, or_false] at hv
  rcases hv with rfl | rfl | rfl | rfl
  · exact ⟨by exact_mod_cast h1, by exact_mod_cast h2, by exact_mod_cast h2⟩
  · exact ⟨by exact_mod_cast h0, by exact_mod_cast h0, by exact_mod_cast h0⟩
  · exact ⟨by exact_mod_cast h2, by exact_mod_cast h4, by exact_mod_cast h1⟩
  · exact ⟨by exact_mod_cast h3, by exact_mod_cast h0, by exact_mod_cast h3⟩

/-- The conditions of `C70_f64` hold for a rectangle in a plane that is not parallel to an axis. -/
example : ∃ pv : List (Vtx ℚ), transformTo2d (tilted.map (flVtx3 binary64)) (flVtx3 binary64 tiltedNormal) = .ok (flVerts binary64 pv) ∧
    ∀ p q : Vtx ℚ, pv[2]? = some p → pv[3]? = some q → |√((Plane.dist2 p q : ℚ) : ℝ) - 3| ≤ 331 / 2 ^ 53 := by
  have hd : Spec.Direction ⟨1, 2, 2⟩ ⟨0, 0, 0⟩ ⟨1 / 3, 2 / 3, 2 / 3⟩ 3 := by
    constructor <;> norm_num [Spec.dot3]
  obtain ⟨pv, e1, -, e3⟩ := C70_f64 tilted tiltedNormal ⟨1, 2, 2⟩ ⟨0, 0, 0⟩ ⟨2 / 3, 1 / 3, -2 / 3⟩ ⟨1 / 3, 2 / 3, 2 / 3⟩ 3 tilted_number rfl rfl hd
    (by decide +kernel) (by
      have : (1 : ℝ) ≤ 2 ^ 500 := one_le_pow₀ (by norm_num)
      rw [div_le_iff₀ (by positivity)]; generalize (2 : ℝ) ^ 500 = z at *; linarith)
    ⟨by norm_num [Spec.dot3], by
      intro v hv w hw
      simp only [tilted, List.map_cons, List.map_nil, List.mem_cons, List.not_mem_nil, or_false, Spec.toReal3] at hv hw
      rcases hv with rfl | rfl | rfl | rfl <;> rcases hw with rfl | rfl | rfl | rfl <;> norm_num [Spec.dot3]⟩
    ⟨by norm_num [tiltedNormal, abs_le], by norm_num [tiltedNormal, abs_le], by norm_num [tiltedNormal, abs_le]⟩
  refine ⟨pv, e1, ?_⟩
  intro p q hp hq
  have h := e3 2 3 ⟨2, -2, 1⟩ ⟨3, 0, 3⟩ p q rfl rfl hp hq
  have hs : √((Spec.dist3 (⟨2, -2, 1⟩ : Vtx3 ℚ) ⟨3, 0, 3⟩ : ℚ) : ℝ) = 3 := by
    rw [show (Spec.dist3 (⟨2, -2, 1⟩ : Vtx3 ℚ) ⟨3, 0, 3⟩ : ℚ) = 9 by norm_num [Spec.dist3]]
    rw [Real.sqrt_eq_iff_mul_self_eq (by norm_num) (by norm_num)]; norm_num
  rw [hs] at h
  refine h.trans ?_
  have n1 : ((Spec.norm1 (⟨2, -2, 1⟩ : Vtx3 ℚ) : ℚ) : ℝ) = 5 := by norm_num [Spec.norm1]
  have n2 : ((Spec.norm1 (⟨3, 0, 3⟩ : Vtx3 ℚ) : ℚ) : ℝ) = 6 := by norm_num [Spec.norm1]
  rw [n1, n2]
  clear h e3 e1
  have h3 : (8 : ℝ) / 2 ^ 1074 ≤ 1 / 2 ^ 53 := by
    rw [div_le_div_iff₀ (by positivity) (by positivity)]
    have : (2 : ℝ) ^ 56 ≤ 2 ^ 1074 := pow_le_pow_right₀ (by norm_num) (by norm_num)
    have e : (8 : ℝ) * 2 ^ 53 = 2 ^ 56 := by norm_num
    rw [e, one_mul]; exact this
  have h4 : (30 : ℝ) / 2 ^ 53 * (5 + 6) + 1 / 2 ^ 53 = 331 / 2 ^ 53 := by norm_num
  generalize (8 : ℝ) / 2 ^ 1074 = z at *
  linarith

end CDT

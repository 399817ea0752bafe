import Verif.Proofs.Sqrt
import Verif.Props.Planar
import Verif.Props.Inputs

/-!
# C64: 3d vertices in a plane parallel to two axes, in IEEE arithmetic
-/

set_option linter.unusedSectionVars false

namespace CDT
open FloatOps Plane

/-! ## Specification -/

namespace Spec

/-- A unit vector along an axis. -/
inductive Axis : Vtx3 ℚ → Prop
  | x : Axis ⟨1, 0, 0⟩
  | x' : Axis ⟨-1, 0, 0⟩
  | y : Axis ⟨0, 1, 0⟩
  | y' : Axis ⟨0, -1, 0⟩
  | z : Axis ⟨0, 0, 1⟩
  | z' : Axis ⟨0, 0, -1⟩

/-- Vector product. -/
def cross3 (a b : Vtx3 ℚ) : Vtx3 ℚ := ⟨a.y * b.z - a.z * b.y, a.z * b.x - a.x * b.z, a.x * b.y - a.y * b.x⟩

/-- Coordinates along the direction `a` of the plane and along the direction that is perpendicular to it and to the normal `n`. -/
def coords (a n : Vtx3 ℚ) (vs : List (Vtx3 ℚ)) : List (Vtx ℚ) :=
  vs.map fun v => ⟨dot3 v a, dot3 v (cross3 a ⟨-n.x, -n.y, -n.z⟩)⟩

end Spec

/-- A 3d vertex as floating point numbers. -/
def flVtx3 (f : Fmt) (v : Vtx3 ℚ) : Vtx3 (Fl f) := ⟨.fin v.x, .fin v.y, .fin v.z⟩

/-- Its coordinates are numbers of the format. -/
def Vtx3.Number (f : Fmt) (v : Vtx3 ℚ) : Prop := f.Number v.x ∧ f.Number v.y ∧ f.Number v.z

/-- A length `δ` that the code normalizes to exactly 1: its rounded value `d` has a square without underflow or overflow, and
the rounded product of `d` and the rounded `1 / d` is 1. -/
structure UnitStep (f : Fmt) (δ : ℚ) : Prop where
  pos : 0 < δ
  range : δ ≤ Fl.big f
  sq_mult : Fl.Mult f (Fl.rnd f δ * Fl.rnd f δ)
  sq_range : Fl.rnd f δ * Fl.rnd f δ ≤ Fl.big f
  recip_range : 1 / Fl.rnd f δ ≤ Fl.big f
  unit : Fl.rnd f (Fl.rnd f δ * Fl.rnd f (1 / Fl.rnd f δ)) = 1

section
variable {f : Fmt} [Fl.Ok f]

theorem number_zero : f.Number 0 := ⟨0, 0, by simp, by positivity, by omega, by have := Fl.Ok.prec_emax (f := f); omega⟩

theorem number_neg {q : ℚ} (h : f.Number q) : f.Number (-q) := by
  obtain ⟨m, e, h1, h2, h3⟩ := h
  exact ⟨-m, e, by rw [h1]; push_cast; ring, by rwa [abs_neg], h3⟩

theorem mk_number {q : ℚ} (h : f.Number q) : Fl.mk f q = .fin q := by
  rw [Fl.mk_of_le f (Fl.number_le h), Fl.rnd_of_number h]

theorem mulFin (a b : ℚ) : FloatOps.mul (.fin a : Fl f) (.fin b) = Fl.mk f (a * b) := rfl
theorem addFin (a b : ℚ) : FloatOps.add (.fin a : Fl f) (.fin b) = Fl.mk f (a + b) := rfl
theorem subFin (a b : ℚ) : FloatOps.sub (.fin a : Fl f) (.fin b) = Fl.mk f (a - b) := rfl
theorem negFin (a : ℚ) : FloatOps.neg (.fin a : Fl f) = .fin (-a) := rfl

theorem mk_one : Fl.mk f 1 = .fin 1 := mk_number number_one
theorem mk_neg_one : Fl.mk f (-1) = .fin (-1) := mk_number (number_neg number_one)

/-- The dot product with an axis is exact. -/
theorem dot_axis {v b : Vtx3 ℚ} (hv : v.Number f) (hb : Spec.Axis b) : (flVtx3 f v).dot (flVtx3 f b) = .fin (Spec.dot3 v b) := by
  obtain ⟨h1, h2, h3⟩ := hv
  cases hb <;> simp [Vtx3.dot, flVtx3, Spec.dot3, mulFin, addFin, mk_zero, mk_number h1, mk_number h2, mk_number h3,
    mk_number (number_neg h1), mk_number (number_neg h2), mk_number (number_neg h3)]

theorem cross_axis {a n : Vtx3 ℚ} (ha : Spec.Axis a) (hn : Spec.Axis n) :
    (flVtx3 f a).cross (flVtx3 f n).neg' = flVtx3 f (Spec.cross3 a ⟨-n.x, -n.y, -n.z⟩) := by
  cases ha <;> cases hn <;>
    simp [Vtx3.cross, Vtx3.neg', flVtx3, Spec.cross3, mulFin, subFin, negFin, mk_zero, mk_one, mk_neg_one]

theorem cross3_axis {a n : Vtx3 ℚ} (ha : Spec.Axis a) (hn : Spec.Axis n) (h : Spec.dot3 a n = 0) :
    Spec.Axis (Spec.cross3 a ⟨-n.x, -n.y, -n.z⟩) := by
  cases ha <;> cases hn <;> simp [Spec.dot3] at h <;> simp [Spec.cross3] <;> constructor

/-- Normalization of a multiple of an axis. -/
theorem normalize_axis {a : Vtx3 ℚ} (ha : Spec.Axis a) {δ : ℚ} (h : UnitStep f δ) :
    Vtx3.normalize (⟨.fin (Fl.rnd f δ * a.x), .fin (Fl.rnd f δ * a.y), .fin (Fl.rnd f δ * a.z)⟩ : Vtx3 (Fl f)) = flVtx3 f a := by
  have hf : 1 ≤ f.prec := by have := Fl.Ok.prec (f := f); omega
  set d := Fl.rnd f δ with hd
  have hnd : f.Number d := Fl.number_iff.2 ⟨Fl.rnd_idem f hf _, Fl.rnd_le_big f (by rw [abs_of_pos h.pos]; exact h.range)⟩
  have hd0 : 0 < d := by
    refine lt_of_le_of_ne (Fl.rnd_nonneg f h.pos.le) fun e => ?_
    have := h.unit
    rw [← hd, ← e] at this
    simp [Fl.rnd_zero] at this
  have hsq := Fl.sqrt_mul_self hd0 hnd h.sq_mult h.sq_range
  have hmm : Fl.mul (.fin d : Fl f) (.fin d) = .fin (Fl.rnd f (d * d)) :=
    Fl.mk_of_le f (by rw [abs_of_pos (mul_pos hd0 hd0)]; exact h.sq_range)
  rw [hmm] at hsq
  have hnn : f.Number (Fl.rnd f (d * d)) :=
    Fl.number_iff.2 ⟨Fl.rnd_idem f hf _, Fl.rnd_le_big f (by rw [abs_of_pos (mul_pos hd0 hd0)]; exact h.sq_range)⟩
  have hmk : Fl.mk f (d * d) = .fin (Fl.rnd f (d * d)) := hmm
  have hdot : Vtx3.dot (⟨.fin (d * a.x), .fin (d * a.y), .fin (d * a.z)⟩ : Vtx3 (Fl f)) ⟨.fin (d * a.x), .fin (d * a.y), .fin (d * a.z)⟩ =
      .fin (Fl.rnd f (d * d)) := by
    cases ha <;> simp [Vtx3.dot, mulFin, hmk, mk_zero, addFin, mk_number hnn]
  have hdiv : FloatOps.div (FloatOps.one : Fl f) (.fin d) = .fin (Fl.rnd f (1 / d)) := by
    show Fl.div (.fin 1 : Fl f) (.fin d) = _
    rw [Fl.div, if_neg hd0.ne']
    refine Fl.mk_of_le f ?_
    rw [abs_of_pos (by positivity)]
    exact h.recip_range
  have hunit : Fl.mk f (d * Fl.rnd f (1 / d)) = .fin 1 := by
    have h1 := h.unit
    rw [← hd] at h1
    rw [Fl.mk]
    simp only [h1]
    have hb := Fl.number_le (number_one (f := f))
    rw [abs_one] at hb
    rw [if_neg (by linarith), if_neg (by linarith)]
  have hunit' : Fl.mk f (-(d * Fl.rnd f (1 / d))) = .fin (-1) := by
    have h1 := h.unit
    rw [← hd] at h1
    rw [Fl.mk]
    simp only [Fl.rnd_neg, h1]
    have hb := Fl.number_le (number_one (f := f))
    rw [abs_one] at hb
    rw [if_neg (by linarith), if_neg (by linarith)]
  have hs : FloatOps.sqrt (.fin (Fl.rnd f (d * d)) : Fl f) = .fin d := hsq
  rw [one_div] at hunit hunit'
  unfold Vtx3.normalize
  simp only [hdot, hs, hdiv, mulFin]
  cases ha <;> simp [flVtx3, hunit, hunit', mk_zero]

/-- Two vertices that differ by `δ` along an axis. -/
theorem sub_axis {a v w : Vtx3 ℚ} (ha : Spec.Axis a) {δ : ℚ} (h : UnitStep f δ)
    (hx : v.x - w.x = δ * a.x) (hy : v.y - w.y = δ * a.y) (hz : v.z - w.z = δ * a.z) :
    Vtx3.sub' (flVtx3 f v) (flVtx3 f w) =
      (⟨.fin (Fl.rnd f δ * a.x), .fin (Fl.rnd f δ * a.y), .fin (Fl.rnd f δ * a.z)⟩ : Vtx3 (Fl f)) := by
  have hm : Fl.mk f δ = .fin (Fl.rnd f δ) := Fl.mk_of_le f (by rw [abs_of_pos h.pos]; exact h.range)
  have hm' : Fl.mk f (-δ) = .fin (-Fl.rnd f δ) := by
    rw [Fl.mk_of_le f (by rw [abs_neg, abs_of_pos h.pos]; exact h.range), Fl.rnd_neg]
  simp only [Vtx3.sub', flVtx3, subFin, hx, hy, hz]
  cases ha <;> simp [hm, hm', mk_zero]

variable [IdCfg]

/-- **C64** (IEEE formats): vertices of a plane parallel to two axes, its normal one of the six axis directions, the first two
vertices apart along an axis by a length that is normalized exactly. The 3d entry points are the 2d ones applied to exact
coordinates that preserve all distances and all signed areas seen from the tip of the normal: nothing is rounded. -/
theorem C64_coords (fuel : Nat) (bins : Nat → Nat) (vs : List (Vtx3 ℚ)) (n a v0 v1 : Vtx3 ℚ) (δ : ℚ) (hv : ∀ v ∈ vs, v.Number f)
    (hn : Spec.Axis n) (ha : Spec.Axis a) (hc : Spec.Coplanar n vs) (h0 : vs[0]? = some v0) (h1 : vs[1]? = some v1)
    (hx : v0.x - v1.x = δ * a.x) (hy : v0.y - v1.y = δ * a.y) (hz : v0.z - v1.z = δ * a.z) (hδ : UnitStep f δ) :
    Representable f (Spec.coords a n vs) ∧
      triangulation3d fuel bins (vs.map (flVtx3 f)) (flVtx3 f n) = triangulation2d fuel bins (flVerts f (Spec.coords a n vs)) ∧
      (∀ es, constrained3d fuel bins (vs.map (flVtx3 f)) (flVtx3 f n) es = constrained2d fuel bins (flVerts f (Spec.coords a n vs)) es) ∧
      (∀ (i j : Nat) (A B : Vtx3 ℚ) (p q : Vtx ℚ), vs[i]? = some A → vs[j]? = some B → (Spec.coords a n vs)[i]? = some p → (Spec.coords a n vs)[j]? = some q →
        dist2 p q = Spec.dist3 A B) ∧
      (∀ (i j k : Nat) (A B C : Vtx3 ℚ) (p q r : Vtx ℚ), vs[i]? = some A → vs[j]? = some B → vs[k]? = some C →
        (Spec.coords a n vs)[i]? = some p → (Spec.coords a n vs)[j]? = some q → (Spec.coords a n vs)[k]? = some r → area2 p q r = Spec.area3 n A B C) := by
  have hmem0 : v0 ∈ vs := List.mem_of_getElem? h0
  have hmem1 : v1 ∈ vs := List.mem_of_getElem? h1
  -- the first axis lies in the plane
  have hperp : Spec.dot3 a n = 0 := by
    have h := hc.2 v0 hmem0 v1 hmem1
    have e : δ * Spec.dot3 a n = 0 := by
      simp only [Spec.dot3] at h ⊢
      have : n.x * (v0.x - v1.x) + n.y * (v0.y - v1.y) + n.z * (v0.z - v1.z) = 0 := by linarith
      rw [hx, hy, hz] at this
      linarith
    exact (mul_eq_zero.1 e).resolve_left hδ.pos.ne'
  set b := Spec.cross3 a ⟨-n.x, -n.y, -n.z⟩ with hb
  have hbx : Spec.Axis b := cross3_axis ha hn hperp
  have ht : transformTo2d (vs.map (flVtx3 f)) (flVtx3 f n) =
      .ok (flVerts f (vs.map fun v => ⟨Spec.dot3 v a, Spec.dot3 v b⟩)) := by
    have g0 : getI (vs.map (flVtx3 f)) 0 = .ok (flVtx3 f v0) := by simp [getI, h0]
    have g1 : getI (vs.map (flVtx3 f)) 1 = .ok (flVtx3 f v1) := by simp [getI, h1]
    simp only [transformTo2d, g0, g1, Res.ok_bind, sub_axis ha hδ hx hy hz, normalize_axis ha hδ, cross_axis ha hn]
    congr 1
    simp only [flVerts, List.map_map]
    refine List.map_congr_left fun v hvm => ?_
    simp only [Function.comp_apply, dot_axis (hv v hvm) ha]
    rw [dot_axis (hv v hvm) hbx]
  have hco : Spec.coords a n vs = vs.map fun v => ⟨Spec.dot3 v a, Spec.dot3 v b⟩ := rfl
  rw [hco]
  refine ⟨?_, ?_, ?_, ?_, ?_⟩
  · intro w hw
    obtain ⟨v, hvm, rfl⟩ := List.mem_map.1 hw
    obtain ⟨k1, k2, k3⟩ := hv v hvm
    have num : ∀ c, Spec.Axis c → f.Number (Spec.dot3 v c) := by
      intro c hc
      cases hc <;> simp [Spec.dot3] <;> first | assumption | (apply number_neg; assumption)
    exact ⟨num a ha, num b hbx⟩
  · unfold triangulation3d
    simp only [List.length_map]
    split
    · rw [triangulation2d, if_pos (by simp [flVerts]; omega)]
    · rw [ht, Res.ok_bind]
  · intro es
    unfold constrained3d
    simp only [List.length_map]
    split
    · rw [constrained2d, if_pos (by simp [flVerts]; omega)]
    · rw [ht, Res.ok_bind]
  · intro i j A B p q hA hB hp hq
    simp only [List.getElem?_map, hA, hB, Option.map_some, Option.some.injEq] at hp hq
    subst hp; subst hq
    have hAB := hc.2 A (List.mem_of_getElem? hA) B (List.mem_of_getElem? hB)
    rw [hb]
    clear hco hb hbx ht hx hy hz hc hv
    cases ha <;> cases hn <;> simp [Spec.dot3] at hperp <;> simp [Spec.dot3] at hAB <;>
      simp [dist2, Spec.dist3, Spec.dot3, Spec.cross3, hAB] <;> ring
  · intro i j k A B C p q r hA hB hC hp hq hr
    simp only [List.getElem?_map, hA, hB, hC, Option.map_some, Option.some.injEq] at hp hq hr
    subst hp; subst hq; subst hr
    rw [hb]
    clear hco hb hbx ht hx hy hz hc hv
    cases ha <;> cases hn <;> simp [Spec.dot3] at hperp <;>
      simp [area2, Spec.area3, Spec.dot3, Spec.cross3] <;> ring

/-- **C64**, without the coordinates. -/
theorem C64_axis (fuel : Nat) (bins : Nat → Nat) (vs : List (Vtx3 ℚ)) (n a v0 v1 : Vtx3 ℚ) (δ : ℚ) (hv : ∀ v ∈ vs, v.Number f)
    (hn : Spec.Axis n) (ha : Spec.Axis a) (hc : Spec.Coplanar n vs) (h0 : vs[0]? = some v0) (h1 : vs[1]? = some v1)
    (hx : v0.x - v1.x = δ * a.x) (hy : v0.y - v1.y = δ * a.y) (hz : v0.z - v1.z = δ * a.z) (hδ : UnitStep f δ) :
    ∃ pv : List (Vtx ℚ), pv.length = vs.length ∧ Representable f pv ∧
      triangulation3d fuel bins (vs.map (flVtx3 f)) (flVtx3 f n) = triangulation2d fuel bins (flVerts f pv) ∧
      (∀ es, constrained3d fuel bins (vs.map (flVtx3 f)) (flVtx3 f n) es = constrained2d fuel bins (flVerts f pv) es) ∧
      (∀ (i j : Nat) (A B : Vtx3 ℚ) (p q : Vtx ℚ), vs[i]? = some A → vs[j]? = some B → pv[i]? = some p → pv[j]? = some q →
        dist2 p q = Spec.dist3 A B) ∧
      (∀ (i j k : Nat) (A B C : Vtx3 ℚ) (p q r : Vtx ℚ), vs[i]? = some A → vs[j]? = some B → vs[k]? = some C →
        pv[i]? = some p → pv[j]? = some q → pv[k]? = some r → area2 p q r = Spec.area3 n A B C) := by
  obtain ⟨h2, h3, h4, h5, h6⟩ := C64_coords fuel bins vs n a v0 v1 δ hv hn ha hc h0 h1 hx hy hz hδ
  exact ⟨_, by simp [Spec.coords], h2, h3, h4, h5, h6⟩

/-- Powers of two are normalized exactly. -/
theorem unitStep_pow2 {k : ℤ} (h1 : -(f.qmin : ℤ) ≤ 2 * k) (h2 : 2 * k ≤ f.emax) (h3 : -(f.emax : ℤ) ≤ k) (h4 : k ≤ f.qmin) :
    UnitStep f (2 ^ k) := by
  have hf : 1 ≤ f.prec := by have := Fl.Ok.prec (f := f); omega
  have pw : ∀ j : ℤ, -(f.qmin : ℤ) ≤ j → Fl.rnd f (2 ^ j) = 2 ^ j := by
    intro j hj
    have := Fl.rnd_dyadic_int f hf (m := 1) (k := j) (by rw [abs_one]; exact one_le_pow₀ (by norm_num)) hj
    simpa using this
  have le : ∀ j : ℤ, j ≤ f.emax → (2 : ℚ) ^ j ≤ Fl.big f := by
    intro j hj
    refine le_trans ?_ (Fl.big_ge f)
    rw [← zpow_natCast]
    exact zpow_le_zpow_right₀ (by norm_num) hj
  have e : Fl.rnd f ((2 : ℚ) ^ k) = 2 ^ k := pw k (by omega)
  have e2 : (2 : ℚ) ^ k * 2 ^ k = 2 ^ (2 * k) := by rw [← zpow_add₀ (by norm_num)]; congr 1; ring
  have e3 : (1 : ℚ) / 2 ^ k = 2 ^ (-k) := by rw [zpow_neg, one_div]
  refine ⟨by positivity, le k (by omega), ?_, ?_, ?_, ?_⟩
  · rw [e, e2]; exact Fl.mult_of_rnd (pw _ h1)
  · rw [e, e2]; exact le _ h2
  · rw [e, e3]; exact le _ (by omega)
  · rw [e, e3, pw (-k) (by omega), ← zpow_add₀ (by norm_num), add_neg_cancel, zpow_zero, Fl.rnd_of_number number_one]

end

end CDT

/-! ## Examples -/

namespace CDT

local instance axisCfg : IdCfg := u32Cfg

/-- The condition on the first two vertices, by evaluation. -/
theorem unitStep_of {f : Fmt} {δ : ℚ} (h1 : 0 < δ ∧ δ ≤ Fl.big f ∧ Fl.rnd f δ * Fl.rnd f δ ≤ Fl.big f ∧ 1 / Fl.rnd f δ ≤ Fl.big f ∧
    Fl.rnd f (Fl.rnd f δ * Fl.rnd f (1 / Fl.rnd f δ)) = 1) (h2 : Fl.Mult f (Fl.rnd f δ * Fl.rnd f δ)) : UnitStep f δ :=
  ⟨h1.1, h1.2.1, h2, h1.2.2.1, h1.2.2.2.1, h1.2.2.2.2⟩

/-- Distance 3 is normalized to 1 in `f64`, distance 49 is not. -/
example : UnitStep binary64 3 ∧ ¬ UnitStep binary64 49 := by
  constructor
  · exact unitStep_of (by decide +kernel) ⟨9 * 2 ^ binary64.qmin, by
      have : Fl.rnd binary64 3 = 3 := by decide +kernel
      rw [this, zpow_neg, zpow_natCast]
      push_cast
      field_simp
      norm_num⟩
  · intro h
    have : Fl.rnd binary64 (Fl.rnd binary64 49 * Fl.rnd binary64 (1 / Fl.rnd binary64 49)) ≠ 1 := by decide +kernel
    exact this h.unit

/-- A wall in the plane `y = 7`, seen from the side of negative `y`. -/
def wall : List (Vtx3 ℚ) := [⟨0, 7, 0⟩, ⟨0, 7, 4⟩, ⟨5, 7, 4⟩, ⟨5, 7, 0⟩, ⟨2, 7, 1⟩]

theorem wall_number : ∀ v ∈ wall, v.Number binary64 := by
  have n : ∀ q : ℚ, (Fl.rnd binary64 q = q ∧ |q| ≤ Fl.big binary64) → binary64.Number q := fun q h => Fl.number_iff.2 h
  intro v hv
  simp only [wall, List.mem_cons, List.not_mem_nil, or_false] at hv
  rcases hv with rfl | rfl | rfl | rfl | rfl <;>
    exact ⟨n _ (by decide +kernel), n _ (by decide +kernel), n _ (by decide +kernel)⟩

example : ∃ pv : List (Vtx ℚ), pv.length = wall.length ∧ Representable binary64 pv ∧
    triangulation3d 100 Witness.defaultBins (wall.map (flVtx3 binary64)) (flVtx3 binary64 ⟨0, -1, 0⟩) =
      triangulation2d 100 Witness.defaultBins (flVerts binary64 pv) := by
  obtain ⟨pv, h1, h2, h3, -⟩ := C64_axis 100 Witness.defaultBins wall ⟨0, -1, 0⟩ ⟨0, 0, -1⟩ ⟨0, 7, 0⟩ ⟨0, 7, 4⟩ 4 wall_number .y' .z'
    (by constructor <;> simp [Spec.dot3, wall]) rfl rfl (by norm_num) (by norm_num) (by norm_num)
    (by
      have := unitStep_pow2 (f := binary64) (k := 2) (by decide) (by decide) (by decide) (by decide)
      norm_num at this
      exact this)
  exact ⟨pv, h1, h2, h3⟩

example : okAnd (triangulation3d 100 Witness.defaultBins (wall.map (flVtx3 binary64)) (flVtx3 binary64 ⟨0, -1, 0⟩))
    (fun ts => decide (ts.length = 4)) = true := by decide +kernel

end CDT

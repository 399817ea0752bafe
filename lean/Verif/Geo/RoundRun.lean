import Verif.Geo.RoundGrid
import Verif.Geo.Sep
import Verif.Spec.Robust

/-!
# Runs in rounded arithmetic

On a robust input the run in rounded arithmetic is the run in exact arithmetic: normalization and bins first, then the
predicates (`Geo/Agree.lean`).
-/

set_option linter.unusedSectionVars false
set_option linter.unusedVariables false

namespace CDT
open FloatOps

/-- The exact coordinates of a list of vertices. -/
def Vals {F : Type} [FloatOps F] [Rounded F] (vs : List (Vtx F)) (V : List (Vtx ℚ)) : Prop :=
  List.Forall₂ (fun v w => Rounded.val v.x = some w.x ∧ Rounded.val v.y = some w.y) vs V

namespace Rounded

variable {F : Type} [FloatOps F] [Rounded F]

/-- Value of the factor `0.99 * bins`. -/
def binFactor (F : Type) [FloatOps F] [Rounded F] (b : Nat) : ℚ := (val (mul c099 (ofNat b) : F)).getD 0

/-- Value of the scale factor. -/
def scaleVal (vs : List (Vtx F)) : ℚ := (val (scaleFactor vs)).getD 0

/-- Rounded normalization, as a function of the exact normalized coordinate. -/
def gOf (F : Type) [FloatOps F] [Rounded F] (W s i : ℚ) : ℚ := rnd F (rnd F (i * W) / s)

/-- Rounded bin coordinate, as a function of the exact one. -/
def binOf (F : Type) [FloatOps F] [Rounded F] (b : Nat) (W s y : ℚ) : Nat :=
  ⌊rnd F (binFactor F b * gOf F W s (y / (99 / 100 * b)))⌋₊

/-- Exact arithmetic with the constants of `F`, and a conversion to `usize` that gives the bins of the rounded run. -/
@[reducible] def params (F : Type) [FloatOps F] [Rounded F] (b : Nat) (W s : ℚ) : ExactParams ℚ where
  eps := 2 * u F
  fmax := big (F := F)
  sqrt := id
  toUsize y := if (binOf F b W s y : ℚ) ≤ 201 / 200 * y then binOf F b W s y else 0
  eps_pos := by have := u_pos (F := F); linarith
  eps_le_one := by have := u_le (F := F); linarith
  toUsize_le := by
    intro x hx
    split
    · assumption
    · simp; linarith

/-! ### Bins -/

theorem binFactor_spec {b : Nat} (hb : 1 ≤ b) (hc : (b : ℚ) ≤ cap (F := F)) :
    val (mul c099 (ofNat b) : F) = some (binFactor F b) ∧ 0 ≤ binFactor F b ∧
      binFactor F b ≤ (99 / 100 + 4 * u F) * b := by
  have hu := u_pos (F := F)
  have hl := u_le (F := F)
  have hq := u_sq (F := F)
  have ht := tiny_le (F := F)
  have ht0 := tiny_nonneg (F := F)
  have hb' : (1 : ℚ) ≤ b := by exact_mod_cast hb
  have hcb := cap_le (F := F)
  obtain ⟨c, hc1, hc2⟩ := val_c099 (F := F)
  have hn := val_ofNat (F := F) b hc
  have e1 := rnd_err (F := F) (b : ℚ)
  have n1 := rnd_nonneg (F := F) (a := (b : ℚ)) (by linarith)
  rw [abs_of_nonneg (by linarith : (0 : ℚ) ≤ b), abs_le] at e1
  rw [abs_le] at hc2
  have c0 : 0 ≤ c := by linarith
  have r1 : rnd F (b : ℚ) ≤ b * (1 + 5 / 4 * u F) := by nlinarith
  have p0 : 0 ≤ c * rnd F (b : ℚ) := mul_nonneg c0 n1
  have p1 : c * rnd F (b : ℚ) ≤ (99 / 100 + 9 / 4 * u F + 2 * u F * u F) * b := by
    calc c * rnd F (b : ℚ) ≤ (99 / 100 + u F) * (b * (1 + 5 / 4 * u F)) :=
          mul_le_mul (by linarith) r1 n1 (by linarith)
      _ ≤ _ := by nlinarith [mul_pos hu hu]
  have p2 : c * rnd F (b : ℚ) ≤ b := p1.trans (by nlinarith)
  have hv := val_mul hc1 hn (by rw [abs_of_nonneg p0]; linarith)
  have hF : binFactor F b = rnd F (c * rnd F (b : ℚ)) := by unfold binFactor; rw [hv]; rfl
  rw [hF]
  refine ⟨hv, rnd_nonneg p0, ?_⟩
  have e2 := rnd_err (F := F) (c * rnd F (b : ℚ))
  rw [abs_of_nonneg p0, abs_le] at e2
  have : u F * (c * rnd F (b : ℚ)) ≤ u F * b := mul_le_mul_of_nonneg_left p2 hu.le
  have : tiny F ≤ u F / 4 * b := by nlinarith
  nlinarith

/-- The bin coordinate of a rounded coordinate. -/
theorem bin_eq {b : Nat} (hb : 1 ≤ b) (hc : (b : ℚ) ≤ cap (F := F)) {W s i : ℚ} {x : F} (hx : val x = some (gOf F W s i))
    (h0 : 0 ≤ i) (h1 : i ≤ 1) (hn : 0 ≤ gOf F W s i) (hg : gOf F W s i ≤ i + 4 * u F * i + tiny F) :
    toUsize (mul (mul c099 (ofNat b)) x) = (params F b W s).toUsize (99 / 100 * (b : ℚ) * i) := by
  have hu := u_pos (F := F)
  have hl := u_le (F := F)
  have hq := u_sq (F := F)
  have ht := tiny_le (F := F)
  have ht0 := tiny_nonneg (F := F)
  have htc := tiny_cap (F := F)
  have hb' : (1 : ℚ) ≤ b := by exact_mod_cast hb
  have hcb := cap_le (F := F)
  obtain ⟨m1, m0, m2⟩ := binFactor_spec (F := F) hb hc
  set m := binFactor F b with hm
  set n := gOf F W s i with hnn
  have hbt : (b : ℚ) * tiny F ≤ 1 / 1000 := le_trans (by nlinarith) htc
  have hbi : 0 ≤ (b : ℚ) * i := by positivity
  have hbi1 : (b : ℚ) * i ≤ b := by nlinarith
  have p0 : 0 ≤ m * n := mul_nonneg m0 hn
  have p1 : m * n ≤ (99 / 100 + 9 * u F) * (b * i) + b * tiny F := by
    calc m * n ≤ ((99 / 100 + 4 * u F) * b) * (i + 4 * u F * i + tiny F) := mul_le_mul m2 hg hn (by positivity)
      _ = ((99 / 100 + 4 * u F) * (1 + 4 * u F)) * (b * i) + (99 / 100 + 4 * u F) * (b * tiny F) := by ring
      _ ≤ (99 / 100 + 9 * u F) * (b * i) + 1 * (b * tiny F) := by
        refine add_le_add (mul_le_mul_of_nonneg_right ?_ hbi) (mul_le_mul_of_nonneg_right ?_ (by positivity))
        · nlinarith
        · nlinarith
      _ = _ := by ring
  have p2 : m * n ≤ b := by nlinarith
  have hv := val_mul m1 hx (by rw [abs_of_nonneg p0]; linarith)
  have z0 := rnd_nonneg (F := F) p0
  have e2 := rnd_err (F := F) (m * n)
  rw [abs_of_nonneg p0, abs_le] at e2
  set z := rnd F (m * n) with hz
  have z1 : z ≤ (99 / 100 + 11 * u F) * (b * i) + 3 * (b * tiny F) := by
    have k1 : u F * (m * n) ≤ u F * ((99 / 100 + 9 * u F) * (b * i) + b * tiny F) := mul_le_mul_of_nonneg_left p1 hu.le
    have k2 : u F * (b * tiny F) ≤ b * tiny F := by
      have : 0 ≤ (b : ℚ) * tiny F := by positivity
      nlinarith
    have k3 : tiny F ≤ b * tiny F := by nlinarith
    have k4 : u F * (99 / 100 + 9 * u F) * (b * i) ≤ 2 * u F * (b * i) :=
      mul_le_mul_of_nonneg_right (by nlinarith) hbi
    nlinarith
  have hcap : z ≤ cap (F := F) := by nlinarith
  have hbin : binOf F b W s (99 / 100 * (b : ℚ) * i) = ⌊z⌋₊ := by
    unfold binOf
    rw [show 99 / 100 * (b : ℚ) * i / (99 / 100 * b) = i by field_simp]
  rw [toUsize_eq hv z0 hcap]
  show ⌊z⌋₊ = if (binOf F b W s (99 / 100 * (b : ℚ) * i) : ℚ) ≤ 201 / 200 * (99 / 100 * (b : ℚ) * i) then
    binOf F b W s (99 / 100 * (b : ℚ) * i) else 0
  rw [hbin, if_pos]
  by_cases hz1 : z < 1
  · rw [Nat.floor_eq_zero.2 hz1]
    have : (0 : ℚ) ≤ 201 / 200 * (99 / 100 * (b : ℚ) * i) := by positivity
    simpa using this
  · have hz1 := not_lt.1 hz1
    refine (Nat.floor_le z0).trans (z1.trans ?_)
    have : 99 / 100 ≤ (b : ℚ) * i := by nlinarith
    nlinarith

theorem countBins_eq (P : ExactParams ℚ) (bins : Nat) {vf : List (Vtx F)} {vk : List (Vtx ℚ)}
    (h : List.Forall₂ (fun v w => CDT.binIndex bins v = CDT.binIndex bins w) vf vk) (cnt : List Nat) :
    countBins bins vf cnt = countBins bins vk cnt := by
  induction h generalizing cnt with
  | nil => rfl
  | cons h1 _ ih => simp only [countBins, h1, ih]

theorem binSort_eq [IdCfg] (P : ExactParams ℚ) (bins : Nat) {vf : List (Vtx F)} {vk : List (Vtx ℚ)}
    (h : List.Forall₂ (fun v w => CDT.binIndex bins v = CDT.binIndex bins w) vf vk) : binSort bins vf = binSort bins vk := by
  unfold binSort
  rw [countBins_eq P bins h, h.length_eq]

/-! ### Normalization -/

theorem bboxLoop_val (P : ExactParams ℚ) {vs : List (Vtx F)} {V : List (Vtx ℚ)} (h : Vals vs V) (b : F × F × F × F)
    (c : ℚ × ℚ × ℚ × ℚ) (hb : val b.1 = some c.1 ∧ val b.2.1 = some c.2.1 ∧ val b.2.2.1 = some c.2.2.1 ∧
      val b.2.2.2 = some c.2.2.2) :
    val (bboxLoop vs b).1 = some (bboxLoop V c).1 ∧ val (bboxLoop vs b).2.1 = some (bboxLoop V c).2.1 ∧
    val (bboxLoop vs b).2.2.1 = some (bboxLoop V c).2.2.1 ∧ val (bboxLoop vs b).2.2.2 = some (bboxLoop V c).2.2.2 := by
  induction h generalizing b c with
  | nil => exact hb
  | @cons v w vs V hv _ ih =>
    obtain ⟨b1, b2, b3, b4⟩ := b
    obtain ⟨c1, c2, c3, c4⟩ := c
    obtain ⟨h1, h2, h3, h4⟩ := hb
    obtain ⟨hx, hy⟩ := hv
    simp only at h1 h2 h3 h4
    simp only [bboxLoop, lt_iff hx h1, lt_iff hy h2, lt_iff h3 hx, lt_iff h4 hy, exact_lt, decide_eq_true_eq]
    refine ih _ _ ⟨?_, ?_, ?_, ?_⟩ <;> simp only <;> split <;> assumption

theorem bbox_val (P : ExactParams ℚ) (hP : P.fmax = big (F := F)) {vs : List (Vtx F)} {V : List (Vtx ℚ)} (h : Vals vs V) :
    val (bbox vs).1 = some (bbox V).1 ∧ val (bbox vs).2.1 = some (bbox V).2.1 ∧
    val (bbox vs).2.2.1 = some (bbox V).2.2.1 ∧ val (bbox vs).2.2.2 = some (bbox V).2.2.2 := by
  refine bboxLoop_val P h _ _ ?_
  simp only [exact_fmax, exact_fmin, hP]
  exact ⟨val_fmax, val_fmax, val_fmin, val_fmin⟩

/-- Finite coordinates, not all equal, whose differences do not overflow. -/
structure Input (vs : List (Vtx F)) (V : List (Vtx ℚ)) (W : ℚ) : Prop where
  vals : Vals vs V
  range : ∀ v ∈ V, |v.x| ≤ big (F := F) ∧ |v.y| ≤ big (F := F)
  ext : Plane.Extent W V
  fits : W ≤ big (F := F)

theorem Input.distinct {vs : List (Vtx F)} {V : List (Vtx ℚ)} {W : ℚ} (h : Input vs V W) : ∃ a ∈ V, ∃ b ∈ V, a ≠ b := by
  obtain ⟨a, ha, b, hb, h1⟩ := h.ext.attained
  refine ⟨a, ha, b, hb, ?_⟩
  rintro rfl
  have := h.ext.pos
  simp at h1
  linarith

theorem scaleFactor_extent (P : ExactParams ℚ) {V : List (Vtx ℚ)} {W : ℚ} (hr : InRange V) (h : Plane.Extent W V) :
    scaleFactor V = W := by
  obtain ⟨a, ha, b, hb, h1⟩ := h.attained
  have hB := bbox_isBox hr (List.ne_nil_of_mem ha)
  obtain ⟨v0, m0, e0⟩ := hB.ax0
  obtain ⟨v1, m1, e1⟩ := hB.ax1
  obtain ⟨v2, m2, e2⟩ := hB.ay0
  obtain ⟨v3, m3, e3⟩ := hB.ay1
  rw [scaleFactor_eq]
  apply le_antisymm
  · rw [max_le_iff]
    constructor
    · rw [← e0, ← e1]; exact (le_abs_self _).trans (h.bound _ m1 _ m0).1
    · rw [← e2, ← e3]; exact (le_abs_self _).trans (h.bound _ m3 _ m2).2
  · rw [le_max_iff]
    rcases h1 with h1 | h1
    · left
      rw [← h1, abs_le]
      constructor <;> linarith [hB.x0 a ha, hB.x1 a ha, hB.x0 b hb, hB.x1 b hb]
    · right
      rw [← h1, abs_le]
      constructor <;> linarith [hB.y0 a ha, hB.y1 a ha, hB.y0 b hb, hB.y1 b hb]

theorem scale_near (P : ExactParams ℚ) (hP : P.fmax = big (F := F)) {vs : List (Vtx F)} {V : List (Vtx ℚ)} {W : ℚ}
    (h : Input vs V W) : val (scaleFactor vs) = some (scaleVal vs) ∧ |scaleVal vs - W| ≤ u F * W := by
  have hr : InRange V := by intro v hv; rw [hP]; exact h.range v hv
  have hS := scaleFactor_extent P hr h.ext
  obtain ⟨a, ha, _⟩ := h.ext.attained
  have hB := bbox_isBox hr (List.ne_nil_of_mem ha)
  obtain ⟨b1, b2, b3, b4⟩ := bbox_val P hP h.vals
  rw [scaleFactor_eq] at hS
  have hW := h.ext.pos
  have hu := u_pos (F := F)
  have x0 : 0 ≤ (bbox V).2.2.1 - (bbox V).1 := by linarith [hB.x0 a ha, hB.x1 a ha]
  have y0 : 0 ≤ (bbox V).2.2.2 - (bbox V).2.1 := by linarith [hB.y0 a ha, hB.y1 a ha]
  have x1 : (bbox V).2.2.1 - (bbox V).1 ≤ W := by rw [← hS]; exact le_max_left _ _
  have y1 : (bbox V).2.2.2 - (bbox V).2.1 ≤ W := by rw [← hS]; exact le_max_right _ _
  have vx := val_sub b3 b1 (by rw [abs_of_nonneg x0]; exact x1.trans h.fits)
  have vy := val_sub b4 b2 (by rw [abs_of_nonneg y0]; exact y1.trans h.fits)
  have ex := sub_err b3 b1
  have ey := sub_err b4 b2
  have hv : val (scaleFactor vs) = some (Max.max (rnd F ((bbox V).2.2.1 - (bbox V).1)) (rnd F ((bbox V).2.2.2 - (bbox V).2.1))) :=
    val_max vx vy
  have hs : scaleVal vs = Max.max (rnd F ((bbox V).2.2.1 - (bbox V).1)) (rnd F ((bbox V).2.2.2 - (bbox V).2.1)) := by
    unfold scaleVal; rw [hv]; rfl
  rw [hs]
  refine ⟨hv, ?_⟩
  rw [← hS]
  refine (abs_max_sub_max_le_max _ _ _ _).trans ?_
  rw [max_le_iff, hS]
  rw [abs_of_nonneg x0] at ex
  rw [abs_of_nonneg y0] at ey
  exact ⟨ex.trans (mul_le_mul_of_nonneg_left x1 hu.le), ey.trans (mul_le_mul_of_nonneg_left y1 hu.le)⟩

/-- One normalized coordinate. -/
theorem coord_near {W s d : ℚ} {x m c : F} {a b : ℚ} (hx : val x = some a) (hm : val m = some b) (hd : a - b = d)
    (h0 : 0 ≤ d) (h1 : d ≤ W) (hW : 0 < W) (hf : W ≤ big (F := F)) (hc : val c = some s) (hs : |s - W| ≤ u F * W) :
    val (div (sub x m) c) = some (gOf F W s (d / W)) ∧ 0 ≤ gOf F W s (d / W) ∧
      |gOf F W s (d / W) - d / W| ≤ 16 / 5 * u F * (d / W) + tiny F := by
  have hu := u_pos (F := F)
  have hl := u_le (F := F)
  have hq := u_sq (F := F)
  have hbg := big_ge (F := F)
  have v1 := val_sub hx hm (by rw [hd, abs_of_nonneg h0]; linarith)
  have e1 := sub_err hx hm
  rw [hd] at v1 e1
  rw [abs_of_nonneg h0] at e1
  have r0 := rnd_nonneg (F := F) h0
  rw [abs_le] at hs
  have s0 : (1 - u F) * W ≤ s := by nlinarith
  have spos : 0 < s := lt_of_lt_of_le (by nlinarith) s0
  set r := rnd F d with hr
  set i := d / W with hi
  have i0 : 0 ≤ i := by positivity
  have i1 : i ≤ 1 := (div_le_one hW).2 h1
  have hiW : i * W = d := by rw [hi]; field_simp
  have hgd : gOf F W s i = rnd F (r / s) := by unfold gOf; rw [hiW]
  have e1' := abs_le.1 e1
  have key : |r / s - i| ≤ 21 / 10 * u F * i := by
    have : r / s - i = (r - i * s) / s := by field_simp
    rw [this, abs_div, abs_of_pos spos, div_le_iff₀ spos]
    have k1 : |r - i * s| ≤ 2 * u F * d := by
      have k2 : r - i * s = (r - d) - i * (s - W) := by rw [← hiW]; ring
      rw [k2]
      refine (abs_sub _ _).trans ?_
      rw [abs_mul, abs_of_nonneg i0]
      have : i * |s - W| ≤ i * (u F * W) := mul_le_mul_of_nonneg_left (abs_le.2 hs) i0
      have : i * (u F * W) = u F * d := by rw [← hiW]; ring
      linarith
    refine k1.trans ?_
    have : 21 / 10 * u F * i * ((1 - u F) * W) ≤ 21 / 10 * u F * i * s := mul_le_mul_of_nonneg_left s0 (by positivity)
    refine le_trans ?_ this
    have : 21 / 10 * u F * i * ((1 - u F) * W) = 21 / 10 * (1 - u F) * (u F * d) := by rw [← hiW]; ring
    rw [this]
    have : 0 ≤ u F * d := by positivity
    nlinarith
  have q0 : 0 ≤ r / s := div_nonneg r0 spos.le
  have key' := abs_le.1 key
  have q1 : r / s ≤ 101 / 100 * i := by nlinarith
  have v2 := val_div v1 hc spos.ne' (by rw [abs_of_nonneg q0]; linarith)
  rw [hgd]
  refine ⟨v2, rnd_nonneg q0, ?_⟩
  have e2 := rnd_err (F := F) (r / s)
  rw [abs_of_nonneg q0] at e2
  have := abs_add_le (rnd F (r / s) - r / s) (r / s - i)
  rw [sub_add_sub_cancel] at this
  nlinarith

theorem forall₂_map {α β γ δ : Type} {R : α → β → Prop} {S : γ → δ → Prop} {f : α → γ} {g : β → δ} {l : List α}
    {m : List β} (h : List.Forall₂ R l m) (hRS : ∀ a b, b ∈ m → R a b → S (f a) (g b)) :
    List.Forall₂ S (l.map f) (m.map g) := by
  induction h with
  | nil => exact .nil
  | cons h1 _ ih => exact .cons (hRS _ _ (by simp) h1) (ih fun a b hb => hRS a b (by simp [hb]))

/-- The normalized vertices: rounded coordinates close to the exact ones, with the same bins. -/
theorem normalize_near {vs : List (Vtx F)} {V : List (Vtx ℚ)} {W : ℚ} {b : Nat} (h : Input vs V W) (hb : 1 ≤ b)
    (hc : (b : ℚ) ≤ cap (F := F)) :
    letI := params F b W (scaleVal vs)
    List.Forall₂ (fun v w => Cv (gOf F W (scaleVal vs)) v w ∧ binIndex b v = binIndex b w) (normalizeVerts vs)
      (normalizeVerts V) := by
  letI P := params F b W (scaleVal vs)
  have hP : P.fmax = big (F := F) := rfl
  have hr : InRange V := h.range
  have hS := scaleFactor_extent P hr h.ext
  obtain ⟨a, ha, _⟩ := h.ext.attained
  have hB := bbox_isBox hr (List.ne_nil_of_mem ha)
  obtain ⟨b1, b2, _, _⟩ := bbox_val P hP h.vals
  obtain ⟨sv, sn⟩ := scale_near P hP h
  have hu := u_pos (F := F)
  have htl := tiny_le (F := F)
  rw [normalizeVerts_eq, hS]
  unfold normalizeVerts
  simp only
  refine forall₂_map h.vals fun v w hw hvw => ?_
  obtain ⟨hx, hy⟩ := hvw
  have x1 : w.x - (bbox V).1 ≤ W := by
    have := hB.x1 w hw
    rw [← hS, scaleFactor_eq]; exact le_trans (by linarith) (le_max_left _ _)
  have y1 : w.y - (bbox V).2.1 ≤ W := by
    have := hB.y1 w hw
    rw [← hS, scaleFactor_eq]; exact le_trans (by linarith) (le_max_right _ _)
  have x0 : 0 ≤ w.x - (bbox V).1 := by linarith [hB.x0 w hw]
  have y0 : 0 ≤ w.y - (bbox V).2.1 := by linarith [hB.y0 w hw]
  obtain ⟨cx1, cx2, cx3⟩ := coord_near hx b1 rfl x0 x1 h.ext.pos h.fits sv sn
  obtain ⟨cy1, cy2, cy3⟩ := coord_near hy b2 rfl y0 y1 h.ext.pos h.fits sv sn
  have ix0 : 0 ≤ (w.x - (bbox V).1) / W := div_nonneg x0 h.ext.pos.le
  have iy0 : 0 ≤ (w.y - (bbox V).2.1) / W := div_nonneg y0 h.ext.pos.le
  have ix1 : (w.x - (bbox V).1) / W ≤ 1 := (div_le_one h.ext.pos).2 x1
  have iy1 : (w.y - (bbox V).2.1) / W ≤ 1 := (div_le_one h.ext.pos).2 y1
  refine ⟨⟨⟨cx1, ix0, ix1, cx3.trans (by nlinarith)⟩, ⟨cy1, iy0, iy1, cy3.trans (by nlinarith)⟩⟩, ?_⟩
  have gx := (abs_le.1 cx3).2
  have gy := (abs_le.1 cy3).2
  have hX := bin_eq hb hc cx1 ix0 ix1 cx2 (by nlinarith)
  have hY := bin_eq hb hc cy1 iy0 iy1 cy2 (by nlinarith)
  unfold binIndex
  simp only
  rw [hX, hY]
  rfl

theorem normalizeVerts_length' {G : Type} [FloatOps G] (vs : List (Vtx G)) : (normalizeVerts vs).length = vs.length := by
  simp [normalizeVerts]

/-- The spatial sort of normalized vertices succeeds. -/
theorem binSort_ok [IdCfg] {vs : List (Vtx F)} {V : List (Vtx ℚ)} {W : ℚ} {b : Nat} (h : Input vs V W) (hb : 1 ≤ b)
    (hc : (b : ℚ) ≤ cap (F := F)) (hn : vs.length ≤ IdCfg.maxId + 1) :
    ∃ out, binSort b (normalizeVerts vs) = .ok out ∧ out.Perm (List.range vs.length) := by
  let P := params F b W (scaleVal vs)
  have hnn := normalize_near h hb hc
  rw [binSort_eq P b (hnn.imp fun _ _ h => h.2)]
  obtain ⟨p, hp, q, hq, hpq⟩ := h.distinct
  have hr : InRange V := h.range
  have hu := normalized_unit hr hp hq hpq
  have hl : (normalizeVerts V).length = vs.length := by rw [← hnn.length_eq, normalizeVerts_length']
  obtain ⟨r, hr⟩ := countBins_ok (bins := b) (vs := normalizeVerts V) (cnt := List.replicate (b * b) 0)
    (fun v hv => by simpa using binIndex_ok hb (hu v hv))
  rw [← hl] at hn ⊢
  exact binSort_of_bins hn hr

/-! ### Predicates -/

theorem pair_of_forall₂ {R : Vtx F → Vtx ℚ → Prop} {l : List (Vtx F)} {m : List (Vtx ℚ)} (h : List.Forall₂ R l m)
    {a : Vtx F} {a' : Vtx ℚ} (hp : Pair l m a a') : R a a' ∧ a' ∈ m := by
  obtain ⟨i, h1, h2⟩ := hp
  refine ⟨?_, List.mem_of_getElem? h2⟩
  rw [List.getElem?_eq_some_iff] at h1 h2
  obtain ⟨k1, rfl⟩ := h1
  obtain ⟨k2, rfl⟩ := h2
  exact h.get k1 k2

theorem crS_det (a b c p : Vtx ℚ) : crS a b c p = Plane.circleDet b a c p := by
  simp only [crS, Plane.circleDet]; ring

/-- Robust input, stated for the normalized vertices. -/
structure NRobust (F : Type) [FloatOps F] [Rounded F] (g : ℚ → ℚ) (N : List (Vtx ℚ)) : Prop where
  x : ∀ a ∈ N, ∀ b ∈ N, a.x - b.x = 0 ∨ 32 * u F ≤ |a.x - b.x|
  y : ∀ a ∈ N, ∀ b ∈ N, a.y - b.y = 0 ∨ 32 * u F ≤ |a.y - b.y|
  rest : NGrid F g N ∨
    ((∀ a ∈ N, ∀ b ∈ N, ∀ p ∈ N, b = p ∨ ((p.y - a.y) * (b.x - a.x) = 0 ∧ (p.x - a.x) * (b.y - a.y) = 0) ∨
      64 * u F ≤ |(p.y - a.y) * (b.x - a.x) - (p.x - a.x) * (b.y - a.y)|) ∧
    ∀ a ∈ N, ∀ b ∈ N, ∀ c ∈ N, ∀ p ∈ N, 0 < HP.o (HP.ofVtx b) (HP.ofVtx a) (HP.ofVtx c) →
      0 < HP.o (HP.ofVtx p) (HP.ofVtx a) (HP.ofVtx b) → 512 * u F ≤ |crS a b c p|)

/-- The scale factor of an input on a grid is not rounded. -/
theorem scale_exact (P : ExactParams ℚ) (hP : P.fmax = big (F := F)) {vs : List (Vtx F)} {V : List (Vtx ℚ)} {W : ℚ}
    (h : Input vs V W) (hex : ∀ a ∈ V, ∀ b ∈ V, rnd F (a.x - b.x) = a.x - b.x ∧ rnd F (a.y - b.y) = a.y - b.y) :
    scaleVal vs = W := by
  have hr : InRange V := by intro v hv; rw [hP]; exact h.range v hv
  have hS := scaleFactor_extent P hr h.ext
  obtain ⟨a, ha, _⟩ := h.ext.attained
  have hB := bbox_isBox hr (List.ne_nil_of_mem ha)
  obtain ⟨b1, b2, b3, b4⟩ := bbox_val P hP h.vals
  rw [scaleFactor_eq] at hS
  obtain ⟨v0, m0, e0⟩ := hB.ax0
  obtain ⟨v1, m1, e1⟩ := hB.ax1
  obtain ⟨v2, m2, e2⟩ := hB.ay0
  obtain ⟨v3, m3, e3⟩ := hB.ay1
  have x0 : 0 ≤ (bbox V).2.2.1 - (bbox V).1 := by linarith [hB.x0 a ha, hB.x1 a ha]
  have y0 : 0 ≤ (bbox V).2.2.2 - (bbox V).2.1 := by linarith [hB.y0 a ha, hB.y1 a ha]
  have x1 : (bbox V).2.2.1 - (bbox V).1 ≤ W := by rw [← hS]; exact le_max_left _ _
  have y1 : (bbox V).2.2.2 - (bbox V).2.1 ≤ W := by rw [← hS]; exact le_max_right _ _
  have vx := val_sub b3 b1 (by rw [abs_of_nonneg x0]; exact x1.trans h.fits)
  have vy := val_sub b4 b2 (by rw [abs_of_nonneg y0]; exact y1.trans h.fits)
  have hv : val (scaleFactor vs) = some (Max.max (rnd F ((bbox V).2.2.1 - (bbox V).1)) (rnd F ((bbox V).2.2.2 - (bbox V).2.1))) :=
    val_max vx vy
  have rx := (hex v1 m1 v0 m0).1
  have ry := (hex v3 m3 v2 m2).2
  rw [e0, e1] at rx
  rw [e2, e3] at ry
  unfold scaleVal
  rw [hv, rx, ry, hS]
  rfl

theorem ngrid (P : ExactParams ℚ) (hP : P.fmax = big (F := F)) {vs : List (Vtx F)} {V : List (Vtx ℚ)} {W : ℚ}
    (h : Input vs V W) (hg : Plane.OnGrid (u F) (tiny F) W V) : NGrid F (gOf F W (scaleVal vs)) (normalizeVerts V) := by
  obtain ⟨k, s, hW, hk, hs, hV⟩ := hg
  have hr : InRange V := by intro v hv; rw [hP]; exact h.range v hv
  have hS := scaleFactor_extent P hr h.ext
  have hWp := h.ext.pos
  have s0 : (0 : ℚ) < 2 ^ s := by positivity
  have k0 : (0 : ℚ) < 2 ^ k := by positivity
  have hu := u_pos (F := F)
  have k1 := (pow_bounds hk).1
  -- differences are multiples of the step, not larger than the extent
  have key : ∀ {p q : ℚ} {i j : ℤ}, p = i * 2 ^ s → q = j * 2 ^ s → |p - q| ≤ W → rnd F (p - q) = p - q := by
    intro p q i j hp hq hle
    have e : p - q = ((i - j : ℤ) : ℚ) * 2 ^ s := by rw [hp, hq]; push_cast; ring
    rw [e]
    refine rnd_dyadic _ _ ?_ hs
    rw [e, hW, abs_mul, abs_of_pos s0] at hle
    have h1 : |((i - j : ℤ) : ℚ)| ≤ 2 ^ k := le_of_mul_le_mul_right hle s0
    have : |((i - j : ℤ) : ℚ)| * u F ≤ 2 ^ k * u F := mul_le_mul_of_nonneg_right h1 hu.le
    have : 0 < 2 ^ k * u F := by positivity
    linarith
  have hsc : scaleVal vs = W := by
    refine scale_exact P hP h fun a ha b hb => ?_
    obtain ⟨i, j, hi, hj⟩ := hV a ha
    obtain ⟨i', j', hi', hj'⟩ := hV b hb
    exact ⟨key hi hi' (h.ext.bound a ha b hb).1, key hj hj' (h.ext.bound a ha b hb).2⟩
  obtain ⟨a, ha, _⟩ := h.ext.attained
  have hB := bbox_isBox hr (List.ne_nil_of_mem ha)
  -- one coordinate
  have coord : ∀ {p q : ℚ} {i j : ℤ}, p = i * 2 ^ s → q = j * 2 ^ s → |p - q| ≤ W →
      (∃ z : ℤ, (p - q) / W * 2 ^ k = z) ∧ gOf F W (scaleVal vs) ((p - q) / W) = (p - q) / W := by
    intro p q i j hp hq hle
    have hz : (p - q) / W * 2 ^ k = ((i - j : ℤ) : ℚ) := by
      rw [hp, hq, hW]; push_cast; field_simp
    refine ⟨⟨_, hz⟩, ?_⟩
    unfold gOf
    rw [hsc, div_mul_cancel₀ _ hWp.ne', key hp hq hle]
    have k2 : 0 < 2 ^ k * u F := by positivity
    refine rnd_exact (B := 1) ⟨_, hz⟩ ?_ le_rfl (by linarith)
    rw [abs_div, abs_of_pos hWp]
    exact div_le_one_of_le₀ hle hWp.le
  refine ⟨k, hk, ?_⟩
  rw [normalizeVerts_eq, hS]
  simp only [List.forall_mem_map]
  intro v hv
  obtain ⟨v0, m0, e0⟩ := hB.ax0
  obtain ⟨v2, m2, e2⟩ := hB.ay0
  obtain ⟨i, j, hi, hj⟩ := hV v hv
  obtain ⟨i0, -, hi0, -⟩ := hV v0 m0
  obtain ⟨-, j2, -, hj2⟩ := hV v2 m2
  rw [← e0, ← e2]
  exact ⟨coord hi hi0 (h.ext.bound v hv v0 m0).1, coord hj hj2 (h.ext.bound v hv v2 m2).2⟩

theorem nrobust_of_robust (P : ExactParams ℚ) {V : List (Vtx ℚ)} {W : ℚ} (g : ℚ → ℚ) (hr : InRange V)
    (h : Plane.Robust (u F) W V) : NRobust F g (normalizeVerts V) := by
  have hS := scaleFactor_extent P hr h.toExtent
  have hW := h.pos
  have hW' : W ≠ 0 := hW.ne'
  rw [normalizeVerts_eq, hS]
  generalize (bbox V).1 = x0
  generalize (bbox V).2.1 = y0
  have dx : ∀ a b t : ℚ, (a - t) / W - (b - t) / W = (a - b) / W := by intro a b t; ring
  have scale : ∀ {k q : ℚ} (n : Nat), k * W ^ n ≤ |q| → k ≤ |q / W ^ n| := by
    intro k q n hk
    rw [abs_div, abs_of_pos (pow_pos hW n), le_div_iff₀ (pow_pos hW n)]
    exact hk
  refine ⟨?_, ?_, .inr ⟨?_, ?_⟩⟩ <;> simp only [List.forall_mem_map, dx]
  · intro a ha b hb
    rcases h.x a ha b hb with h1 | h1
    · left; rw [h1, sub_self, zero_div]
    · right; simpa using scale (k := 32 * u F) 1 (by simpa using h1)
  · intro a ha b hb
    rcases h.y a ha b hb with h1 | h1
    · left; rw [h1, sub_self, zero_div]
    · right; simpa using scale (k := 32 * u F) 1 (by simpa using h1)
  · intro a ha b hb p hp
    rcases h.turn a ha b hb p hp with rfl | ⟨h1, h2⟩ | h1
    · exact .inl rfl
    · right
      left
      constructor
      · rw [div_mul_div_comm, mul_comm (p.y - a.y), h1, zero_div]
      · rw [div_mul_div_comm, h2, zero_div]
    · right
      right
      have e : (p.y - a.y) / W * ((b.x - a.x) / W) - (p.x - a.x) / W * ((b.y - a.y) / W) =
          Plane.area2 a b p / W ^ 2 := by
        unfold Plane.area2; field_simp; try ring
      rw [e]
      exact scale 2 h1
  · intro a ha b hb c hc p hp h1 h2
    have W2 : (0 : ℚ) < W ^ 2 := by positivity
    have e1 : HP.o (HP.ofVtx (⟨(b.x - x0) / W, (b.y - y0) / W⟩ : Vtx ℚ)) (HP.ofVtx ⟨(a.x - x0) / W, (a.y - y0) / W⟩)
        (HP.ofVtx ⟨(c.x - x0) / W, (c.y - y0) / W⟩) = -Plane.area2 b a c / W ^ 2 := by
      simp only [HP.o, HP.ofVtx]; unfold Plane.area2; field_simp; ring
    have e2 : HP.o (HP.ofVtx (⟨(p.x - x0) / W, (p.y - y0) / W⟩ : Vtx ℚ)) (HP.ofVtx ⟨(a.x - x0) / W, (a.y - y0) / W⟩)
        (HP.ofVtx ⟨(b.x - x0) / W, (b.y - y0) / W⟩) = -Plane.area2 a b p / W ^ 2 := by
      simp only [HP.o, HP.ofVtx]; unfold Plane.area2; field_simp; ring
    rw [e1] at h1
    rw [e2] at h2
    have c1 : Plane.Clockwise b a c := by
      have := (div_pos_iff_of_pos_right W2).1 h1
      unfold Plane.Clockwise; linarith
    have c2 : Plane.Clockwise a b p := by
      have := (div_pos_iff_of_pos_right W2).1 h2
      unfold Plane.Clockwise; linarith
    have e3 : crS (⟨(a.x - x0) / W, (a.y - y0) / W⟩ : Vtx ℚ) ⟨(b.x - x0) / W, (b.y - y0) / W⟩
        ⟨(c.x - x0) / W, (c.y - y0) / W⟩ ⟨(p.x - x0) / W, (p.y - y0) / W⟩ = Plane.circleDet b a c p / W ^ 4 := by
      rw [← crS_det]; unfold crS; simp only [dx]; field_simp
    rw [e3]
    exact scale 4 (h.circle b hb a ha c hc p hp c1 c2)

theorem nrobust (P : ExactParams ℚ) (hP : P.fmax = big (F := F)) {vs : List (Vtx F)} {V : List (Vtx ℚ)} {W : ℚ}
    (h : Input vs V W) (hg : Plane.Robust (u F) W V ∨ Plane.OnGrid (u F) (tiny F) W V) :
    NRobust F (gOf F W (scaleVal vs)) (normalizeVerts V) := by
  rcases hg with hg | hg
  · exact nrobust_of_robust P _ (by intro v hv; rw [hP]; exact h.range v hv) hg
  · have hG := ngrid P hP h hg
    exact ⟨fun a ha b hb => (hG.sep.1 a ha b hb).1, fun a ha b hb => (hG.sep.1 a ha b hb).2, .inl hG⟩

theorem NRobust.sep (P : ExactParams ℚ) {N : List (Vtx ℚ)} {g : ℚ → ℚ} (hE : P.eps = 2 * u F) (h : NRobust F g N) :
    Sep N := by
  have hu := u_pos (F := F)
  refine ⟨?_, ?_, ?_⟩
  · intro a ha b hb hlt
    rw [hE] at hlt
    rcases h.x a ha b hb with h1 | h1
    · exact sub_eq_zero.1 h1
    · linarith
  · intro a ha b hb hlt
    rw [hE] at hlt
    rcases h.y a ha b hb with h1 | h1
    · exact sub_eq_zero.1 h1
    · linarith
  · intro a ha b hb c hc hlt
    rw [hE] at hlt
    rcases h.rest with h1 | ⟨h1, -⟩
    · exact h1.sep.2 a ha b hb c hc hlt
    rcases h1 a ha c hc b hb with rfl | ⟨h1, h2⟩ | h1
    · ring
    · rw [h1, h2, sub_zero]
    · linarith

theorem agree [IdCfg] (P : ExactParams ℚ) (hE : P.eps = 2 * u F) {vf : List (Vtx F)} {N : List (Vtx ℚ)} {g : ℚ → ℚ}
    (hg : Grid F g) (h : List.Forall₂ (fun v w => Cv g v w) vf N) (hr : NRobust F g N) : Agree vf N := by
  have hu := u_pos (F := F)
  have side : ∀ a a' b b' p p', Pair vf N a a' → Pair vf N b b' → Pair vf N p p' →
      Sg (edgeSide (a, b) p) (edgeSide (a', b') p') := by
    intro a a' b b' p p' ha hb hp
    obtain ⟨a1, a2⟩ := pair_of_forall₂ h ha
    obtain ⟨b1, b2⟩ := pair_of_forall₂ h hb
    obtain ⟨p1, p2⟩ := pair_of_forall₂ h hp
    rcases hr.rest with hG | ⟨ht, -⟩
    · exact hG.side a1 b1 p1 a2 b2 p2
    refine side_sg hg a1 b1 p1 ?_
    rcases ht a' a2 b' b2 p' p2 with h1 | h1 | h1
    · exact .inl h1
    · exact .inr (.inl h1)
    · exact .inr (.inr (by linarith))
  have semi : ∀ a a' p p' k, Pair vf N a a' → Pair vf N p p' →
      Sg (edgeSide (semiInf a k) p) (edgeSide (semiInf a' k) p') := by
    intro a a' p p' k ha hp
    obtain ⟨a1, a2⟩ := pair_of_forall₂ h ha
    obtain ⟨p1, p2⟩ := pair_of_forall₂ h hp
    exact semi_sg hg a1 p1 k (hr.x p' p2 a' a2) (hr.y p' p2 a' a2)
  refine ⟨h.length_eq, ?_, ?_, ?_, ?_, ?_, ?_, ?_, ?_⟩
  · exact fun a a' b b' p p' ha hb hp => (side a a' b b' p p' ha hb hp).onLeft
  · exact fun a a' b b' p p' ha hb hp => (side a a' b b' p p' ha hb hp).nearEdge hE
  · exact fun a a' b b' p p' ha hb hp => (side a a' b b' p p' ha hb hp).le_neg_eps hE
  · exact fun a a' p p' k ha hp => (semi a a' p p' k ha hp).onLeft
  · exact fun a a' p p' k ha hp => (semi a a' p p' k ha hp).onRight
  · exact fun a a' p p' k ha hp => (semi a a' p p' k ha hp).nearEdge hE
  · intro a a' b b' ha hb
    obtain ⟨a1, a2⟩ := pair_of_forall₂ h ha
    obtain ⟨b1, b2⟩ := pair_of_forall₂ h hb
    refine close_eq hE hg a1 b1 ?_ ?_
    · rcases hr.x a' a2 b' b2 with h1 | h1
      · exact .inl h1
      · exact .inr (by linarith)
    · rcases hr.y a' a2 b' b2 with h1 | h1
      · exact .inl h1
      · exact .inr (by linarith)
  · intro a a' b b' c c' p p' ha hb hc hp h1 h2
    obtain ⟨a1, a2⟩ := pair_of_forall₂ h ha
    obtain ⟨b1, b2⟩ := pair_of_forall₂ h hb
    obtain ⟨c1, c2⟩ := pair_of_forall₂ h hc
    obtain ⟨p1, p2⟩ := pair_of_forall₂ h hp
    rcases hr.rest with hG | ⟨-, hc⟩
    · exact hG.circ a1 b1 c1 p1 a2 b2 c2 p2
    · exact circ_eq hg a1 b1 c1 p1 h1 h2 (hc a' a2 b' b2 c' c2 p' p2 h1 h2)

/-! ### The run -/

/-- Hypotheses of the theorems about rounded runs: finite coordinates whose differences do not overflow, robust values
or coordinates on a grid,
a number of bins that fits, ids that fit, enough fuel. -/
structure RGood [IdCfg] (fuel : Nat) (bins : Nat → Nat) (vs : List (Vtx F)) (V : List (Vtx ℚ)) (W : ℚ) : Prop extends
    Input vs V W where
  robust : Plane.Robust (u F) W V ∨ Plane.OnGrid (u F) (tiny F) W V
  row : 1 ≤ bins vs.length
  cap : (bins vs.length : ℚ) ≤ Rounded.cap (F := F)
  ids : 2 * vs.length + 2 ≤ NONE
  fuel : 6 * vs.length + 10 ≤ fuel

variable [IdCfg] {fuel : Nat} {bins : Nat → Nat} {vs : List (Vtx F)} {V : List (Vtx ℚ)} {W : ℚ}

theorem RGood.len (h : RGood fuel bins vs V W) : V.length = vs.length := h.vals.length_eq.symm

theorem RGood.good (h : RGood fuel bins vs V W) :
    letI := params F (bins vs.length) W (scaleVal vs)
    Good fuel bins V := by
  let P := params F (bins vs.length) W (scaleVal vs)
  have hr : InRange V := h.range
  refine ⟨hr, h.distinct, ?_, ?_, ?_, ?_⟩
  · rw [h.len]; exact h.row
  · rw [h.len]; exact h.ids
  · exact (nrobust P rfl h.toInput h.robust).sep P rfl
  · rw [h.len]; exact h.fuel

theorem RGood.agree (h : RGood fuel bins vs V W) :
    letI := params F (bins vs.length) W (scaleVal vs)
    Agree (normalizeVerts vs) (normalizeVerts V) := by
  let P := params F (bins vs.length) W (scaleVal vs)
  have hr : InRange V := h.range
  exact Rounded.agree P rfl ⟨fun i => rnd_idem _⟩ ((normalize_near h.toInput h.row h.cap).imp fun _ _ h => h.1)
    (nrobust P rfl h.toInput h.robust)

/-- The rounded run is the exact run. -/
theorem RGood.wrap (h : RGood fuel bins vs V W) (m : Option (List Nat)) (hm : MergeInit vs.length m) :
    letI := params F (bins vs.length) W (scaleVal vs)
    wrapAndTriangulate fuel (bins vs.length) (normalizeVerts vs) m =
      wrapAndTriangulate fuel (bins vs.length) (normalizeVerts V) m := by
  let P := params F (bins vs.length) W (scaleVal vs)
  have hG := h.good
  obtain ⟨p, hp, q, hq, hpq⟩ := h.distinct
  have hl : (normalizeVerts V).length = vs.length := by rw [normalizeVerts_length', h.len]
  refine h.agree.wrap hG.ne hG.sep (normalized_unit hG.range hp hq hpq) h.row ?_ ?_ ?_
    (binSort_eq P _ ((normalize_near h.toInput h.row h.cap).imp fun _ _ h => h.2))
  · rw [hl]; exact h.ids
  · rw [hl]; exact h.fuel
  · rw [hl]; exact hm

theorem RGood.run (h : RGood fuel bins vs V W) :
    letI := params F (bins vs.length) W (scaleVal vs)
    triangulation2d fuel bins vs = triangulation2d fuel bins V := by
  let P := params F (bins vs.length) W (scaleVal vs)
  unfold triangulation2d
  rw [h.len]
  simp only
  rw [h.wrap none (mergeInit_none _)]

end Rounded
end CDT

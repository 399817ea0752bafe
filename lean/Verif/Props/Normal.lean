import Verif.Props.Grid
import Verif.Props.Ieee

/-!
# C49: collinear input; C50: rounding error of the normalization
-/

set_option linter.unusedSectionVars false

namespace CDT
open Plane

/-- All vertices are on a line. -/
def AllCollinear {K : Type} [Field K] (vs : List (Vtx K)) : Prop := ∀ a ∈ vs, ∀ b ∈ vs, ∀ c ∈ vs, area2 a b c = 0

section
variable {K : Type} [Field K] [LinearOrder K] [IsStrictOrderedRing K]

theorem AllCollinear.nil {vs : List (Vtx K)} (h : AllCollinear vs) {out : List Out}
    (ho : ∀ a b c, (a, b, c) ∈ out → ∃ A B C, vs[a]? = some A ∧ vs[b]? = some B ∧ vs[c]? = some C ∧ Clockwise A B C) : out = [] := by
  rcases out with _ | ⟨⟨a, b, c⟩, rest⟩
  · rfl
  · exfalso
    obtain ⟨A, B, C, hA, hB, hC, hcw⟩ := ho a b c (by simp)
    unfold Clockwise at hcw
    rw [h A (List.mem_of_getElem? hA) B (List.mem_of_getElem? hB) C (List.mem_of_getElem? hC)] at hcw
    exact lt_irrefl _ hcw

variable [ExactParams K] [IdCfg]

/-- **C49** (exact arithmetic): collinear vertices give no triangle, with or without constraints. -/
theorem C49_collinear_partial (fuel : Nat) (bins : Nat → Nat) (vs : List (Vtx K)) (h : Good fuel bins vs) (hc : AllCollinear vs) :
    (∀ out, triangulation2d fuel bins vs = .ok out → out = []) ∧
    (∀ es out, constrained2d fuel bins vs es = .ok out → out = []) :=
  ⟨fun out ho => hc.nil (C03_clockwise fuel bins vs h out ho), fun es out ho => hc.nil (C30_output_clockwise fuel bins vs h es out ho)⟩

end

namespace Rounded
variable {F : Type} [FloatOps F] [Rounded F]

/-- Smallest coordinates. -/
structure Lowest (x y : ℚ) (V : List (Vtx ℚ)) : Prop where
  x_le : ∀ v ∈ V, x ≤ v.x
  y_le : ∀ v ∈ V, y ≤ v.y
  x_mem : ∃ v ∈ V, v.x = x
  y_mem : ∃ v ∈ V, v.y = y

/-- A computed coordinate is finite, nonnegative, and its error relative to the exact one is at most 3.2 unit roundoffs, up to
an underflow. -/
def CoordNear (c : F) (e : ℚ) : Prop := ∃ q, val c = some q ∧ 0 ≤ q ∧ |q - e| ≤ 16 / 5 * u F * e + tiny F
end Rounded

section
open Rounded
variable {F : Type} [FloatOps F] [Rounded F]

/-- **C49** in rounded arithmetic. -/
theorem C49_rounded_partial [IdCfg] {fuel : Nat} {bins : Nat → Nat} {vs : List (Vtx F)} {V : List (Vtx ℚ)} {W : ℚ} (hc : AllCollinear V) :
    (RGood fuel bins vs V W → ∀ out, triangulation2d fuel bins vs = .ok out → out = []) ∧
    (RGoodC fuel bins vs V W → ∀ es out, constrained2d fuel bins vs es = .ok out → out = []) :=
  ⟨fun h out ho => hc.nil (C03_rounded h out ho), fun h es out ho => hc.nil (C30_rounded_output h es out ho).1⟩

/-- **C50**: in every correctly rounded arithmetic and for every input whose extent `W` does not overflow, each normalized
coordinate is within 3.2 unit roundoffs (relative) of `(coordinate - smallest coordinate) / W`. -/
theorem C50_normalize {vs : List (Vtx F)} {V : List (Vtx ℚ)} {W : ℚ} (h : Input vs V W) : ∃ x0 y0 : ℚ, Lowest x0 y0 V ∧
    List.Forall₂ (fun n v => CoordNear n.x ((v.x - x0) / W) ∧ CoordNear n.y ((v.y - y0) / W)) (normalizeVerts vs) V := by
  let P := params F 1 W (scaleVal vs)
  have hP : P.fmax = big (F := F) := rfl
  have hr : InRange V := h.range
  have hS := scaleFactor_extent P hr h.ext
  obtain ⟨a, ha, _⟩ := h.ext.attained
  have hB := bbox_isBox hr (List.ne_nil_of_mem ha)
  obtain ⟨b1, b2, _, _⟩ := bbox_val P hP h.vals
  obtain ⟨sv, sn⟩ := scale_near P hP h
  refine ⟨_, _, ⟨hB.x0, hB.y0, hB.ax0, hB.ay0⟩, ?_⟩
  unfold normalizeVerts
  simp only
  rw [List.forall₂_map_left_iff]
  refine (List.forall₂_iff_get.2 ⟨h.vals.length_eq, fun i h1 h2 => ?_⟩)
  have hvw := (List.forall₂_iff_get.1 h.vals).2 i h1 h2
  generalize vs.get ⟨i, h1⟩ = v at hvw
  obtain ⟨w, hw⟩ : ∃ w, w = V.get ⟨i, h2⟩ := ⟨_, rfl⟩
  have hm : w ∈ V := hw ▸ List.get_mem _ _
  rw [← hw] at hvw ⊢
  obtain ⟨hx, hy⟩ := hvw
  have x1 : w.x - (bbox V).1 ≤ W := by
    have := hB.x1 w hm
    rw [← hS, scaleFactor_eq]; exact le_trans (by linarith) (le_max_left _ _)
  have y1 : w.y - (bbox V).2.1 ≤ W := by
    have := hB.y1 w hm
    rw [← hS, scaleFactor_eq]; exact le_trans (by linarith) (le_max_right _ _)
  have x0 : 0 ≤ w.x - (bbox V).1 := by linarith [hB.x0 w hm]
  have y0 : 0 ≤ w.y - (bbox V).2.1 := by linarith [hB.y0 w hm]
  exact ⟨⟨_, coord_near hx b1 rfl x0 x1 h.ext.pos h.fits sv sn⟩, ⟨_, coord_near hy b2 rfl y0 y1 h.ext.pos h.fits sv sn⟩⟩

/-- **C50**: distances. The normalized position of every vertex, scaled back, is within `4 u W` of the original position
relative to the lower left corner of the bounding box (no underflow: `tiny ≤ u / 4`). -/
theorem C50_absolute {vs : List (Vtx F)} {V : List (Vtx ℚ)} {W : ℚ} (h : Input vs V W) : ∃ x0 y0 : ℚ, Lowest x0 y0 V ∧
    List.Forall₂ (fun n v => ∃ p q, val n.x = some p ∧ val n.y = some q ∧ |p * W - (v.x - x0)| ≤ 4 * u F * W ∧
      |q * W - (v.y - y0)| ≤ 4 * u F * W) (normalizeVerts vs) V := by
  obtain ⟨x0, y0, hl, hf⟩ := C50_normalize h
  have hu := u_pos (F := F)
  have ht := tiny_le (F := F)
  have hW := h.ext.pos
  have one : ∀ {c : F} {d : ℚ}, d ≤ W → CoordNear c (d / W) → ∃ p, val c = some p ∧ |p * W - d| ≤ 4 * u F * W := by
    rintro c d h1 ⟨p, hp, -, he⟩
    refine ⟨p, hp, ?_⟩
    have e : p * W - d = (p - d / W) * W := by field_simp
    rw [e, abs_mul, abs_of_pos hW]
    refine mul_le_mul_of_nonneg_right (he.trans ?_) hW.le
    have : d / W ≤ 1 := (div_le_one hW).2 h1
    nlinarith
  obtain ⟨vx, mx, ex⟩ := hl.x_mem
  obtain ⟨vy, my, ey⟩ := hl.y_mem
  refine ⟨x0, y0, hl, List.forall₂_iff_get.2 ⟨hf.length_eq, fun i h1 h2 => ?_⟩⟩
  obtain ⟨cx, cy⟩ := (List.forall₂_iff_get.1 hf).2 i h1 h2
  have hm : V.get ⟨i, h2⟩ ∈ V := List.get_mem _ _
  obtain ⟨p, hp, ep⟩ := one (by
    have := (h.ext.bound _ hm vx mx).1
    rw [ex] at this
    exact (le_abs_self _).trans this) cx
  obtain ⟨q, hq, eq⟩ := one (by
    have := (h.ext.bound _ hm vy my).2
    rw [ey] at this
    exact (le_abs_self _).trans this) cy
  exact ⟨p, q, hp, hq, ep, eq⟩

end
end CDT

namespace CDT
open Witness Plane Rounded
local instance normalCfg : IdCfg := u32Cfg

/-- **C49** is false in `f64` in general: three points on the line `964 y = 915 x` give a triangle. -/
theorem C49_collinear_refuted : AllCollinear (intPts [(10604,10065), (101220,96075), (-64588,-61305)]) ∧
    ∀ fuel, 100 ≤ fuel → ∃ t, triangulation2d fuel defaultBins (flPts binary64 [(10604,10065), (101220,96075), (-64588,-61305)]) = .ok [t] := by
  refine ⟨?_, fun fuel hf => ⟨(0, 1, 2), ?_⟩⟩
  · unfold AllCollinear area2; decide +kernel
  · exact more_fuel (n := 100) (triangulation2d_fuel _ _) (by decide +kernel) (by simp) hf

/-! Examples: a collinear input that meets the hypotheses, and the error bound for an input of thirteen digits. -/

/-- Five points of an oblique line. -/
def lineSample : List (Int × Int) := [(0,0), (8,16), (2,4), (5,10), (1,2)]

theorem lineSample_good : RGood (F := F64) 100 defaultBins (flPts binary64 lineSample) (intPts lineSample) (2 ^ 4) :=
  C44_grid lineSample 4 (by decide) (by decide) (by decide) ⟨by norm_num, by decide +kernel, by decide +kernel⟩
    (by decide +kernel) (by decide +kernel) (by decide +kernel) (by decide)

example : triangulation2d 100 defaultBins (flPts binary64 lineSample) = .ok [] := by decide +kernel

example (out : List Out) (h : triangulation2d 100 defaultBins (flPts binary64 lineSample) = .ok out) : out = [] :=
  (C49_rounded_partial (by unfold AllCollinear area2; decide +kernel)).1 lineSample_good out h

/-- Input for which the normalization is not exact. -/
theorem thirds_input : Input (F := F64) (fpts [(1,1), (4,2), (3,7)]) (pts [(1,1), (4,2), (3,7)]) 6 where
  vals := by unfold Vals; repeat first | exact .nil | refine .cons (by decide +kernel) ?_
  range := by decide +kernel
  ext := ⟨by norm_num, by decide +kernel, by decide +kernel⟩
  fits := by decide +kernel

example : (normalizeVerts (fpts [(1,1), (4,2), (3,7)]))[2]? ≠ some ⟨.fin (1/3), .fin 1⟩ := by decide +kernel

end CDT

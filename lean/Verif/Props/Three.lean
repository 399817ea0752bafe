import Verif.Geo.Three
import Verif.Proofs.Relabel
import Verif.Props.Delaunay

/-! # C71: three vertices -/

set_option linter.unusedSectionVars false
set_option linter.unusedSimpArgs false
set_option linter.unusedVariables false

namespace CDT
open Plane SignType

/-! ## Specification -/

/-- `c` is strictly between `a` and `b` in both coordinates. -/
def Spec.Between {K : Type} [LT K] (a b c : Vtx K) : Prop :=
  (a.x < c.x ∧ c.x < b.x ∨ b.x < c.x ∧ c.x < a.x) ∧ (a.y < c.y ∧ c.y < b.y ∨ b.y < c.y ∧ c.y < a.y)

section
variable {K : Type} [Field K] [LinearOrder K] [IsStrictOrderedRing K]

theorem opposite_sign (u v w : K) : sign (u - w) * sign (v - w) = -1 ↔ (u < w ∧ w < v ∨ v < w ∧ w < u) := by
  rcases lt_trichotomy u w with h1 | h1 | h1 <;> rcases lt_trichotomy v w with h2 | h2 | h2
  · rw [sign_neg (by linarith), sign_neg (by linarith)]
    simp [h1, h2, h1.le, h2.le, not_lt.2 h1.le, not_lt.2 h2.le]
  · subst h2
    simp
  · rw [sign_neg (by linarith), sign_pos (by linarith)]
    simp [h1, h2]
  · subst h1; simp
  · subst h1; simp
  · subst h1; simp
  · rw [sign_pos (by linarith), sign_neg (by linarith)]
    simp [h1, h2]
  · subst h2
    simp
  · rw [sign_pos (by linarith), sign_pos (by linarith)]
    simp [h1, h2, h1.le, h2.le, not_lt.2 h1.le, not_lt.2 h2.le]

theorem pat_between (a b c : Vtx K) : (pat a b c).between = true ↔ Spec.Between a b c := by
  simp only [Pat.between, pat, Bool.and_eq_true, decide_eq_true_eq, opposite_sign, Spec.Between]

theorem pat_norm {vs : List (Vtx K)} (tx ty s : K) (hs : 0 < s) (a b c : Vtx K) :
    (pat (⟨(a.x - tx) / s, (a.y - ty) / s⟩ : Vtx K) ⟨(b.x - tx) / s, (b.y - ty) / s⟩ ⟨(c.x - tx) / s, (c.y - ty) / s⟩).out = (pat a b c).out := by
  have sg : ∀ u v t : K, sign ((u - t) / s - (v - t) / s) = sign (u - v) := by
    intro u v t
    rw [← sub_div, sub_sub_sub_cancel_right, div_eq_mul_inv, sign_mul, sign_pos (inv_pos.2 hs), mul_one]
  have so : sign (((b.x - tx) / s - (a.x - tx) / s) * ((c.y - ty) / s - (a.y - ty) / s) - ((c.x - tx) / s - (a.x - tx) / s) * ((b.y - ty) / s - (a.y - ty) / s)) =
      sign ((b.x - a.x) * (c.y - a.y) - (c.x - a.x) * (b.y - a.y)) := by
    have e : ((b.x - tx) / s - (a.x - tx) / s) * ((c.y - ty) / s - (a.y - ty) / s) - ((c.x - tx) / s - (a.x - tx) / s) * ((b.y - ty) / s - (a.y - ty) / s) =
        ((b.x - a.x) * (c.y - a.y) - (c.x - a.x) * (b.y - a.y)) * (s⁻¹) ^ 2 := by
      field_simp; ring
    rw [e, sign_mul, sign_pos (pow_pos (inv_pos.2 hs) 2), mul_one]
  unfold Pat.out Pat.between
  rw [show ∀ p q : Pat, p.x02 = q.x02 → p.x12 = q.x12 → p.y02 = q.y02 → p.y12 = q.y12 → p.o = q.o →
    (if (decide (p.x02 * p.x12 = -1) && decide (p.y02 * p.y12 = -1)) || decide (p.o = 0) then ([] : List Out) else
      if p.o = -1 then [(0, 1, 2)] else [(0, 2, 1)]) =
    (if (decide (q.x02 * q.x12 = -1) && decide (q.y02 * q.y12 = -1)) || decide (q.o = 0) then ([] : List Out) else
      if q.o = -1 then [(0, 1, 2)] else [(0, 2, 1)]) from fun p q h1 h2 h3 h4 h5 => by rw [h1, h2, h3, h4, h5]]
  · exact sg _ _ _
  · exact sg _ _ _
  · exact sg _ _ _
  · exact sg _ _ _
  · exact so

end

theorem triCheck_ok [IdCfg] (hc : RealCfg) {r} (hr : r ∈ triTable) : triCheck r = true := by
  rcases hc with rfl | rfl
  · exact List.all_eq_true.1 triRun_u32 r hr
  · exact List.all_eq_true.1 triRun_u64 r hr

theorem patZ_out {ax ay bx b_y cx cy : ℤ} : (patZ (ax, ay, bx, b_y, cx, cy)).out = (pat (castV ax ay) (castV bx b_y) (castV cx cy)).out := by
  simp only [Pat.out, Pat.between, patZ, pat, castV, sgZ_cast]
  push_cast
  rfl

section
variable {K : Type} [Field K] [LinearOrder K] [IsStrictOrderedRing K] [ExactParams K] [IdCfg]

/-- Inserting three vertices, in a list where they have the numbers `n`, `n + 1` and `n + 2`. -/
theorem three_insert (hc : RealCfg) {a b c : Vtx K} (hK : Sep [a, b, c]) {vs : List (Vtx K)} {n : Nat} (hn : n + 3 ≤ INF0)
    (h0 : vs[n]? = some a) (h1 : vs[n + 1]? = some b) (h2 : vs[n + 2]? = some c) {fuel : Nat} (hf : 28 ≤ fuel) (m : Option (List Nat)) :
    ∃ s, insertAll vs fuel [n + 1, n] ⟨initialTriangles (n + 2), 3, m⟩ = .ok s ∧
      filterSeq s.ts = ((pat a b c).out).map (outRen (shift3 n)) := by
  obtain ⟨⟨ax, ay, bx, b_y, cx, cy⟩, hr, hp⟩ := triTable_complete _ (feas_pat a b c)
  have he := matchPat_pat hp
  have hR := ren_three (sep_castV ax ay bx b_y cx cy) hK he.symm hn h0 h1 h2
  have h3 := triCheck_ok hc hr
  unfold triCheck at h3
  cases h4 : triRun (ax, ay, bx, b_y, cx, cy) with
  | ok s =>
    rw [h4] at h3
    have h3 : filterSeq s.ts = (patZ (ax, ay, bx, b_y, cx, cy)).out := by simpa using h3
    rw [patZ_out, ← he] at h3
    have := hR.insertAll 28 [1, 0] (hR.initial 2 3 none m)
    have e4 : insertAll [castV ax ay, castV bx b_y, castV cx cy] 28 [1, 0] ⟨initialTriangles 2, 3, none⟩ = .ok s := h4
    rw [e4] at this
    obtain ⟨s', hs', hst⟩ := this.ok_of
    have e : [1, 0].map (shift3 n) = [n + 1, n] := by simp [shift3]; omega
    have e' : shift3 n 2 = n + 2 := by simp [shift3]; omega
    rw [e, e'] at hs'
    refine ⟨s', ?_, ?_⟩
    · rw [← hs']
      exact insertAll_fuel _ _ _ _ _ hf (by show CDT.insertAll vs 28 _ _ ≠ _; rw [hs']; simp)
    · rw [hst.1, filterSeq_ren hR, h3]
  | err e => rw [h4] at h3; simp at h3
  | panic => rw [h4] at h3; simp at h3
  | diverge => rw [h4] at h3; simp at h3

theorem outRen_zero (o : List Out) : o.map (outRen (shift3 0)) = o := by
  have : ∀ i, shift3 0 i = i := by
    intro i; unfold shift3
    repeat' split
    all_goals omega
  have : outRen (shift3 0) = id := by funext t; simp [outRen, this]
  rw [this, List.map_id]

/-- The triangulation of three vertices, by their combination. -/
theorem three_run (hc : RealCfg) (fuel : Nat) (bins : Nat → Nat) (a b c : Vtx K) (h : Good fuel bins [a, b, c]) (h1 : bins 3 = 1) :
    triangulation2d fuel bins [a, b, c] = .ok (pat a b c).out := by
  have hl : (normalizeVerts [a, b, c]).length = 3 := by rw [normalizeVerts_eq]; simp
  have hs := h.scale
  have hN : normalizeVerts [a, b, c] = [toNorm [a, b, c] a, toNorm [a, b, c] b, toNorm [a, b, c] c] := by rw [normalizeVerts_eq]; rfl
  have h1' : bins [a, b, c].length = 1 := h1
  obtain ⟨r, hr⟩ := countBins_ok (bins := bins [a, b, c].length) (vs := normalizeVerts [a, b, c])
    (cnt := List.replicate (bins [a, b, c].length * bins [a, b, c].length) 0) (fun v hv => by simpa using binIndex_ok h.bins (h.unit v hv))
  have hnn : (normalizeVerts [a, b, c]).length ≤ IdCfg.maxId + 1 := by rw [hl]; have := h.ids; unfold NONE at this; simp at this; omega
  obtain ⟨out, ho, -⟩ := binSort_of_bins hnn hr
  have e := ho
  rw [h1'] at e
  have e := binSort_one hnn e
  rw [hl] at e
  have e : out = [2, 1, 0] := by rw [e]; rfl
  subst e
  have hni := h.ids_inf
  have hni : 0 + 3 ≤ INF0 := by rw [hl] at hni; omega
  have hsep : Sep [toNorm [a, b, c] a, toNorm [a, b, c] b, toNorm [a, b, c] c] := hN ▸ h.sep
  obtain ⟨s, hs1, hs2⟩ := three_insert hc hsep (vs := normalizeVerts [a, b, c]) (n := 0) hni (by rw [hN]; rfl) (by rw [hN]; rfl) (by rw [hN]; rfl)
    (fuel := fuel) (by have := h.fuel; simp at this; omega) none
  have hlast : lastId (initialTriangles 2) = .ok 3 := by
    have := IdCfg.big
    simpa [initialTriangles] using lastId_ok (ts := initialTriangles 2) (by simp [initialTriangles]) (by simp [initialTriangles, NONE]; omega)
  have hw : wrapAndTriangulate fuel (bins [a, b, c].length) (normalizeVerts [a, b, c]) none = .ok s := by
    unfold wrapAndTriangulate
    simp only [ho, Res.ok_bind, hlast]
    exact hs1
  unfold triangulation2d
  rw [if_neg (by simp)]
  simp only [hw, Res.ok_bind]
  rw [hs2, outRen_zero]
  congr 1
  exact pat_norm (vs := [a, b, c]) _ _ _ hs a b c

/-- **C71**: three vertices, one bin, exact arithmetic. -/
theorem C71_three (hc : RealCfg) (fuel : Nat) (bins : Nat → Nat) (a b c : Vtx K) (h : Good fuel bins [a, b, c]) (h1 : bins 3 = 1) :
    (Clockwise a b c → ¬ Spec.Between a b c → triangulation2d fuel bins [a, b, c] = .ok [(0, 1, 2)]) ∧
    (Clockwise a c b → ¬ Spec.Between a b c → triangulation2d fuel bins [a, b, c] = .ok [(0, 2, 1)]) ∧
    (area2 a b c = 0 ∨ Spec.Between a b c → triangulation2d fuel bins [a, b, c] = .ok []) := by
  rw [three_run hc fuel bins a b c h h1]
  have ho : (pat a b c).o = sign (area2 a b c) := rfl
  refine ⟨?_, ?_, ?_⟩
  · intro h1 h2
    rw [← pat_between] at h2
    simp [Pat.out, h2, ho, sign_neg h1]
  · intro h1 h2
    rw [← pat_between] at h2
    have h1 : 0 < area2 a b c := by have : area2 a c b < 0 := h1; have e : area2 a b c = - area2 a c b := by unfold area2; ring
                                    linarith
    simp [Pat.out, h2, ho, sign_pos h1]
  · rintro (h1 | h1)
    · simp [Pat.out, ho, h1]
    · rw [← pat_between] at h1
      simp [Pat.out, h1]

/-- **C71** in rounded arithmetic, on robust inputs and on grids. -/
theorem C71_three_rounded {F : Type} [FloatOps F] [Rounded F] (hcfg : RealCfg) (fuel : Nat) (bins : Nat → Nat) (u v w : Vtx F)
    (a b c : Vtx ℚ) (W : ℚ) (h : Rounded.RGood fuel bins [u, v, w] [a, b, c] W) (h1 : bins 3 = 1) :
    (Clockwise a b c → ¬ Spec.Between a b c → triangulation2d fuel bins [u, v, w] = .ok [(0, 1, 2)]) ∧
    (Clockwise a c b → ¬ Spec.Between a b c → triangulation2d fuel bins [u, v, w] = .ok [(0, 2, 1)]) ∧
    (area2 a b c = 0 ∨ Spec.Between a b c → triangulation2d fuel bins [u, v, w] = .ok []) := by
  let P := Rounded.params F (bins [u, v, w].length) W (Rounded.scaleVal [u, v, w])
  rw [h.run]
  exact C71_three hcfg fuel bins a b c h.good h1

end

section Example
local instance threeCfg : IdCfg := u32Cfg
open Rounded

/-- A counter-clockwise triangle with the default number of bins. -/
example : RealCfg ∧ RGood (F := F64) 100 Witness.defaultBins (flPts binary64 [(0,0),(8,1),(3,5)]) (intPts [(0,0),(8,1),(3,5)]) (2 ^ 3) ∧
    Witness.defaultBins 3 = 1 ∧ Clockwise (K := ℚ) ⟨0, 0⟩ ⟨3, 5⟩ ⟨8, 1⟩ ∧ ¬ Spec.Between (K := ℚ) ⟨0, 0⟩ ⟨8, 1⟩ ⟨3, 5⟩ ∧
    triangulation2d (F := F64) 100 Witness.defaultBins (flPts binary64 [(0,0),(8,1),(3,5)]) = .ok [(0, 2, 1)] := by
  have hg : RGood (F := F64) 100 Witness.defaultBins (flPts binary64 [(0,0),(8,1),(3,5)]) (intPts [(0,0),(8,1),(3,5)]) (2 ^ 3) :=
    C44_grid [(0,0),(8,1),(3,5)] 3 (by decide) (by decide) (by decide) ⟨by norm_num, by decide +kernel, by decide +kernel⟩
      (by decide +kernel) (by decide +kernel) (by decide +kernel) (by decide)
  have hcw : Clockwise (K := ℚ) ⟨0, 0⟩ ⟨3, 5⟩ ⟨8, 1⟩ := by norm_num [Clockwise, area2]
  have hnb : ¬ Spec.Between (K := ℚ) ⟨0, 0⟩ ⟨8, 1⟩ ⟨3, 5⟩ := by norm_num [Spec.Between]
  have hb : Witness.defaultBins 3 = 1 := by decide +kernel
  refine ⟨.inl rfl, hg, hb, hcw, hnb, ?_⟩
  exact (C71_three_rounded (.inl rfl) _ _ _ _ _ ⟨0, 0⟩ ⟨8, 1⟩ ⟨3, 5⟩ _ hg hb).2.1 hcw hnb

/-- A triangle whose last vertex is between the others: nothing is returned. -/
example : triangulation2d (F := F64) 100 Witness.defaultBins (flPts binary64 [(0,0),(8,8),(3,5)]) = .ok [] :=
  (C71_three_rounded (.inl rfl) _ _ _ _ _ ⟨0, 0⟩ ⟨8, 8⟩ ⟨3, 5⟩ (2 ^ 3)
    (C44_grid [(0,0),(8,8),(3,5)] 3 (by decide) (by decide) (by decide) ⟨by norm_num, by decide +kernel, by decide +kernel⟩
      (by decide +kernel) (by decide +kernel) (by decide +kernel) (by decide)) (by decide +kernel)).2.2 (.inr (by norm_num [Spec.Between]))

end Example

end CDT

import Verif.Geo.Sep
import Verif.Model.SoftFloat

/-! # C13, C14, C15, C18: local functions in exact arithmetic -/

set_option linter.unusedSectionVars false
set_option linter.unusedSimpArgs false
set_option linter.unusedVariables false

namespace CDT
open Plane

variable {K : Type} [Field K] [LinearOrder K] [IsStrictOrderedRing K] [ExactParams K]

/-! ## C13 -/

/-- **C13**, exact arithmetic: vertices of the unit square and at least one bin per row: the sort succeeds
and returns a permutation of the vertex ids. -/
theorem C13_binSort_unit [IdCfg] (bins : Nat) (vs : List (Vtx K)) (hb : 1 ≤ bins)
    (hn : vs.length ≤ IdCfg.maxId + 1) (hu : ∀ v ∈ vs, InUnit v) :
    ∃ out, binSort bins vs = .ok out ∧ out.Perm (List.range vs.length) := by
  obtain ⟨r, hr⟩ := countBins_ok (bins := bins) (vs := vs) (cnt := List.replicate (bins * bins) 0)
    (fun v hv => by simpa using binIndex_ok hb (hu v hv))
  exact binSort_of_bins hn hr

/-- The corners of the unit square, where the last row and column are touched. -/
example : letI := u32Cfg; (∀ v ∈ ([⟨0, 0⟩, ⟨1, 1⟩, ⟨1, 0⟩, ⟨0, 1⟩, ⟨1/2, 1⟩] : List (Vtx ℚ)), InUnit v) ∧
    binSort 2 ([⟨0, 0⟩, ⟨1, 1⟩, ⟨1, 0⟩, ⟨0, 1⟩, ⟨1/2, 1⟩] : List (Vtx ℚ)) = .ok [0, 2, 1, 4, 3] := by
  refine ⟨?_, by decide +kernel⟩
  intro v hv
  simp at hv
  rcases hv with rfl | rfl | rfl | rfl | rfl <;> (unfold InUnit; norm_num)

/-! ## C14 -/

theorem dist2_normalized (a b : Vtx K) (tx ty s : K) (hs : s ≠ 0) :
    dist2 (⟨(a.x - tx) / s, (a.y - ty) / s⟩ : Vtx K) ⟨(b.x - tx) / s, (b.y - ty) / s⟩ = dist2 a b / s ^ 2 := by
  unfold dist2
  field_simp
  ring

/-- **C14**: normalization is a translation followed by a uniform positive scaling; it maps the vertices
into the unit square; the square is touched on the left, at the bottom, and on the right or at the top;
orientations and in-circle relations are those of the input. -/
theorem C14_normalize_partial (vs : List (Vtx K)) (hr : InRange vs) (hd : ∃ a ∈ vs, ∃ b ∈ vs, a ≠ b) :
    ∃ (s tx ty : K) (f : Vtx K → Vtx K), 0 < s ∧ (∀ v, f v = ⟨(v.x - tx) / s, (v.y - ty) / s⟩) ∧
      normalizeVerts vs = vs.map f ∧
      (∀ v ∈ vs, InUnit (f v)) ∧
      (∃ v ∈ vs, (f v).x = 0) ∧ (∃ v ∈ vs, (f v).y = 0) ∧ (∃ v ∈ vs, (f v).x = 1 ∨ (f v).y = 1) ∧
      (∀ a b c, Clockwise (f a) (f b) (f c) ↔ Clockwise a b c) ∧
      (∀ a b c, area2 (f a) (f b) (f c) = 0 ↔ area2 a b c = 0) ∧
      (∀ a b c p, InCircle (f a) (f b) (f c) (f p) ↔ InCircle a b c p) := by
  obtain ⟨a, ha, b, hb, hab⟩ := hd
  have hs := scaleFactor_pos hr ha hb hab
  have hB := bbox_isBox hr (List.ne_nil_of_mem ha)
  have hs2 : (0 : K) < scaleFactor vs ^ 2 := by positivity
  refine ⟨scaleFactor vs, (bbox vs).1, (bbox vs).2.1, _, hs, fun v => rfl, normalizeVerts_eq vs, ?_, ?_, ?_, ?_, ?_, ?_, ?_⟩
  · intro v hv
    apply normalized_unit hr ha hb hab
    rw [normalizeVerts_eq]
    exact List.mem_map_of_mem hv
  · obtain ⟨v, hv, e⟩ := hB.ax0
    exact ⟨v, hv, by simp [e]⟩
  · obtain ⟨v, hv, e⟩ := hB.ay0
    exact ⟨v, hv, by simp [e]⟩
  · rcases max_choice ((bbox vs).2.2.1 - (bbox vs).1) ((bbox vs).2.2.2 - (bbox vs).2.1) with h | h
    · obtain ⟨v, hv, e⟩ := hB.ax1
      refine ⟨v, hv, .inl ?_⟩
      have e' : scaleFactor vs = v.x - (bbox vs).1 := by rw [scaleFactor_eq, h, e]
      rw [← e', div_self hs.ne']
    · obtain ⟨v, hv, e⟩ := hB.ay1
      refine ⟨v, hv, .inr ?_⟩
      have e' : scaleFactor vs = v.y - (bbox vs).2.1 := by rw [scaleFactor_eq, h, e]
      rw [← e', div_self hs.ne']
  · intro a b c
    unfold Clockwise
    rw [area2_normalized _ _ _ _ _ _ hs.ne', div_lt_iff₀ hs2, zero_mul]
  · intro a b c
    rw [area2_normalized _ _ _ _ _ _ hs.ne', div_eq_zero_iff]
    simp [hs2.ne']
  · intro a b c p
    constructor
    · rintro ⟨m, ⟨h1, h2⟩, h3⟩
      have e : ∀ q : Vtx K, dist2 m ⟨(q.x - (bbox vs).1) / scaleFactor vs, (q.y - (bbox vs).2.1) / scaleFactor vs⟩ =
          dist2 (⟨scaleFactor vs * m.x + (bbox vs).1, scaleFactor vs * m.y + (bbox vs).2.1⟩ : Vtx K) q / scaleFactor vs ^ 2 := by
        intro q
        unfold dist2
        field_simp
        ring
      simp only [e] at h1 h2 h3
      refine ⟨⟨scaleFactor vs * m.x + (bbox vs).1, scaleFactor vs * m.y + (bbox vs).2.1⟩, ⟨?_, ?_⟩, ?_⟩
      · exact (div_left_inj' hs2.ne').1 h1
      · exact (div_left_inj' hs2.ne').1 h2
      · exact (div_lt_div_iff_of_pos_right hs2).1 h3
    · rintro ⟨m, ⟨h1, h2⟩, h3⟩
      refine ⟨⟨(m.x - (bbox vs).1) / scaleFactor vs, (m.y - (bbox vs).2.1) / scaleFactor vs⟩, ⟨?_, ?_⟩, ?_⟩
      · rw [dist2_normalized _ _ _ _ _ hs.ne', dist2_normalized _ _ _ _ _ hs.ne', h1]
      · rw [dist2_normalized _ _ _ _ _ hs.ne', dist2_normalized _ _ _ _ _ hs.ne', h2]
      · rw [dist2_normalized _ _ _ _ _ hs.ne', dist2_normalized _ _ _ _ _ hs.ne']
        exact (div_lt_div_iff_of_pos_right hs2).2 h3

example : InRange ([⟨-1, 3⟩, ⟨5, 1⟩, ⟨2, 2⟩] : List (Vtx ℚ)) ∧
    normalizeVerts ([⟨-1, 3⟩, ⟨5, 1⟩, ⟨2, 2⟩] : List (Vtx ℚ)) = [⟨0, 1/3⟩, ⟨1, 0⟩, ⟨1/2, 1/6⟩] := by
  refine ⟨?_, by decide +kernel⟩
  intro v hv
  simp at hv
  rcases hv with rfl | rfl | rfl <;> simp [ExactParams.fmax] <;> norm_num

/-! ## C15 -/

/-- The map `v ↦ k * v + t`. -/
def affine (k tx ty : K) (v : Vtx K) : Vtx K := ⟨k * v.x + tx, k * v.y + ty⟩

/-- **C15**, unconstrained. -/
theorem C15_triangulation2d_partial [IdCfg] (fuel : Nat) (bins : Nat → Nat) (vs : List (Vtx K)) (k tx ty : K) (hk : 0 < k)
    (hr : InRange vs) (hr' : InRange (vs.map (affine k tx ty))) :
    triangulation2d fuel bins (vs.map (affine k tx ty)) = triangulation2d fuel bins vs := by
  have := normalizeVerts_affine hk hr hr'
  unfold triangulation2d
  simp only [List.length_map]
  rw [show vs.map (affine k tx ty) = vs.map (fun v => (⟨k * v.x + tx, k * v.y + ty⟩ : Vtx K)) from rfl, this]

/-- **C15**, constrained. -/
theorem C15_constrained2d_partial [IdCfg] (fuel : Nat) (bins : Nat → Nat) (vs : List (Vtx K)) (es : List Edge) (k tx ty : K)
    (hk : 0 < k) (hr : InRange vs) (hr' : InRange (vs.map (affine k tx ty))) :
    constrained2d fuel bins (vs.map (affine k tx ty)) es = constrained2d fuel bins vs es := by
  have := normalizeVerts_affine hk hr hr'
  unfold constrained2d constrainedMesh
  simp only [List.length_map]
  rw [show vs.map (affine k tx ty) = vs.map (fun v => (⟨k * v.x + tx, k * v.y + ty⟩ : Vtx K)) from rfl, this]

example : InRange (([⟨-1, 3⟩, ⟨5, 1⟩, ⟨2, 0⟩] : List (Vtx ℚ)).map (affine 3 10 (-2))) := by
  intro v hv
  simp [affine] at hv
  rcases hv with rfl | rfl | rfl <;> simp [ExactParams.fmax] <;> norm_num

/-! ## C18 -/

/-- Power of a point: sign of the Cline-Renka sum. -/
theorem crS_power {a b c m p : Vtx K} (h1 : dist2 m a = dist2 m b) (h2 : dist2 m a = dist2 m c) :
    area2 a b c * (dist2 m p - dist2 m a) = crS a b c p := by
  unfold crS dist2 area2 at *
  linear_combination (-(p.x - a.x) * (c.y - a.y) + (c.x - a.x) * (p.y - a.y)) * h1 +
    (-(b.x - a.x) * (p.y - a.y) + (p.x - a.x) * (b.y - a.y)) * h2

theorem crS_inCircle {a b c p : Vtx K} (h : 0 < area2 a b c) : crS a b c p < 0 ↔ InCircle a b c p := by
  constructor
  · intro hs
    obtain ⟨m, h1, h2⟩ := exists_circumcenter a b c h.ne'
    refine ⟨m, ⟨h1, h2⟩, ?_⟩
    rw [← crS_power h1 h2] at hs
    by_contra hc
    have := mul_nonneg h.le (sub_nonneg.2 (not_lt.1 hc))
    linarith
  · rintro ⟨m, ⟨h1, h2⟩, h3⟩
    rw [← crS_power h1 h2]
    exact mul_neg_of_pos_of_neg h (by linarith)

/-- **C18**: for the triangles `b a c` and `p a b` on opposite sides of the edge `a b`, the test holds iff
`p` is strictly inside the circle through `a`, `b`, `c`; then the quad `p a c b` is strictly convex. -/
theorem C18_inCircumcircle (a b c p : Vtx K) (h1 : Clockwise b a c) (h2 : Clockwise p a b) :
    (inCircumcircle a b c p = true ↔ InCircle a b c p) ∧
      (inCircumcircle a b c p = true → Clockwise p a c ∧ Clockwise p c b) := by
  letI := u32Cfg
  have h1' : 0 < HP.o (HP.ofVtx b) (HP.ofVtx a) (HP.ofVtx c) := by
    rw [o_area2]; unfold Clockwise at h1; linarith
  have h2' : 0 < HP.o (HP.ofVtx p) (HP.ofVtx a) (HP.ofVtx b) := by
    rw [o_area2]; unfold Clockwise at h2; linarith
  have h3 : 0 < area2 a b c := by
    have := area2_swap a b c
    unfold Clockwise at h1; linarith
  refine ⟨by rw [inCircumcircle_iff h1' h2', crS_inCircle h3], fun h => ?_⟩
  rw [inCircumcircle_iff h1' h2'] at h
  obtain ⟨c1, c2⟩ := crS_convex h1' h2' h
  rw [o_area2] at c1 c2
  unfold Clockwise
  constructor <;> linarith

/-- Both answers occur. -/
example : Clockwise (⟨4, 0⟩ : Vtx ℚ) ⟨0, 0⟩ ⟨2, 1⟩ ∧ Clockwise (⟨2, -1⟩ : Vtx ℚ) ⟨0, 0⟩ ⟨4, 0⟩ ∧
    inCircumcircle (⟨0, 0⟩ : Vtx ℚ) ⟨4, 0⟩ ⟨2, 1⟩ ⟨2, -1⟩ = true ∧
    Clockwise (⟨2, -5⟩ : Vtx ℚ) ⟨0, 0⟩ ⟨4, 0⟩ ∧ Clockwise (⟨4, 0⟩ : Vtx ℚ) ⟨0, 0⟩ ⟨2, 5⟩ ∧
    inCircumcircle (⟨0, 0⟩ : Vtx ℚ) ⟨4, 0⟩ ⟨2, 5⟩ ⟨2, -5⟩ = false := by
  refine ⟨?_, ?_, by decide +kernel, ?_, ?_, by decide +kernel⟩ <;> (unfold Clockwise area2; norm_num)

end CDT

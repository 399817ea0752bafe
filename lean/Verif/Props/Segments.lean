import Verif.Geo.Cross
import Mathlib.Tactic.NormNum

/-! # Segment intersection (C17) and extrapolated semi-infinite edges (C36)

The specification (`OnSegment`, `InsideSegment`, `Shared`, `Tip`, `OnRay`) is in `Spec/Plane.lean`. -/

set_option linter.unusedSectionVars false
set_option linter.unusedSimpArgs false
set_option linter.unusedVariables false

namespace CDT
open Plane

variable {K : Type} [Field K] [LinearOrder K] [IsStrictOrderedRing K] [ExactParams K]

/-- C17: `SharedEdges` iff the segments share an endpoint. -/
theorem C17_shared (a b c d : Vtx K) : edgesIntersect (a, b) (c, d) = .sharedEdges ↔ Shared a b c d := by
  rcases edgesIntersect_cases a b c d with ⟨h, e⟩ | ⟨h, h', e⟩ | ⟨h, h', e⟩ | ⟨h, h', e⟩ <;> rw [e]
  · simp [h]
  · simp [h]
  · simp only [reduceCtorEq, false_iff]; exact fun hs => h hs.tip
  · simp only [reduceCtorEq, false_iff]; exact fun hs => h hs.tip

/-- C17: `OnEdgeTip` iff no endpoint is shared and an endpoint of one lies on the other. -/
theorem C17_tip (a b c d : Vtx K) :
    edgesIntersect (a, b) (c, d) = .onEdgeTip ↔ ¬ Shared a b c d ∧ Tip a b c d := by
  rcases edgesIntersect_cases a b c d with ⟨h, e⟩ | ⟨h, h', e⟩ | ⟨h, h', e⟩ | ⟨h, h', e⟩ <;> rw [e]
  · simp [h]
  · simp [h, h']
  · simp [h]
  · simp [h]

/-- C17: `Crossing` iff no endpoint of one lies on the other and they have a common point. -/
theorem C17_crossing (a b c d : Vtx K) : edgesIntersect (a, b) (c, d) = .crossing ↔
    ¬ Tip a b c d ∧ ∃ p, OnSegment a b p ∧ OnSegment c d p := by
  rw [crossing_iff]
  constructor
  · intro h
    obtain ⟨c1, c2, c3, c4⟩ := h.not_on
    obtain ⟨p, p1, p2⟩ := h.point
    exact ⟨by rintro (h | h | h | h) <;> contradiction, p, p1.on, p2.on⟩
  · rintro ⟨h, p, p1, p2⟩
    unfold Tip at h
    rw [not_or, not_or, not_or] at h
    exact cross_of_point p1 p2 h.2.2.1 h.2.2.2 h.1 h.2.1

/-- C17: the common point of crossing segments is unique and interior to both. -/
theorem C17_crossing_point {a b c d : Vtx K} (h : edgesIntersect (a, b) (c, d) = .crossing) :
    ∃ p, InsideSegment a b p ∧ InsideSegment c d p ∧ ∀ q, OnSegment a b q → OnSegment c d q → q = p := by
  rw [crossing_iff] at h
  obtain ⟨p, p1, p2⟩ := h.point
  exact ⟨p, p1, p2, fun q q1 q2 => h.unique q1 q2 p1.on p2.on⟩

/-- C17: `None` iff the segments are disjoint. -/
theorem C17_none (a b c d : Vtx K) : edgesIntersect (a, b) (c, d) = .none ↔
    ∀ p, OnSegment a b p → OnSegment c d p → False := by
  rcases edgesIntersect_cases a b c d with ⟨h, e⟩ | ⟨h, h', e⟩ | ⟨h, h', e⟩ | ⟨h, h', e⟩ <;> rw [e]
  · simp only [reduceCtorEq, false_iff]
    intro hd
    rcases h with rfl | rfl | rfl | rfl
    · exact hd _ (onSegment_left _ _) (onSegment_left _ _)
    · exact hd _ (onSegment_left _ _) (onSegment_right _ _)
    · exact hd _ (onSegment_right _ _) (onSegment_left _ _)
    · exact hd _ (onSegment_right _ _) (onSegment_right _ _)
  · simp only [reduceCtorEq, false_iff]
    intro hd
    rcases h' with h | h | h | h
    · exact hd _ h (onSegment_left _ _)
    · exact hd _ h (onSegment_right _ _)
    · exact hd _ (onSegment_left _ _) h
    · exact hd _ (onSegment_right _ _) h
  · simp only [reduceCtorEq, false_iff]
    intro hd
    obtain ⟨p, p1, p2⟩ := h'.point
    exact hd p p1.on p2.on
  · simp only [true_iff]
    intro p p1 p2
    apply h'
    unfold Tip at h
    rw [not_or, not_or, not_or] at h
    exact cross_of_point p1 p2 h.2.2.1 h.2.2.2 h.1 h.2.1

/-- The answer is determined by the three conditions. -/
theorem edgesIntersect_congr {a b c d a' b' c' d' : Vtx K} (h1 : Shared a b c d ↔ Shared a' b' c' d')
    (h2 : Tip a b c d ↔ Tip a' b' c' d') (h3 : Plane.Cross a b c d ↔ Plane.Cross a' b' c' d') :
    edgesIntersect (a, b) (c, d) = edgesIntersect (a', b') (c', d') := by
  rcases edgesIntersect_cases a b c d with ⟨h, e⟩ | ⟨h, h', e⟩ | ⟨h, h', e⟩ | ⟨h, h', e⟩ <;>
    rcases edgesIntersect_cases a' b' c' d' with ⟨g, e'⟩ | ⟨g, g', e'⟩ | ⟨g, g', e'⟩ | ⟨g, g', e'⟩ <;> rw [e, e'] <;>
    exfalso <;>
    first
    | exact g (h1.1 h)
    | exact h (h1.2 g)
    | exact g (h2.1 h')
    | exact h (h2.2 g')
    | exact g (h2.1 h.tip)
    | exact h (h2.2 g.tip)
    | exact g' (h3.1 h')
    | exact h' (h3.2 g')

theorem onSegment_comm {a b p : Vtx K} : OnSegment a b p ↔ OnSegment b a p := by
  have key : ∀ {a b : Vtx K}, OnSegment a b p → OnSegment b a p := by
    rintro a b ⟨s, h0, h1, e1, e2⟩
    exact ⟨1 - s, by linarith, by linarith, by rw [e1]; ring, by rw [e2]; ring⟩
  exact ⟨key, key⟩

/-- C17: the answer does not depend on the order of the two segments. -/
theorem C17_symm (e1 e2 : EV K) : edgesIntersect e1 e2 = edgesIntersect e2 e1 := by
  obtain ⟨a, b⟩ := e1
  obtain ⟨c, d⟩ := e2
  apply edgesIntersect_congr
  · unfold Shared; constructor <;> rintro (h | h | h | h) <;> simp [h]
  · unfold Tip; tauto
  · exact ⟨fun h => h.symm, fun h => h.symm⟩

/-- C17: the answer does not depend on the direction of a segment. -/
theorem C17_reverse (a b : Vtx K) (e : EV K) : edgesIntersect (a, b) e = edgesIntersect (b, a) e := by
  obtain ⟨c, d⟩ := e
  apply edgesIntersect_congr
  · unfold Shared; tauto
  · unfold Tip
    rw [onSegment_comm (a := a) (b := b) (p := c), onSegment_comm (a := a) (b := b) (p := d)]
    tauto
  · constructor <;> exact fun h => h.symm.flip.symm

/-! ## C36 -/

/-- Inside the unit square the extrapolated segment and the ray have the same points. -/
theorem C36_points {f p : Vtx K} (hf : InUnit f) (hp : InUnit p) (k : Fin 4) :
    OnSegment (semiInf f k).1 (semiInf f k).2 p ↔ OnRay f k p := by
  obtain ⟨f1, f2, f3, f4⟩ := hf
  obtain ⟨p1, p2, p3, p4⟩ := hp
  constructor
  · rintro ⟨s, h0, h1, e1, e2⟩
    fin_cases k <;>
      simp only [semiInf, xDelta, yDelta, exact_add, exact_neg, exact_delta, exact_zero] at e1 e2 <;>
      exact ⟨by linarith, by linarith⟩
  · intro h
    fin_cases k <;> obtain ⟨e1, e2⟩ := h
    · refine ⟨(f.x - p.x) / (142 / 100), div_nonneg (by linarith) (by norm_num), ?_, ?_, ?_⟩
      · rw [div_le_one (by norm_num)]; linarith
      · simp only [semiInf, xDelta, exact_add, exact_neg, exact_delta]; field_simp; ring
      · simp only [semiInf, yDelta, exact_add, exact_zero]; rw [e1]; ring
    · refine ⟨(p.y - f.y) / (142 / 100), div_nonneg (by linarith) (by norm_num), ?_, ?_, ?_⟩
      · rw [div_le_one (by norm_num)]; linarith
      · simp only [semiInf, xDelta, exact_add, exact_zero]; rw [e1]; ring
      · simp only [semiInf, yDelta, exact_add, exact_delta]; field_simp; ring
    · refine ⟨(p.x - f.x) / (142 / 100), div_nonneg (by linarith) (by norm_num), ?_, ?_, ?_⟩
      · rw [div_le_one (by norm_num)]; linarith
      · simp only [semiInf, xDelta, exact_add, exact_neg, exact_delta]; field_simp; ring
      · simp only [semiInf, yDelta, exact_add, exact_zero]; rw [e1]; ring
    · refine ⟨(f.y - p.y) / (142 / 100), div_nonneg (by linarith) (by norm_num), ?_, ?_, ?_⟩
      · rw [div_le_one (by norm_num)]; linarith
      · simp only [semiInf, xDelta, exact_add, exact_zero]; rw [e1]; ring
      · simp only [semiInf, yDelta, exact_add, exact_neg, exact_delta]; field_simp; ring

theorem OnSegment.unit {a b p : Vtx K} (ha : InUnit a) (hb : InUnit b) (h : OnSegment a b p) : InUnit p := by
  obtain ⟨a1, a2, a3, a4⟩ := ha
  obtain ⟨b1, b2, b3, b4⟩ := hb
  obtain ⟨s, h0, h1, e1, e2⟩ := h
  unfold InUnit
  rw [e1, e2]
  refine ⟨?_, ?_, ?_, ?_⟩ <;> nlinarith

/-- The segment is part of the ray. -/
theorem OnSegment.ray {f p : Vtx K} {k : Fin 4} (h : OnSegment (semiInf f k).1 (semiInf f k).2 p) : OnRay f k p := by
  obtain ⟨s, h0, h1, e1, e2⟩ := h
  fin_cases k <;>
    simp only [semiInf, xDelta, yDelta, exact_add, exact_neg, exact_delta, exact_zero] at e1 e2 <;>
    exact ⟨by linarith, by linarith⟩

theorem semiInf_far {f : Vtx K} (hf : InUnit f) (k : Fin 4) : ¬ InUnit (semiInf f k).2 := by
  obtain ⟨f1, f2, f3, f4⟩ := hf
  rintro ⟨h1, h2, h3, h4⟩
  fin_cases k <;>
    simp only [semiInf, xDelta, yDelta, exact_add, exact_neg, exact_delta, exact_zero] at h1 h2 h3 h4 <;> linarith

/-- C36, constrained edge: the test on the extrapolated segment answers `Crossing` iff the ray has a
point in common with the constrained edge, not at an end of either. -/
theorem C36_edge {a b f : Vtx K} (ha : InUnit a) (hb : InUnit b) (hf : InUnit f) (k : Fin 4) :
    edgesIntersect (a, b) (semiInf f k) = .crossing ↔
      (∃ p, OnSegment a b p ∧ OnRay f k p) ∧ ¬ OnSegment a b f ∧ ¬ OnRay f k a ∧ ¬ OnRay f k b := by
  change edgesIntersect (a, b) ((semiInf f k).1, (semiInf f k).2) = _ ↔ _
  rw [C17_crossing]
  unfold Tip
  have e1 := C36_points hf ha k
  have e2 := C36_points hf hb k
  have e3 : ¬ OnSegment a b (semiInf f k).2 := fun h => semiInf_far hf k (OnSegment.unit ha hb h)
  have e4 : (∃ p, OnSegment a b p ∧ OnSegment (semiInf f k).1 (semiInf f k).2 p) ↔ ∃ p, OnSegment a b p ∧ OnRay f k p := by
    constructor
    · rintro ⟨p, p1, p2⟩; exact ⟨p, p1, OnSegment.ray p2⟩
    · rintro ⟨p, p1, p2⟩; exact ⟨p, p1, (C36_points hf (OnSegment.unit ha hb p1) k).2 p2⟩
  rw [e1, e2, e4]
  have : (semiInf f k).1 = f := rfl
  rw [this]
  tauto

/-- C36, two semi-infinite edges: the test on the extrapolated segments answers `Crossing` iff the
rays have a common point and none starts on the other. -/
theorem C36_rays {f g : Vtx K} (hf : InUnit f) (hg : InUnit g) (k l : Fin 4) :
    edgesIntersect (semiInf f k) (semiInf g l) = .crossing ↔
      (∃ p, OnRay f k p ∧ OnRay g l p) ∧ ¬ OnRay f k g ∧ ¬ OnRay g l f := by
  change edgesIntersect ((semiInf f k).1, (semiInf f k).2) ((semiInf g l).1, (semiInf g l).2) = _ ↔ _
  rw [C17_crossing]
  unfold Tip
  have e1 : OnSegment (semiInf f k).1 (semiInf f k).2 (semiInf g l).1 ↔ OnRay f k g := C36_points hf hg k
  have e2 : OnSegment (semiInf g l).1 (semiInf g l).2 (semiInf f k).1 ↔ OnRay g l f := C36_points hg hf l
  rw [e1, e2]
  have far : ∀ {f g : Vtx K} (k l : Fin 4), InUnit f → InUnit g →
      OnSegment (semiInf f k).1 (semiInf f k).2 (semiInf g l).2 → OnRay f k g ∨ OnRay g l f := by
    rintro f g k l ⟨f1, f2, f3, f4⟩ ⟨g1, g2, g3, g4⟩ h
    have h := OnSegment.ray h
    fin_cases k <;> fin_cases l <;>
      simp only [OnRay, semiInf, xDelta, yDelta, exact_add, exact_neg, exact_delta, exact_zero] at h ⊢ <;>
      obtain ⟨h1, h2⟩ := h <;>
      first
      | (exfalso; linarith)
      | (rcases le_total f.x g.x with h | h
         · first | exact .inl ⟨by linarith, by linarith⟩ | exact .inr ⟨by linarith, by linarith⟩
         · first | exact .inl ⟨by linarith, by linarith⟩ | exact .inr ⟨by linarith, by linarith⟩)
      | (rcases le_total f.y g.y with h | h
         · first | exact .inl ⟨by linarith, by linarith⟩ | exact .inr ⟨by linarith, by linarith⟩
         · first | exact .inl ⟨by linarith, by linarith⟩ | exact .inr ⟨by linarith, by linarith⟩)
  constructor
  · rintro ⟨h, p, p1, p2⟩
    exact ⟨⟨p, OnSegment.ray p1, OnSegment.ray p2⟩, fun h' => h (.inl h'), fun h' => h (.inr (.inr (.inl h')))⟩
  · rintro ⟨⟨p, p1, p2⟩, h1, h2⟩
    constructor
    · rintro (h | h | h | h)
      · exact h1 h
      · rcases far k l hf hg h with h | h
        · exact h1 h
        · exact h2 h
      · exact h2 h
      · rcases far l k hg hf h with h | h
        · exact h2 h
        · exact h1 h
    · have hu : InUnit p := by
        obtain ⟨f1, f2, f3, f4⟩ := hf
        obtain ⟨g1, g2, g3, g4⟩ := hg
        fin_cases k <;> fin_cases l <;>
          simp only [OnRay] at p1 p2 h1 h2 <;>
          obtain ⟨q1, q2⟩ := p1 <;> obtain ⟨r1, r2⟩ := p2 <;>
          first
          | exact ⟨by linarith, by linarith, by linarith, by linarith⟩
          | (exfalso
             rcases le_total f.x g.x with h | h
             · first | exact h1 ⟨by linarith, by linarith⟩ | exact h2 ⟨by linarith, by linarith⟩
             · first | exact h1 ⟨by linarith, by linarith⟩ | exact h2 ⟨by linarith, by linarith⟩)
          | (exfalso
             rcases le_total f.y g.y with h | h
             · first | exact h1 ⟨by linarith, by linarith⟩ | exact h2 ⟨by linarith, by linarith⟩
             · first | exact h1 ⟨by linarith, by linarith⟩ | exact h2 ⟨by linarith, by linarith⟩)
      exact ⟨p, (C36_points hf hu k).2 p1, (C36_points hg hu l).2 p2⟩

/-- Concrete cases: the four outcomes, and a ray hitting a constrained edge. -/
example : edgesIntersect (F := ℚ) (⟨0, 0⟩, ⟨2, 2⟩) (⟨0, 2⟩, ⟨2, 0⟩) = .crossing ∧
    edgesIntersect (F := ℚ) (⟨0, 0⟩, ⟨2, 2⟩) (⟨2, 2⟩, ⟨3, 0⟩) = .sharedEdges ∧
    edgesIntersect (F := ℚ) (⟨0, 0⟩, ⟨2, 2⟩) (⟨1, 1⟩, ⟨3, 0⟩) = .onEdgeTip ∧
    edgesIntersect (F := ℚ) (⟨0, 0⟩, ⟨2, 2⟩) (⟨3, 3⟩, ⟨4, 4⟩) = .none ∧
    edgesIntersect (F := ℚ) (⟨0, 1⟩, ⟨1, 1 / 2⟩) (semiInf ⟨1 / 2, 0⟩ 1) = .crossing ∧
    edgesIntersect (F := ℚ) (semiInf ⟨0, 1⟩ 2) (semiInf ⟨1, 0⟩ 1) = .crossing := by
  decide +kernel

end CDT

import Mathlib.Tactic.FieldSimp
import Verif.Model.Exact
import Verif.Proofs.BinSort
import Verif.Spec.Plane

/-! # Normalization and bins in exact arithmetic -/

set_option linter.unusedSectionVars false
set_option linter.unusedSimpArgs false
set_option linter.unusedVariables false

namespace CDT

variable {K : Type} [Field K] [LinearOrder K] [IsStrictOrderedRing K] [ExactParams K]

/-- Every coordinate is a `Float` value: between `Float::MIN` and `Float::MAX`. -/
def InRange (vs : List (Vtx K)) : Prop :=
  ∀ v ∈ vs, |v.x| ≤ ExactParams.fmax ∧ |v.y| ≤ ExactParams.fmax

theorem bboxLoop_spec (vs : List (Vtx K)) (b : K × K × K × K) :
    ((bboxLoop vs b).1 ≤ b.1 ∧ (∀ v ∈ vs, (bboxLoop vs b).1 ≤ v.x) ∧
      ((bboxLoop vs b).1 = b.1 ∨ ∃ v ∈ vs, v.x = (bboxLoop vs b).1)) ∧
    ((bboxLoop vs b).2.1 ≤ b.2.1 ∧ (∀ v ∈ vs, (bboxLoop vs b).2.1 ≤ v.y) ∧
      ((bboxLoop vs b).2.1 = b.2.1 ∨ ∃ v ∈ vs, v.y = (bboxLoop vs b).2.1)) ∧
    (b.2.2.1 ≤ (bboxLoop vs b).2.2.1 ∧ (∀ v ∈ vs, v.x ≤ (bboxLoop vs b).2.2.1) ∧
      ((bboxLoop vs b).2.2.1 = b.2.2.1 ∨ ∃ v ∈ vs, v.x = (bboxLoop vs b).2.2.1)) ∧
    (b.2.2.2 ≤ (bboxLoop vs b).2.2.2 ∧ (∀ v ∈ vs, v.y ≤ (bboxLoop vs b).2.2.2) ∧
      ((bboxLoop vs b).2.2.2 = b.2.2.2 ∨ ∃ v ∈ vs, v.y = (bboxLoop vs b).2.2.2)) := by
  induction vs generalizing b with
  | nil => simp [bboxLoop]
  | cons v vs ih =>
    obtain ⟨xmin, ymin, xmax, ymax⟩ := b
    simp only [bboxLoop, exact_lt, decide_eq_true_eq]
    obtain ⟨⟨a1, a2, a3⟩, ⟨b1, b2, b3⟩, ⟨c1, c2, c3⟩, ⟨d1, d2, d3⟩⟩ :=
      ih (if v.x < xmin then v.x else xmin, if v.y < ymin then v.y else ymin,
        if xmax < v.x then v.x else xmax, if ymax < v.y then v.y else ymax)
    set r := bboxLoop vs (if v.x < xmin then v.x else xmin, if v.y < ymin then v.y else ymin,
        if xmax < v.x then v.x else xmax, if ymax < v.y then v.y else ymax) with hr
    simp only at a1 a3 b1 b3 c1 c3 d1 d3
    refine ⟨⟨?_, ?_, ?_⟩, ⟨?_, ?_, ?_⟩, ⟨?_, ?_, ?_⟩, ⟨?_, ?_, ?_⟩⟩
    · refine a1.trans ?_; split <;> [exact le_of_lt ‹_›; exact le_rfl]
    · intro w hw
      rcases List.mem_cons.1 hw with rfl | hw
      · refine a1.trans ?_; split <;> [exact le_rfl; exact not_lt.1 ‹_›]
      · exact a2 w hw
    · rcases a3 with h | ⟨w, hw, h⟩
      · split at h
        · exact .inr ⟨v, by simp, h.symm⟩
        · exact .inl h
      · exact .inr ⟨w, by simp [hw], h⟩
    · refine b1.trans ?_; split <;> [exact le_of_lt ‹_›; exact le_rfl]
    · intro w hw
      rcases List.mem_cons.1 hw with rfl | hw
      · refine b1.trans ?_; split <;> [exact le_rfl; exact not_lt.1 ‹_›]
      · exact b2 w hw
    · rcases b3 with h | ⟨w, hw, h⟩
      · split at h
        · exact .inr ⟨v, by simp, h.symm⟩
        · exact .inl h
      · exact .inr ⟨w, by simp [hw], h⟩
    · refine le_trans ?_ c1; split <;> [exact le_of_lt ‹_›; exact le_rfl]
    · intro w hw
      rcases List.mem_cons.1 hw with rfl | hw
      · refine le_trans ?_ c1; split <;> [exact le_rfl; exact not_lt.1 ‹_›]
      · exact c2 w hw
    · rcases c3 with h | ⟨w, hw, h⟩
      · split at h
        · exact .inr ⟨v, by simp, h.symm⟩
        · exact .inl h
      · exact .inr ⟨w, by simp [hw], h⟩
    · refine le_trans ?_ d1; split <;> [exact le_of_lt ‹_›; exact le_rfl]
    · intro w hw
      rcases List.mem_cons.1 hw with rfl | hw
      · refine le_trans ?_ d1; split <;> [exact le_rfl; exact not_lt.1 ‹_›]
      · exact d2 w hw
    · rcases d3 with h | ⟨w, hw, h⟩
      · split at h
        · exact .inr ⟨v, by simp, h.symm⟩
        · exact .inl h
      · exact .inr ⟨w, by simp [hw], h⟩

/-- Bounding box of a list: bounds that are attained. -/
structure IsBox (vs : List (Vtx K)) (b : K × K × K × K) : Prop where
  x0 : ∀ v ∈ vs, b.1 ≤ v.x
  y0 : ∀ v ∈ vs, b.2.1 ≤ v.y
  x1 : ∀ v ∈ vs, v.x ≤ b.2.2.1
  y1 : ∀ v ∈ vs, v.y ≤ b.2.2.2
  ax0 : ∃ v ∈ vs, v.x = b.1
  ay0 : ∃ v ∈ vs, v.y = b.2.1
  ax1 : ∃ v ∈ vs, v.x = b.2.2.1
  ay1 : ∃ v ∈ vs, v.y = b.2.2.2

theorem IsBox.unique {vs : List (Vtx K)} {b b' : K × K × K × K} (h : IsBox vs b) (h' : IsBox vs b') : b = b' := by
  obtain ⟨v1, m1, e1⟩ := h.ax0
  obtain ⟨v2, m2, e2⟩ := h.ay0
  obtain ⟨v3, m3, e3⟩ := h.ax1
  obtain ⟨v4, m4, e4⟩ := h.ay1
  obtain ⟨w1, k1, f1⟩ := h'.ax0
  obtain ⟨w2, k2, f2⟩ := h'.ay0
  obtain ⟨w3, k3, f3⟩ := h'.ax1
  obtain ⟨w4, k4, f4⟩ := h'.ay1
  have a1 := h'.x0 _ m1; have a2 := h.x0 _ k1
  have b1 := h'.y0 _ m2; have b2 := h.y0 _ k2
  have c1 := h'.x1 _ m3; have c2 := h.x1 _ k3
  have d1 := h'.y1 _ m4; have d2 := h.y1 _ k4
  refine Prod.ext ?_ (Prod.ext ?_ (Prod.ext ?_ ?_)) <;> apply le_antisymm <;> linarith

theorem bbox_isBox {vs : List (Vtx K)} (h : InRange vs) (h0 : vs ≠ []) : IsBox vs (bbox vs) := by
  obtain ⟨⟨a1, a2, a3⟩, ⟨b1, b2, b3⟩, ⟨c1, c2, c3⟩, ⟨d1, d2, d3⟩⟩ :=
    bboxLoop_spec vs (ExactParams.fmax, ExactParams.fmax, -ExactParams.fmax, -ExactParams.fmax)
  obtain ⟨v, hv⟩ := List.exists_mem_of_ne_nil vs h0
  obtain ⟨hx, hy⟩ := h v hv
  rw [abs_le] at hx hy
  refine ⟨a2, b2, c2, d2, ?_, ?_, ?_, ?_⟩
  · rcases a3 with h | h
    · exact ⟨v, hv, le_antisymm (by rw [bbox]; exact hx.2.trans h.ge) (a2 v hv)⟩
    · exact h
  · rcases b3 with h | h
    · exact ⟨v, hv, le_antisymm (by rw [bbox]; exact hy.2.trans h.ge) (b2 v hv)⟩
    · exact h
  · rcases c3 with h | h
    · exact ⟨v, hv, le_antisymm (c2 v hv) (by rw [bbox]; exact h.le.trans hx.1)⟩
    · exact h
  · rcases d3 with h | h
    · exact ⟨v, hv, le_antisymm (d2 v hv) (by rw [bbox]; exact h.le.trans hy.1)⟩
    · exact h

theorem scaleFactor_eq (vs : List (Vtx K)) :
    scaleFactor vs = max ((bbox vs).2.2.1 - (bbox vs).1) ((bbox vs).2.2.2 - (bbox vs).2.1) := by
  simp [scaleFactor]

theorem normalizeVerts_eq (vs : List (Vtx K)) : normalizeVerts vs =
    vs.map fun v => ⟨(v.x - (bbox vs).1) / scaleFactor vs, (v.y - (bbox vs).2.1) / scaleFactor vs⟩ := by
  simp [normalizeVerts]

theorem scaleFactor_pos {vs : List (Vtx K)} (h : InRange vs) {a b : Vtx K} (ha : a ∈ vs) (hb : b ∈ vs)
    (hab : a ≠ b) : 0 < scaleFactor vs := by
  have hB := bbox_isBox h (List.ne_nil_of_mem ha)
  rw [scaleFactor_eq, lt_max_iff]
  by_contra hc
  simp only [not_or, not_lt] at hc
  apply hab
  have := hB.x0 a ha; have := hB.x1 a ha; have := hB.y0 a ha; have := hB.y1 a ha
  have := hB.x0 b hb; have := hB.x1 b hb; have := hB.y0 b hb; have := hB.y1 b hb
  cases a; cases b
  simp only [Vtx.mk.injEq] at *
  constructor <;> linarith [hc.1, hc.2]

theorem normalized_unit {vs : List (Vtx K)} (h : InRange vs) {a b : Vtx K} (ha : a ∈ vs) (hb : b ∈ vs)
    (hab : a ≠ b) : ∀ v ∈ normalizeVerts vs, Plane.InUnit v := by
  have hs := scaleFactor_pos h ha hb hab
  have hB := bbox_isBox h (List.ne_nil_of_mem ha)
  intro w hw
  rw [normalizeVerts_eq, List.mem_map] at hw
  obtain ⟨v, hv, rfl⟩ := hw
  have h1 := hB.x0 v hv
  have h2 := hB.x1 v hv
  have h3 := hB.y0 v hv
  have h4 := hB.y1 v hv
  have m1 : (bbox vs).2.2.1 - (bbox vs).1 ≤ scaleFactor vs := by rw [scaleFactor_eq]; exact le_max_left _ _
  have m2 : (bbox vs).2.2.2 - (bbox vs).2.1 ≤ scaleFactor vs := by rw [scaleFactor_eq]; exact le_max_right _ _
  refine ⟨div_nonneg (by linarith) hs.le, (div_le_one hs).2 (by linarith), div_nonneg (by linarith) hs.le,
    (div_le_one hs).2 (by linarith)⟩

theorem binIndex_ok {bins : Nat} (hb : 1 ≤ bins) {v : Vtx K} (hv : Plane.InUnit v) :
    ∃ b, binIndex bins v = .ok b ∧ b < bins * bins := by
  have key : ∀ x : K, 0 ≤ x → x ≤ 1 → ExactParams.toUsize (99 / 100 * (bins : K) * x) < bins := by
    intro x h0 h1
    have hbp : (0 : K) < bins := by exact_mod_cast hb
    have hnn : 0 ≤ 99 / 100 * (bins : K) * x := by positivity
    have := ExactParams.toUsize_le _ hnn
    have h2 : 99 / 100 * (bins : K) * x ≤ 99 / 100 * (bins : K) := by
      have : 99 / 100 * (bins : K) * x ≤ 99 / 100 * (bins : K) * 1 := mul_le_mul_of_nonneg_left h1 (by positivity)
      linarith
    have : ((ExactParams.toUsize (99 / 100 * (bins : K) * x) : Nat) : K) < bins := by linarith
    exact_mod_cast this
  have hx := key v.x hv.1 hv.2.1
  have hy := key v.y hv.2.2.1 hv.2.2.2
  unfold binIndex binIndexPos
  simp only [exact_mul, exact_c099, exact_ofNat]
  have ex : (FloatOps.toUsize (99 / 100 * (bins : K) * v.x)) = ExactParams.toUsize (99 / 100 * (bins : K) * v.x) := rfl
  have ey : (FloatOps.toUsize (99 / 100 * (bins : K) * v.y)) = ExactParams.toUsize (99 / 100 * (bins : K) * v.y) := rfl
  rw [ex, ey]
  generalize ExactParams.toUsize (99 / 100 * (bins : K) * v.x) = x at *
  generalize ExactParams.toUsize (99 / 100 * (bins : K) * v.y) = y at *
  have h3 : (y + 1) * bins ≤ bins * bins := Nat.mul_le_mul_right _ hy
  have h4 : (y + 1) * bins = y * bins + bins := by ring
  split
  · exact ⟨_, rfl, by omega⟩
  · rw [if_pos (by omega)]
    exact ⟨_, rfl, by omega⟩

/-- Translation and positive scaling of the input do not change the normalized vertices. -/
theorem normalizeVerts_affine {vs : List (Vtx K)} {k tx ty : K} (hk : 0 < k) (h : InRange vs)
    (h' : InRange (vs.map fun v => (⟨k * v.x + tx, k * v.y + ty⟩ : Vtx K))) :
    normalizeVerts (vs.map fun v => (⟨k * v.x + tx, k * v.y + ty⟩ : Vtx K)) = normalizeVerts vs := by
  by_cases h0 : vs = []
  · subst h0; simp
  set f : Vtx K → Vtx K := fun v => ⟨k * v.x + tx, k * v.y + ty⟩ with hf
  have hB := bbox_isBox h h0
  have hB' := bbox_isBox h' (by simpa using h0)
  have hB2 : IsBox (vs.map f) (k * (bbox vs).1 + tx, k * (bbox vs).2.1 + ty, k * (bbox vs).2.2.1 + tx,
      k * (bbox vs).2.2.2 + ty) := by
    refine ⟨?_, ?_, ?_, ?_, ?_, ?_, ?_, ?_⟩
    · intro w hw; obtain ⟨v, hv, rfl⟩ := List.mem_map.1 hw
      have := mul_le_mul_of_nonneg_left (hB.x0 v hv) hk.le
      simp only [hf]; linarith
    · intro w hw; obtain ⟨v, hv, rfl⟩ := List.mem_map.1 hw
      have := mul_le_mul_of_nonneg_left (hB.y0 v hv) hk.le
      simp only [hf]; linarith
    · intro w hw; obtain ⟨v, hv, rfl⟩ := List.mem_map.1 hw
      have := mul_le_mul_of_nonneg_left (hB.x1 v hv) hk.le
      simp only [hf]; linarith
    · intro w hw; obtain ⟨v, hv, rfl⟩ := List.mem_map.1 hw
      have := mul_le_mul_of_nonneg_left (hB.y1 v hv) hk.le
      simp only [hf]; linarith
    · obtain ⟨v, hv, e⟩ := hB.ax0
      exact ⟨f v, List.mem_map_of_mem hv, by simp only [hf, e]⟩
    · obtain ⟨v, hv, e⟩ := hB.ay0
      exact ⟨f v, List.mem_map_of_mem hv, by simp only [hf, e]⟩
    · obtain ⟨v, hv, e⟩ := hB.ax1
      exact ⟨f v, List.mem_map_of_mem hv, by simp only [hf, e]⟩
    · obtain ⟨v, hv, e⟩ := hB.ay1
      exact ⟨f v, List.mem_map_of_mem hv, by simp only [hf, e]⟩
  have hbb := hB'.unique hB2
  have hsc : scaleFactor (vs.map f) = k * scaleFactor vs := by
    rw [scaleFactor_eq, scaleFactor_eq, hbb, mul_max_of_nonneg _ _ hk.le]
    congr 1 <;> ring
  rw [normalizeVerts_eq, normalizeVerts_eq, hbb, hsc, List.map_map]
  apply List.map_congr_left
  intro v _
  have e : ∀ a b t : K, (k * a + t - (k * b + t)) / (k * scaleFactor vs) = (a - b) / scaleFactor vs := by
    intro a b t
    rw [show k * a + t - (k * b + t) = k * (a - b) by ring]
    exact mul_div_mul_left _ _ hk.ne'
  simp only [Function.comp, hf, e]

end CDT

import Verif.Geo.Run

/-! # Inputs that satisfy the separation hypothesis; transfer between input and normalized coordinates -/

set_option linter.unusedSectionVars false
set_option linter.unusedSimpArgs false
set_option linter.unusedVariables false

namespace CDT

variable {K : Type} [Field K] [LinearOrder K] [IsStrictOrderedRing K] [ExactParams K]

/-- Coordinates are integers. -/
def IntCoords (vs : List (Vtx K)) : Prop := ∀ v ∈ vs, ∃ i j : ℤ, v.x = i ∧ v.y = j

theorem int_div_zero {n : ℤ} {s e : K} (hs : 0 < s) (h : e * s ≤ 1) (hlt : |(n : K) / s| < e) : n = 0 := by
  by_contra hn
  have h1 : (1 : K) ≤ |(n : K)| := by
    rw [← Int.cast_abs]
    exact_mod_cast Int.one_le_abs hn
  rw [abs_div, abs_of_pos hs, div_lt_iff₀ hs] at hlt
  linarith

/-- Integer coordinates whose extent `w` satisfies `w ^ 2 * EPSILON ≤ 1` (for `f64`: up to `2 ^ 26`) are
separated after normalization. -/
theorem sep_of_int {vs : List (Vtx K)} (hi : IntCoords vs) (hr : InRange vs) {a b : Vtx K} (ha : a ∈ vs)
    (hb : b ∈ vs) (hab : a ≠ b) (hw : ExactParams.eps * (scaleFactor vs) ^ 2 ≤ 1) : Sep (normalizeVerts vs) := by
  have hs := scaleFactor_pos hr ha hb hab
  have hB := bbox_isBox hr (List.ne_nil_of_mem ha)
  have hs1 : 1 ≤ scaleFactor vs := by
    have : ∃ n : ℤ, scaleFactor vs = n := by
      obtain ⟨v0, m0, e0⟩ := hB.ax0
      obtain ⟨v1, m1, e1⟩ := hB.ax1
      obtain ⟨v2, m2, e2⟩ := hB.ay0
      obtain ⟨v3, m3, e3⟩ := hB.ay1
      obtain ⟨i0, _, f0, _⟩ := hi v0 m0
      obtain ⟨i1, _, f1, _⟩ := hi v1 m1
      obtain ⟨_, i2, _, f2⟩ := hi v2 m2
      obtain ⟨_, i3, _, f3⟩ := hi v3 m3
      refine ⟨max (i1 - i0) (i3 - i2), ?_⟩
      rw [scaleFactor_eq, ← e0, ← e1, ← e2, ← e3, f0, f1, f2, f3]
      push_cast; rfl
    obtain ⟨n, hn⟩ := this
    rw [hn] at hs ⊢
    have : 0 < n := by exact_mod_cast hs
    exact_mod_cast this
  have hw1 : ExactParams.eps * scaleFactor vs ≤ 1 := by
    refine le_trans ?_ hw
    have he := ExactParams.eps_pos (K := K)
    apply mul_le_mul_of_nonneg_left _ he.le
    nlinarith
  have hs2 : 0 < scaleFactor vs ^ 2 := by positivity
  obtain ⟨v0, m0, e0⟩ := hB.ax0
  obtain ⟨v2, m2, e2⟩ := hB.ay0
  obtain ⟨x0, _, f0, _⟩ := hi v0 m0
  obtain ⟨_, y0, _, f2⟩ := hi v2 m2
  have hmem : ∀ w ∈ normalizeVerts vs, ∃ i j : ℤ, w.x = (i : K) / scaleFactor vs ∧ w.y = (j : K) / scaleFactor vs := by
    intro w hw
    rw [normalizeVerts_eq, List.mem_map] at hw
    obtain ⟨v, hv, rfl⟩ := hw
    obtain ⟨i, j, h1, h2⟩ := hi v hv
    refine ⟨i - x0, j - y0, ?_, ?_⟩
    · simp only [h1, ← e0, f0]; push_cast; rfl
    · simp only [h2, ← e2, f2]; push_cast; rfl
  refine ⟨?_, ?_, ?_⟩
  · intro a ha b hb hlt
    obtain ⟨i, _, h1, _⟩ := hmem a ha
    obtain ⟨i', _, h1', _⟩ := hmem b hb
    rw [h1, h1'] at hlt ⊢
    have : i - i' = 0 := int_div_zero hs hw1 (by push_cast; rw [sub_div]; exact hlt)
    rw [sub_eq_zero.1 this]
  · intro a ha b hb hlt
    obtain ⟨_, i, _, h1⟩ := hmem a ha
    obtain ⟨_, i', _, h1'⟩ := hmem b hb
    rw [h1, h1'] at hlt ⊢
    have : i - i' = 0 := int_div_zero hs hw1 (by push_cast; rw [sub_div]; exact hlt)
    rw [sub_eq_zero.1 this]
  · intro a ha b hb c hc hlt
    obtain ⟨ax, ay, h1, h2⟩ := hmem a ha
    obtain ⟨bx, b_y, h3, h4⟩ := hmem b hb
    obtain ⟨cx, cy, h5, h6⟩ := hmem c hc
    have e : (b.y - a.y) * (c.x - a.x) - (b.x - a.x) * (c.y - a.y) =
        (((b_y - ay) * (cx - ax) - (bx - ax) * (cy - ay) : ℤ) : K) / scaleFactor vs ^ 2 := by
      rw [h1, h2, h3, h4, h5, h6]; push_cast
      field_simp
    rw [e] at hlt ⊢
    rw [int_div_zero hs2 hw hlt]; simp

/-- Hypotheses of the exact-arithmetic theorems about a run: coordinates in range, not all vertices equal,
at least one bin per row, ids fit, predicates separated from zero, enough fuel. -/
structure Good [IdCfg] (fuel : Nat) (bins : Nat → Nat) (vs : List (Vtx K)) : Prop where
  range : InRange vs
  distinct : ∃ a ∈ vs, ∃ b ∈ vs, a ≠ b
  bins : 1 ≤ bins vs.length
  ids : 2 * vs.length + 2 ≤ NONE
  sep : Sep (normalizeVerts vs)
  fuel : 6 * vs.length + 10 ≤ fuel

theorem Good.scale [IdCfg] {fuel : Nat} {bins : Nat → Nat} {vs : List (Vtx K)} (h : Good fuel bins vs) :
    0 < scaleFactor vs := by
  obtain ⟨a, ha, b, hb, hab⟩ := h.distinct
  exact scaleFactor_pos h.range ha hb hab

theorem Good.ne [IdCfg] {fuel : Nat} {bins : Nat → Nat} {vs : List (Vtx K)} (h : Good fuel bins vs) :
    normalizeVerts vs ≠ [] := by
  obtain ⟨a, ha, _⟩ := h.distinct
  rw [normalizeVerts_eq]
  simpa using List.ne_nil_of_mem ha

/-- The run on a good input. -/
theorem Good.run [IdCfg] {fuel : Nat} {bins : Nat → Nat} {vs : List (Vtx K)} (h : Good fuel bins vs)
    {m : Option (List Nat)} (hm : MergeInit vs.length m) :
    wrapAndTriangulate fuel (bins vs.length) (normalizeVerts vs) m = .err .placementNotFound ∨
    ∃ s done ins first, wrapAndTriangulate fuel (bins vs.length) (normalizeVerts vs) m = .ok s ∧
      DInv (normalizeVerts vs) done ins s ∧ done.Perm (List.range vs.length) ∧ first < vs.length ∧ first ∈ ins ∧
      Relation.ReflTransGen (MStep (hp (normalizeVerts vs))) (initialTriangles first) s.ts := by
  obtain ⟨a, ha, b, hb, hab⟩ := h.distinct
  have hl : (normalizeVerts vs).length = vs.length := by rw [normalizeVerts_eq]; simp
  have := wrap_total (fuel := fuel) (m := m) h.ne h.sep (normalized_unit h.range ha hb hab) h.bins
    (by rw [hl]; exact h.ids) (by rw [hl]; exact h.fuel) (by rw [hl]; exact hm)
  rw [hl] at this
  exact this

theorem normalizeVerts_get {vs : List (Vtx K)} {i : Nat} {w : Vtx K} (h : (normalizeVerts vs)[i]? = some w) :
    ∃ v, vs[i]? = some v ∧ w = ⟨(v.x - (bbox vs).1) / scaleFactor vs, (v.y - (bbox vs).2.1) / scaleFactor vs⟩ := by
  rw [normalizeVerts_eq, List.getElem?_map, Option.map_eq_some_iff] at h
  obtain ⟨v, h1, h2⟩ := h
  exact ⟨v, h1, h2.symm⟩

theorem area2_normalized (a b c : Vtx K) (tx ty s : K) (hs : s ≠ 0) :
    Plane.area2 (⟨(a.x - tx) / s, (a.y - ty) / s⟩ : Vtx K) ⟨(b.x - tx) / s, (b.y - ty) / s⟩
      ⟨(c.x - tx) / s, (c.y - ty) / s⟩ = Plane.area2 a b c / s ^ 2 := by
  unfold Plane.area2
  field_simp
  ring

theorem o_area2 (a b c : Vtx K) : HP.o (HP.ofVtx a) (HP.ofVtx b) (HP.ofVtx c) = - Plane.area2 a b c := by
  simp only [HP.o, HP.ofVtx, Plane.area2]; ring

end CDT

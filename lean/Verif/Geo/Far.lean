import Verif.Geo.Sep
import Verif.Spec.Symbolic

/-! # Homogeneous orientation and far positions -/

set_option linter.unusedSectionVars false
set_option linter.unusedSimpArgs false
set_option linter.unusedVariables false

namespace CDT
open Plane

variable {K : Type} [Field K] [LinearOrder K] [IsStrictOrderedRing K]

theorem lin_pos {q : K} (hq : 0 < q) (c : K) : ∃ R, 0 ≤ R ∧ ∀ r, R ≤ r → 0 < r * q + c := by
  refine ⟨(|c| + 1) / q, by positivity, fun r hr => ?_⟩
  rw [div_le_iff₀ hq] at hr
  have := neg_abs_le c
  linarith

theorem quad_pos {q : K} (hq : 0 < q) (l c : K) : ∃ R, 0 ≤ R ∧ ∀ r, R ≤ r → 0 < r ^ 2 * q + r * l + c := by
  obtain ⟨R, h0, h⟩ := lin_pos hq (l - |c|)
  refine ⟨max R 1, le_max_of_le_left h0, fun r hr => ?_⟩
  have h1 := h r (le_trans (le_max_left _ _) hr)
  have h2 : 1 ≤ r := le_trans (le_max_right _ _) hr
  have h3 := neg_abs_le c
  have h4 := abs_nonneg c
  nlinarith [mul_pos (lt_of_lt_of_le one_pos h2) h1, mul_le_mul_of_nonneg_right h2 h4]

/-- Far position of a homogeneous point. -/
def HP.far (r : K) (a : HP K) : Vtx K := if a.w = 0 then ⟨r * a.x, r * a.y⟩ else ⟨a.x, a.y⟩

theorem far_o {a b c : HP K} (ha : a.w = 0 ∨ a.w = 1) (hb : b.w = 0 ∨ b.w = 1) (hc : c.w = 0 ∨ c.w = 1)
    (h : 0 < HP.o a b c) : ∃ R, 0 ≤ R ∧ ∀ r, R ≤ r → Clockwise (a.far r) (b.far r) (c.far r) := by
  have one : ∀ {a b c : HP K}, a.w = 0 → b.w = 1 → c.w = 1 → 0 < HP.o a b c →
      ∃ R, 0 ≤ R ∧ ∀ r, R ≤ r → Clockwise (a.far r) (b.far r) (c.far r) := by
    intro a b c ha hb hc h
    obtain ⟨R, h0, hR⟩ := lin_pos h (HP.o ⟨0, 0, 1⟩ b c)
    refine ⟨R, h0, fun r hr => ?_⟩
    have := hR r hr
    simp only [Clockwise, area2, HP.far, ha, hb, hc, if_true, one_ne_zero, if_false]
    simp only [HP.o, ha, hb, hc] at this
    linarith
  have two : ∀ {a b c : HP K}, a.w = 0 → b.w = 0 → c.w = 1 → 0 < HP.o a b c →
      ∃ R, 0 ≤ R ∧ ∀ r, R ≤ r → Clockwise (a.far r) (b.far r) (c.far r) := by
    intro a b c ha hb hc h
    obtain ⟨R, h0, hR⟩ := quad_pos h (HP.o a ⟨0, 0, 1⟩ c + HP.o ⟨0, 0, 1⟩ b c) 0
    refine ⟨R, h0, fun r hr => ?_⟩
    have := hR r hr
    simp only [Clockwise, area2, HP.far, ha, hb, hc, if_true, one_ne_zero, if_false]
    simp only [HP.o, ha, hb, hc] at this
    linarith
  have cyc : ∀ (a b c : HP K) (r : K), Clockwise (b.far r) (c.far r) (a.far r) → Clockwise (a.far r) (b.far r) (c.far r) := by
    intro a b c r h
    unfold Clockwise at *
    rwa [← area2_cyc]
  have cyc' : ∀ (a b c : HP K) (r : K), Clockwise (c.far r) (a.far r) (b.far r) → Clockwise (a.far r) (b.far r) (c.far r) :=
    fun a b c r h => cyc a b c r (cyc b c a r h)
  rcases ha with ha | ha <;> rcases hb with hb | hb <;> rcases hc with hc | hc
  · rw [HP.o_inf3 ha hb hc] at h; exact absurd h (lt_irrefl _)
  · exact two ha hb hc h
  · obtain ⟨R, h0, hR⟩ := two hc ha hb (by rwa [HP.o_cyc'])
    exact ⟨R, h0, fun r hr => cyc' _ _ _ _ (hR r hr)⟩
  · exact one ha hb hc h
  · obtain ⟨R, h0, hR⟩ := two hb hc ha (by rwa [HP.o_cyc])
    exact ⟨R, h0, fun r hr => cyc _ _ _ _ (hR r hr)⟩
  · obtain ⟨R, h0, hR⟩ := one hb hc ha (by rwa [HP.o_cyc])
    exact ⟨R, h0, fun r hr => cyc _ _ _ _ (hR r hr)⟩
  · obtain ⟨R, h0, hR⟩ := one hc ha hb (by rwa [HP.o_cyc'])
    exact ⟨R, h0, fun r hr => cyc' _ _ _ _ (hR r hr)⟩
  · refine ⟨0, le_rfl, fun r _ => ?_⟩
    simp only [Clockwise, area2, HP.far, ha, hb, hc, one_ne_zero, if_false]
    simp only [HP.o, ha, hb, hc] at h
    linarith

variable [ExactParams K] [IdCfg]

theorem far_hp (vs : List (Vtx K)) (r : K) (i : Nat) : (hp vs i).far r = farPos vs r i := by
  unfold hp farPos
  split
  · simp [HP.far, HP.ofVtx]
  · split
    · simp [HP.far, HP.dir]
    · split
      · simp [HP.far, HP.dir]
      · split <;> simp [HP.far, HP.dir]

theorem far_ofVtx (v : Vtx K) (r : K) : (HP.ofVtx v).far r = v := by simp [HP.far, HP.ofVtx]

theorem farClockwise_of {vs : List (Vtx K)} {a b c : Nat} (h : 0 < HP.o (hp vs a) (hp vs b) (hp vs c)) :
    FarClockwise vs a b c := by
  obtain ⟨R, _, hR⟩ := far_o (hp_w vs a) (hp_w vs b) (hp_w vs c) h
  exact ⟨R, fun r hr => by simpa [far_hp] using hR r hr⟩

theorem farInTriangle_of {vs : List (Vtx K)} {t : Tri} {p : Vtx K} (h : ∀ k, 0 < sideO (hp vs) t (HP.ofVtx p) k) :
    FarInTriangle vs t.v1 t.v2 t.v3 p := by
  have hw : (HP.ofVtx p).w = 0 ∨ (HP.ofVtx p).w = 1 := .inr rfl
  obtain ⟨R1, _, h1⟩ := far_o (hp_w vs _) (hp_w vs _) hw (h 0)
  obtain ⟨R2, _, h2⟩ := far_o (hp_w vs _) (hp_w vs _) hw (h 1)
  obtain ⟨R3, _, h3⟩ := far_o (hp_w vs _) (hp_w vs _) hw (h 2)
  refine ⟨max R1 (max R2 R3), fun r hr => ?_⟩
  have k1 := h1 r (le_trans (le_max_left _ _) hr)
  have k2 := h2 r (le_trans (le_trans (le_max_left _ _) (le_max_right _ _)) hr)
  have k3 := h3 r (le_trans (le_trans (le_max_right _ _) (le_max_right _ _)) hr)
  simp only [far_hp, far_ofVtx] at k1 k2 k3
  exact ⟨k1, k2, k3⟩

/-- The converse, for points not on a side. -/
theorem sideO_of_far {vs : List (Vtx K)} {t : Tri} {p : Vtx K} (h : FarInTriangle vs t.v1 t.v2 t.v3 p)
    (hg : ∀ k, sideO (hp vs) t (HP.ofVtx p) k ≠ 0) : ∀ k, 0 < sideO (hp vs) t (HP.ofVtx p) k := by
  obtain ⟨R, hR⟩ := h
  have hw : (HP.ofVtx p).w = 0 ∨ (HP.ofVtx p).w = 1 := .inr rfl
  intro k
  by_contra hc
  have hneg : 0 < HP.o (hp vs (t.v (k + 1))) (hp vs (t.v k)) (HP.ofVtx p) := by
    rw [HP.o_swap]
    have := lt_of_le_of_ne (not_lt.1 hc) (hg k)
    unfold sideO at this; linarith
  obtain ⟨R', _, h'⟩ := far_o (hp_w vs _) (hp_w vs _) hw hneg
  have k1 := h' (max R R') (le_max_right _ _)
  have k2 := hR (max R R') (le_max_left _ _)
  simp only [far_hp, far_ofVtx] at k1
  unfold Clockwise at k1
  rw [area2_swap] at k1
  obtain ⟨a1, a2, a3⟩ := k2
  unfold Clockwise at a1 a2 a3
  fin_cases k
  · simp only [Tri.v] at k1; exact absurd a1 (by simp at k1; linarith)
  · exact absurd a2 (by have : Plane.area2 (farPos vs (max R R') t.v2) (farPos vs (max R R') t.v3) p > 0 := by simpa using k1
                        linarith)
  · exact absurd a3 (by have : Plane.area2 (farPos vs (max R R') t.v3) (farPos vs (max R R') t.v1) p > 0 := by simpa using k1
                        linarith)

theorem adjacency_of {H : Nat → HP K} {ts : List Tri} (hv : Valid H ts) : Spec.Adjacency ts := by
  intro i t ht a b j he
  have hh : Has t a b j := by
    simp only [Spec.edges, List.mem_cons, Prod.mk.injEq, List.not_mem_nil, or_false] at he
    rcases he with ⟨rfl, rfl, rfl⟩ | ⟨rfl, rfl, rfl⟩ | ⟨rfl, rfl, rfl⟩
    · exact has_0 t
    · exact has_1 t
    · exact has_2 t
  rcases hv.adj _ _ _ _ ⟨t, ht, hh⟩ with ⟨h1, h2, h3⟩ | ⟨h1, u, hu, h2⟩
  · exact .inl ⟨h1, not_lt.1 h2, not_lt.1 h3⟩
  · refine .inr ⟨lt_of_getElem? hu, u, hu, ?_⟩
    simp only [Spec.edges, List.mem_cons, Prod.mk.injEq, List.not_mem_nil, or_false]
    rcases h2 with ⟨rfl, rfl, rfl⟩ | ⟨rfl, rfl, rfl⟩ | ⟨rfl, rfl, rfl⟩ <;> simp

end CDT

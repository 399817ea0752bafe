import Verif.Geo.Run
import Mathlib.Order.Interval.Set.Infinite
import Mathlib.Data.List.FinRange

/-! # The triangles of the mesh tile the plane -/

set_option linter.unusedSectionVars false
set_option linter.unusedSimpArgs false
set_option linter.unusedVariables false

namespace CDT

variable {K : Type} [Field K] [LinearOrder K] [IsStrictOrderedRing K]

/-- `g` is strictly inside the clockwise triangle. -/
def In3 (a b c g : HP K) : Prop := 0 < HP.o a b g ∧ 0 < HP.o b c g ∧ 0 < HP.o c a g

theorem In3.cyc {a b c g : HP K} (h : In3 a b c g) : In3 b c a g := ⟨h.2.1, h.2.2, h.1⟩

theorem in3_of_sub {a b c p g : HP K} (hD : 0 < HP.o p a b) (h2 : 0 < HP.o b c p) (h3 : 0 < HP.o c a p)
    (hc : 0 < HP.o a b c) (h : In3 p a b g) : In3 a b c g := by
  obtain ⟨g1, g2, g3⟩ := h
  have e1 := HP.bary_o p a b g b c
  have e2 := HP.bary_o p a b g c a
  rw [HP.o_same'' b c, HP.o_cyc a b c] at e1
  rw [HP.o_same' c a, HP.o_cyc' a b c] at e2
  refine ⟨g2, ?_, ?_⟩
  · by_contra hn
    have := mul_nonpos_of_nonneg_of_nonpos hD.le (not_lt.1 hn)
    have := mul_pos g2 h2
    have := mul_pos g3 hc
    linarith
  · by_contra hn
    have := mul_nonpos_of_nonneg_of_nonpos hD.le (not_lt.1 hn)
    have := mul_pos g2 h3
    have := mul_pos g1 hc
    linarith

/-- Split in three: a point of the triangle off the new edges is in exactly one part. -/
theorem in3_split3 {a b c p g : HP K} (h1 : 0 < HP.o a b p) (h2 : 0 < HP.o b c p) (h3 : 0 < HP.o c a p)
    (na : HP.o p a g ≠ 0) (nb : HP.o p b g ≠ 0) (nc : HP.o p c g ≠ 0) (h : In3 a b c g) :
    (In3 p c a g ∧ ¬ In3 p b c g ∧ ¬ In3 p a b g) ∨ (¬ In3 p c a g ∧ In3 p b c g ∧ ¬ In3 p a b g) ∨
      (¬ In3 p c a g ∧ ¬ In3 p b c g ∧ In3 p a b g) := by
  have key : HP.o b c p * HP.o p a g + HP.o c a p * HP.o p b g + HP.o a b p * HP.o p c g = 0 := by
    simp only [HP.o]; ring
  have sa : HP.o a p g = - HP.o p a g := HP.o_swap _ _ _
  have sb : HP.o b p g = - HP.o p b g := HP.o_swap _ _ _
  have sc : HP.o c p g = - HP.o p c g := HP.o_swap _ _ _
  obtain ⟨g1, g2, g3⟩ := h
  unfold In3
  rw [sa, sb, sc]
  rcases lt_or_gt_of_ne na with ha | ha <;> rcases lt_or_gt_of_ne nb with hb | hb <;>
    rcases lt_or_gt_of_ne nc with hc | hc
  · exfalso
    have := mul_neg_of_pos_of_neg h2 ha; have := mul_neg_of_pos_of_neg h3 hb; have := mul_neg_of_pos_of_neg h1 hc
    linarith
  · left; exact ⟨⟨by linarith, by linarith, by linarith⟩, fun h => by linarith [h.1], fun h => by linarith [h.1]⟩
  · right; left; exact ⟨fun h => by linarith [h.1], ⟨by linarith, by linarith, by linarith⟩, fun h => by linarith [h.1]⟩
  · left; exact ⟨⟨by linarith, by linarith, by linarith⟩, fun h => by linarith [h.2.2], fun h => by linarith [h.1]⟩
  · right; right; exact ⟨fun h => by linarith [h.1], fun h => by linarith [h.1], ⟨by linarith, by linarith, by linarith⟩⟩
  · right; right; exact ⟨fun h => by linarith [h.2.2], fun h => by linarith [h.1], ⟨by linarith, by linarith, by linarith⟩⟩
  · right; left; exact ⟨fun h => by linarith [h.1], ⟨by linarith, by linarith, by linarith⟩, fun h => by linarith [h.2.2]⟩
  · exfalso
    have := mul_pos h2 ha; have := mul_pos h3 hb; have := mul_pos h1 hc
    linarith

/-- Half of a triangle cut from the vertex `o` to a point `p` of the opposite edge `x y`. -/
theorem in3_of_half {x y o p g : HP K} (hD : 0 < HP.o x y o) (h0 : HP.o x y p = 0) (h1 : 0 < HP.o y o p)
    (h2 : 0 < HP.o o x p) : (In3 p o x g → In3 x y o g) ∧ (In3 p y o g → In3 x y o g) := by
  have e1 : HP.o x y o * HP.o x p g = HP.o o x p * HP.o x y g := by
    have : HP.o x y o * HP.o x p g = HP.o o x p * HP.o x y g + HP.o x y p * HP.o x o g := by
      simp only [HP.o]; ring
    rw [h0] at this; linarith
  have e2 : HP.o x y o * HP.o p y g = HP.o y o p * HP.o x y g := by
    have : HP.o x y o * HP.o p y g = HP.o y o p * HP.o x y g + HP.o x y p * HP.o o y g := by
      simp only [HP.o]; ring
    rw [h0] at this; linarith
  constructor
  · rintro ⟨g1, g2, g3⟩
    have hxy : 0 < HP.o x y g := by
      by_contra hn
      have := mul_nonpos_of_nonneg_of_nonpos h2.le (not_lt.1 hn)
      have := mul_pos hD g3
      linarith
    refine ⟨hxy, ?_, g2⟩
    have e3 := HP.bary_o p o x g y o
    rw [HP.o_same' y o, HP.o_cyc x y o] at e3
    have d : 0 < HP.o p o x := by rwa [HP.o_cyc']
    by_contra hn
    have := mul_nonpos_of_nonneg_of_nonpos d.le (not_lt.1 hn)
    have := mul_pos g1 hD
    have := mul_pos g2 h1
    linarith
  · rintro ⟨g1, g2, g3⟩
    have hxy : 0 < HP.o x y g := by
      by_contra hn
      have := mul_nonpos_of_nonneg_of_nonpos h1.le (not_lt.1 hn)
      have := mul_pos hD g1
      linarith
    refine ⟨hxy, g2, ?_⟩
    have e3 := HP.bary_o p y o g o x
    rw [HP.o_same'' o x, HP.o_cyc' x y o] at e3
    have d : 0 < HP.o p y o := by rwa [HP.o_cyc']
    by_contra hn
    have := mul_nonpos_of_nonneg_of_nonpos d.le (not_lt.1 hn)
    have := mul_pos g3 hD
    have := mul_pos g2 h2
    linarith

theorem in3_halves {x y o p g : HP K} (hD : 0 < HP.o x y o) (h0 : HP.o x y p = 0) (h1 : 0 < HP.o y o p)
    (h2 : 0 < HP.o o x p) (n : HP.o p o g ≠ 0) (h : In3 x y o g) :
    (In3 p o x g ∧ ¬ In3 p y o g) ∨ (¬ In3 p o x g ∧ In3 p y o g) := by
  have e1 : HP.o x y o * HP.o x p g = HP.o o x p * HP.o x y g := by
    have : HP.o x y o * HP.o x p g = HP.o o x p * HP.o x y g + HP.o x y p * HP.o x o g := by
      simp only [HP.o]; ring
    rw [h0] at this; linarith
  have e2 : HP.o x y o * HP.o p y g = HP.o y o p * HP.o x y g := by
    have : HP.o x y o * HP.o p y g = HP.o y o p * HP.o x y g + HP.o x y p * HP.o o y g := by
      simp only [HP.o]; ring
    rw [h0] at this; linarith
  obtain ⟨g1, g2, g3⟩ := h
  have hxp : 0 < HP.o x p g := by
    by_contra hn
    have := mul_nonpos_of_nonneg_of_nonpos hD.le (not_lt.1 hn)
    have := mul_pos h2 g1
    linarith
  have hpy : 0 < HP.o p y g := by
    by_contra hn
    have := mul_nonpos_of_nonneg_of_nonpos hD.le (not_lt.1 hn)
    have := mul_pos h1 g1
    linarith
  have so : HP.o o p g = - HP.o p o g := HP.o_swap _ _ _
  unfold In3
  rw [so]
  rcases lt_or_gt_of_ne n with hn | hn
  · right; exact ⟨fun h => by linarith [h.1], hpy, g2, by linarith⟩
  · left; exact ⟨⟨hn, g3, hxp⟩, fun h => by linarith [h.2.2]⟩

/-- Convex quad `p a c b`: a point of the triangle `p a b` off the other diagonal `p c`. -/
theorem in3_quad {p a b c g : HP K} (h1 : 0 < HP.o p a b) (h2 : 0 < HP.o b a c) (h3 : 0 < HP.o p a c)
    (h4 : 0 < HP.o p c b) (n : HP.o p c g ≠ 0) (h : In3 p a b g) : In3 p a c g ∨ In3 p c b g := by
  obtain ⟨g1, g2, g3⟩ := h
  rcases lt_or_gt_of_ne n with hn | hn
  · left
    refine ⟨g1, ?_, by rw [HP.o_swap]; linarith⟩
    have e := HP.bary_o p a b g a c
    rw [HP.o_same'' a c, HP.o_cyc p a c, HP.o_cyc b a c] at e
    by_contra hc
    have := mul_nonpos_of_nonneg_of_nonpos h1.le (not_lt.1 hc)
    have := mul_pos g2 h3
    have := mul_pos g1 h2
    linarith
  · right
    refine ⟨hn, ?_, g3⟩
    have e := HP.bary_o p a b g c b
    rw [HP.o_same' c b, HP.o_cyc p c b, HP.o_cyc' b a c] at e
    by_contra hc
    have := mul_nonpos_of_nonneg_of_nonpos h1.le (not_lt.1 hc)
    have := mul_pos g2 h4
    have := mul_pos g3 h2
    linarith

section
variable [IdCfg] {H : Nat → HP K} {ts ts' : List Tri} {g : HP K}

/-- `g` is strictly inside triangle number `i`. -/
def InAt (H : Nat → HP K) (ts : List Tri) (g : HP K) (i : Nat) : Prop :=
  ∃ t, ts[i]? = some t ∧ In3 (H t.v1) (H t.v2) (H t.v3) g

/-- Exactly one triangle contains `g`. -/
def Tile (H : Nat → HP K) (ts : List Tri) (g : HP K) : Prop := ∃ i, InAt H ts g i ∧ ∀ j, InAt H ts g j → j = i

/-- `g` is not on the line of an edge. -/
def Gen (H : Nat → HP K) (ts : List Tri) (g : HP K) : Prop :=
  ∀ i a b j, Ent ts i a b j → HP.o (H a) (H b) g ≠ 0

theorem inAt_get {i : Nat} {t : Tri} (ht : ts[i]? = some t) : InAt H ts g i ↔ In3 (H t.v1) (H t.v2) (H t.v3) g := by
  constructor
  · rintro ⟨t', ht', h⟩; rw [ht] at ht'; simp at ht'; subst ht'; exact h
  · intro h; exact ⟨t, ht, h⟩

theorem inAt_rot {i : Nat} {t : Tri} {a b c j1 j2 j3 : Nat} (ht : ts[i]? = some t) (hR : Rot t a b c j1 j2 j3) :
    InAt H ts g i ↔ In3 (H a) (H b) (H c) g := by
  rw [inAt_get ht]
  rcases hR with rfl | rfl | rfl
  · exact Iff.rfl
  · exact ⟨fun h => h.cyc, fun h => h.cyc.cyc⟩
  · exact ⟨fun h => h.cyc.cyc, fun h => h.cyc⟩

theorem inAt_lt {i : Nat} (h : InAt H ts g i) : i < ts.length := by
  obtain ⟨t, ht, _⟩ := h; exact lt_of_getElem? ht

theorem inAt_other {i : Nat} (hi : i < ts'.length)
    (h : ∀ t', ts'[i]? = some t' → ∃ u, ts[i]? = some u ∧ t'.v1 = u.v1 ∧ t'.v2 = u.v2 ∧ t'.v3 = u.v3) :
    InAt H ts' g i ↔ InAt H ts g i := by
  obtain ⟨t', ht', _⟩ := getI_lt hi
  obtain ⟨u, hu, e1, e2, e3⟩ := h t' ht'
  rw [inAt_get ht', inAt_get hu, e1, e2, e3]

theorem tile_step (hst : MStep H ts ts') (hv : Valid H ts) (hg : Gen H ts g) (hg' : Gen H ts' g)
    (ht : Tile H ts g) : Tile H ts' g := by
  have hv' := hst.valid hv
  obtain ⟨i, hi, hu⟩ := ht
  cases hst with
  | split3 hT hs hl h =>
    rename_i t1 p t
    have hlt := lt_of_getElem? hT
    have other : ∀ {j}, j < ts.length → j ≠ t1 → (InAt H ts' g j ↔ InAt H ts g j) := fun {j} hj hj1 =>
      inAt_other (by rw [hs.len]; omega) (fun t' => hs.verts_other hj hj1)
    have I1 : InAt H ts' g t1 ↔ _ := inAt_get hs.h1
    have I2 : InAt H ts' g ts.length ↔ _ := inAt_get hs.h2
    have I3 : InAt H ts' g (ts.length + 1) ↔ _ := inAt_get hs.h3
    have IT : InAt H ts g t1 ↔ _ := inAt_get hT
    simp only at I1 I2 I3
    have hp := hv.pos _ _ hT
    have P1 : 0 < HP.o (H t.v1) (H t.v2) (H p) := h 0
    have P2 : 0 < HP.o (H t.v2) (H t.v3) (H p) := h 1
    have P3 : 0 < HP.o (H t.v3) (H t.v1) (H p) := h 2
    have hp1 : 0 < HP.o (H t.v2) (H t.v3) (H t.v1) := by rw [HP.o_cyc]; exact hp
    have hp2 : 0 < HP.o (H t.v3) (H t.v1) (H t.v2) := by rw [HP.o_cyc']; exact hp
    have sub : ∀ {j}, InAt H ts' g j → (j < ts.length ∧ j ≠ t1 ∧ InAt H ts g j) ∨ InAt H ts g t1 := by
      intro j hj
      have hjl := inAt_lt hj
      rw [hs.len] at hjl
      by_cases j1 : j = t1
      · right; rw [j1, I1] at hj
        exact IT.2 (in3_of_sub (by rw [HP.o_cyc']; exact P3) P1 P2 hp2 hj).cyc
      by_cases j2 : j = ts.length
      · right; rw [j2, I2] at hj
        exact IT.2 (in3_of_sub (by rw [HP.o_cyc']; exact P2) P3 P1 hp1 hj).cyc.cyc
      by_cases j3 : j = ts.length + 1
      · right; rw [j3, I3] at hj
        exact IT.2 (in3_of_sub (by rw [HP.o_cyc']; exact P1) P2 P3 hp hj)
      left
      have hl' : j < ts.length := by omega
      exact ⟨hl', j1, (other hl' j1).1 hj⟩
    by_cases hit : InAt H ts g t1
    · have na : HP.o (H p) (H t.v1) g ≠ 0 := hg' _ _ _ _ ⟨_, hs.h3, has_0 _⟩
      have nb : HP.o (H p) (H t.v2) g ≠ 0 := hg' _ _ _ _ ⟨_, hs.h2, has_0 _⟩
      have nc : HP.o (H p) (H t.v3) g ≠ 0 := hg' _ _ _ _ ⟨_, hs.h1, has_0 _⟩
      have key := in3_split3 P1 P2 P3 na nb nc (IT.1 hit)
      have noOther : ∀ {j}, InAt H ts' g j → j = t1 ∨ j = ts.length ∨ j = ts.length + 1 := by
        intro j hj
        by_contra hc
        simp only [not_or] at hc
        have hjl := inAt_lt hj
        rw [hs.len] at hjl
        have := (other (by omega) hc.1).1 hj
        exact hc.1 ((hu _ this).trans (hu _ hit).symm)
      rw [← I1, ← I2, ← I3] at key
      rcases key with ⟨k1, k2, k3⟩ | ⟨k1, k2, k3⟩ | ⟨k1, k2, k3⟩
      · refine ⟨t1, k1, fun j hj => ?_⟩
        rcases noOther hj with rfl | rfl | rfl
        · rfl
        · exact absurd hj k2
        · exact absurd hj k3
      · refine ⟨ts.length, k2, fun j hj => ?_⟩
        rcases noOther hj with rfl | rfl | rfl
        · exact absurd hj k1
        · rfl
        · exact absurd hj k3
      · refine ⟨ts.length + 1, k3, fun j hj => ?_⟩
        rcases noOther hj with rfl | rfl | rfl
        · exact absurd hj k1
        · exact absurd hj k2
        · rfl
    · have i1 : i ≠ t1 := by rintro rfl; exact hit hi
      refine ⟨i, (other (inAt_lt hi) i1).2 hi, fun j hj => ?_⟩
      rcases sub hj with ⟨_, _, h'⟩ | h'
      · exact hu _ h'
      · exact absurd h' hit
  | split4 hs hl h0 h1 h2 =>
    rename_i t1 t2 p x y o1 o2 n1 n2 n3 n4
    obtain ⟨_, _, _, _, _, _, ne, l1, l2, _⟩ := hs.facts hv
    obtain ⟨q1, q2, q3, q4⟩ := hs.pos4 hv h0 h1 h2
    obtain ⟨a, ha, hRa⟩ := hs.g1
    obtain ⟨b, hb, hRb⟩ := hs.g2
    have hpa := hRa.pos_iff.1 (hv.pos _ _ ha)
    have hpb := hRb.pos_iff.1 (hv.pos _ _ hb)
    have other : ∀ {j}, j < ts.length → j ≠ t1 → j ≠ t2 → (InAt H ts' g j ↔ InAt H ts g j) := fun {j} hj hj1 hj2 =>
      inAt_other (by rw [hs.len]; omega) (fun t' => hs.verts_other hj hj1 hj2)
    have I1 : InAt H ts' g t1 ↔ _ := inAt_get hs.h1
    have I2 : InAt H ts' g t2 ↔ _ := inAt_get hs.h2
    have I3 : InAt H ts' g ts.length ↔ _ := inAt_get hs.h3
    have I4 : InAt H ts' g (ts.length + 1) ↔ _ := inAt_get hs.h4
    have IA : InAt H ts g t1 ↔ _ := inAt_rot ha hRa
    have IB : InAt H ts g t2 ↔ _ := inAt_rot hb hRb
    simp only at I1 I2 I3 I4
    have h0' : HP.o (H y) (H x) (H p) = 0 := by rw [HP.o_swap, h0, neg_zero]
    have r1 : 0 < HP.o (H x) (H o2) (H p) := by rwa [HP.o_cyc (H p)]
    have r2 : 0 < HP.o (H o2) (H y) (H p) := by rwa [HP.o_cyc (H p)]
    have A1 := fun (g : HP K) => in3_of_half (g := g) hpa h0 h1 h2
    have B1 := fun (g : HP K) => in3_of_half (g := g) hpb h0' r1 r2
    have m1 : HP.o (H p) (H o1) g ≠ 0 := hg' _ _ _ _ ⟨_, hs.h1, has_0 _⟩
    have m2 : HP.o (H p) (H o2) g ≠ 0 := hg' _ _ _ _ ⟨_, hs.h4, has_0 _⟩
    by_cases hia : InAt H ts g t1
    · have hib : ¬ InAt H ts g t2 := fun h => ne ((hu _ hia).trans (hu _ h).symm)
      have nb2 : ¬ InAt H ts' g t2 := fun h => hib (IB.2 ((B1 g).2 (I2.1 h)))
      have nb4 : ¬ InAt H ts' g (ts.length + 1) := fun h => hib (IB.2 ((B1 g).1 (I4.1 h)))
      have noOther : ∀ {j}, InAt H ts' g j → j = t1 ∨ j = ts.length := by
        intro j hj
        by_contra hc
        simp only [not_or] at hc
        have hjl := inAt_lt hj
        rw [hs.len] at hjl
        have j2 : j ≠ t2 := by rintro rfl; exact nb2 hj
        have j4 : j ≠ ts.length + 1 := by rintro rfl; exact nb4 hj
        have := (other (by omega) hc.1 j2).1 hj
        exact hc.1 ((hu _ this).trans (hu _ hia).symm)
      have key := in3_halves hpa h0 h1 h2 m1 (IA.1 hia)
      rw [← I1, ← I3] at key
      rcases key with ⟨k1, k3⟩ | ⟨k1, k3⟩
      · refine ⟨t1, k1, fun j hj => ?_⟩
        rcases noOther hj with rfl | rfl
        · rfl
        · exact absurd hj k3
      · refine ⟨ts.length, k3, fun j hj => ?_⟩
        rcases noOther hj with rfl | rfl
        · exact absurd hj k1
        · rfl
    have na1 : ¬ InAt H ts' g t1 := fun h => hia (IA.2 ((A1 g).1 (I1.1 h)))
    have na3 : ¬ InAt H ts' g ts.length := fun h => hia (IA.2 ((A1 g).2 (I3.1 h)))
    by_cases hib : InAt H ts g t2
    · have noOther : ∀ {j}, InAt H ts' g j → j = t2 ∨ j = ts.length + 1 := by
        intro j hj
        by_contra hc
        simp only [not_or] at hc
        have hjl := inAt_lt hj
        rw [hs.len] at hjl
        have j1 : j ≠ t1 := by rintro rfl; exact na1 hj
        have j3 : j ≠ ts.length := by rintro rfl; exact na3 hj
        have := (other (by omega) j1 hc.1).1 hj
        exact hc.1 ((hu _ this).trans (hu _ hib).symm)
      have key := in3_halves hpb h0' r1 r2 m2 (IB.1 hib)
      rw [← I2, ← I4] at key
      rcases key with ⟨k1, k3⟩ | ⟨k1, k3⟩
      · refine ⟨ts.length + 1, k1, fun j hj => ?_⟩
        rcases noOther hj with rfl | rfl
        · exact absurd hj k3
        · rfl
      · refine ⟨t2, k3, fun j hj => ?_⟩
        rcases noOther hj with rfl | rfl
        · rfl
        · exact absurd hj k1
    · have nb2 : ¬ InAt H ts' g t2 := fun h => hib (IB.2 ((B1 g).2 (I2.1 h)))
      have nb4 : ¬ InAt H ts' g (ts.length + 1) := fun h => hib (IB.2 ((B1 g).1 (I4.1 h)))
      have i1 : i ≠ t1 := by rintro rfl; exact hia hi
      have i2 : i ≠ t2 := by rintro rfl; exact hib hi
      refine ⟨i, (other (inAt_lt hi) i1 i2).2 hi, fun j hj => ?_⟩
      have hjl := inAt_lt hj
      rw [hs.len] at hjl
      have j1 : j ≠ t1 := by rintro rfl; exact na1 hj
      have j2 : j ≠ t2 := by rintro rfl; exact nb2 hj
      have j3 : j ≠ ts.length := by rintro rfl; exact na3 hj
      have j4 : j ≠ ts.length + 1 := by rintro rfl; exact nb4 hj
      exact hu _ ((other (by omega) j1 j2).1 hj)
  | flip hs h1 h2 =>
    rename_i s o p a b c n1 n2 n3 n4
    have hso := hs.s_ne_o hv
    obtain ⟨S, hS, hRS⟩ := hs.hs
    obtain ⟨U, hU, hRU⟩ := hs.ho
    obtain ⟨S', hS', hRS'⟩ := hs.hs'
    obtain ⟨U', hU', hRU'⟩ := hs.ho'
    have pS := hRS.pos_iff.1 (hv.pos _ _ hS)
    have pU := hRU.pos_iff.1 (hv.pos _ _ hU)
    have IS : InAt H ts g s ↔ _ := inAt_rot hS hRS
    have IU : InAt H ts g o ↔ _ := inAt_rot hU hRU
    have IS' : InAt H ts' g s ↔ _ := inAt_rot hS' hRS'
    have IU' : InAt H ts' g o ↔ _ := inAt_rot hU' hRU'
    have other : ∀ {j}, j < ts.length → j ≠ s → j ≠ o → (InAt H ts' g j ↔ InAt H ts g j) := fun {j} hj hj1 hj2 =>
      inAt_other (by rw [hs.len]; omega) (fun t' => hs.verts_other hj1 hj2)
    have npc : HP.o (H p) (H c) g ≠ 0 := hg' _ _ _ _ ⟨_, hU', hRU'.has1⟩
    have nab : HP.o (H a) (H b) g ≠ 0 := hg _ _ _ _ ⟨_, hS, hRS.has2⟩
    have ncp : HP.o (H c) (H p) g ≠ 0 := by rw [HP.o_swap]; exact neg_ne_zero.2 npc
    have nba : HP.o (H b) (H a) g ≠ 0 := by rw [HP.o_swap]; exact neg_ne_zero.2 nab
    have excl : ¬ (InAt H ts' g s ∧ InAt H ts' g o) := by
      rintro ⟨k1, k2⟩
      have a1 := (IS'.1 k1).2.2
      have a2 := (IU'.1 k2).1
      rw [HP.o_swap] at a1; linarith
    have fwd : InAt H ts g s ∨ InAt H ts g o → InAt H ts' g s ∨ InAt H ts' g o := by
      rintro (k | k)
      · rw [IS', IU']; exact in3_quad pS pU h1 h2 npc (IS.1 k)
      · rw [IS', IU']
        have := in3_quad (p := H c) (a := H b) (b := H a) (c := H p) (g := g)
          (by rwa [HP.o_cyc']) (by rw [HP.o_cyc]; exact pS) (by rwa [HP.o_cyc]) (by rwa [HP.o_cyc']) ncp (IU.1 k).cyc.cyc
        rcases this with h | h
        · right; exact h.cyc.cyc
        · left; exact h.cyc
    have bwd : InAt H ts' g s ∨ InAt H ts' g o → InAt H ts g s ∨ InAt H ts g o := by
      rintro (k | k)
      · rw [IS, IU]
        have := in3_quad (p := H a) (a := H c) (b := H p) (c := H b) (g := g)
          (by rwa [HP.o_cyc]) h2 (by rwa [HP.o_cyc]) (by rwa [HP.o_cyc]) nab (IS'.1 k).cyc
        rcases this with h | h
        · right; exact h.cyc.cyc
        · left; exact h.cyc.cyc
      · rw [IS, IU]
        have := in3_quad (p := H b) (a := H p) (b := H c) (c := H a) (g := g)
          (by rwa [HP.o_cyc']) (by rwa [HP.o_cyc']) (by rwa [HP.o_cyc']) pU nba (IU'.1 k).cyc.cyc
        rcases this with h | h
        · left; exact h.cyc
        · right; exact h
    by_cases hin : InAt H ts g s ∨ InAt H ts g o
    · have hiso : i = s ∨ i = o := by
        rcases hin with k | k
        · exact .inl (hu _ k).symm
        · exact .inr (hu _ k).symm
      have noOther : ∀ {j}, InAt H ts' g j → j = s ∨ j = o := by
        intro j hj
        by_contra hc
        simp only [not_or] at hc
        have hjl := inAt_lt hj
        rw [hs.len] at hjl
        have := hu _ ((other hjl hc.1 hc.2).1 hj)
        rcases hiso with h | h
        · exact hc.1 (this.trans h)
        · exact hc.2 (this.trans h)
      rcases fwd hin with k | k
      · refine ⟨s, k, fun j hj => ?_⟩
        rcases noOther hj with rfl | rfl
        · rfl
        · exact absurd ⟨k, hj⟩ excl
      · refine ⟨o, k, fun j hj => ?_⟩
        rcases noOther hj with rfl | rfl
        · exact absurd ⟨hj, k⟩ excl
        · rfl
    · have hn' : ¬ (InAt H ts' g s ∨ InAt H ts' g o) := fun h => hin (bwd h)
      have i1 : i ≠ s := by rintro rfl; exact hin (.inl hi)
      have i2 : i ≠ o := by rintro rfl; exact hin (.inr hi)
      refine ⟨i, (other (inAt_lt hi) i1 i2).2 hi, fun j hj => ?_⟩
      have hjl := inAt_lt hj
      rw [hs.len] at hjl
      have j1 : j ≠ s := by rintro rfl; exact hn' (.inl hj)
      have j2 : j ≠ o := by rintro rfl; exact hn' (.inr hj)
      exact hu _ ((other hjl j1 j2).1 hj)

end

/-! ## Points in general position -/

section
variable [ExactParams K] [IdCfg] {vs : List (Vtx K)} {ts ts' : List Tri} {g : HP K}

/-- `g` is not on a line through two vertices of the mesh, at least one of them a real vertex. -/
def GenV (vs : List (Vtx K)) (ts : List Tri) (g : HP K) : Prop :=
  ∀ a b, Occ ts a → Occ ts b → (a < INF0 ∨ b < INF0) → hp vs a ≠ hp vs b → HP.o (hp vs a) (hp vs b) g ≠ 0

theorem Ent.occ {i a b j : Nat} (h : Ent ts i a b j) : Occ ts a ∧ Occ ts b := by
  obtain ⟨t, ht, hh⟩ := h
  refine ⟨⟨i, t, ht, ?_⟩, ⟨i, t, ht, ?_⟩⟩ <;> rw [hasVert_iff] <;>
    rcases hh with ⟨rfl, rfl, rfl⟩ | ⟨rfl, rfl, rfl⟩ | ⟨rfl, rfl, rfl⟩ <;> simp

theorem Ent.third {H : Nat → HP K} (hv : Valid H ts) {i a b j : Nat} (h : Ent ts i a b j) :
    ∃ c, 0 < HP.o (H a) (H b) (H c) := by
  obtain ⟨t, ht, hh⟩ := h
  obtain ⟨c, _, h, _⟩ := (hv.pos _ _ ht).has hh
  exact ⟨c, h⟩

theorem GenV.gen (h : GenV vs ts g) (hv : Valid (hp vs) ts) (hw : g.w = 1) : Gen (hp vs) ts g := by
  intro i a b j he
  obtain ⟨c, hc⟩ := he.third hv
  by_cases hf : a < INF0 ∨ b < INF0
  · refine h a b he.occ.1 he.occ.2 hf fun e => ?_
    rw [e, HP.o_same] at hc
    exact lt_irrefl _ hc
  · simp only [not_or] at hf
    have ha := hp_w_inf vs hf.1
    have hb := hp_w_inf vs hf.2
    have hcw : (hp vs c).w = 1 := by
      by_contra hn
      have : (hp vs c).w = 0 := by
        by_cases hc' : c < INF0
        · exact absurd (hp_w_fin vs hc') hn
        · exact hp_w_inf vs hc'
      rw [HP.o_inf3 ha hb this] at hc
      exact lt_irrefl _ hc
    rw [HP.o_inf2 ha hb hw hcw]
    exact hc.ne'

/-- Every point in general position is in exactly one triangle. -/
def Tiled (vs : List (Vtx K)) (ts : List Tri) : Prop := ∀ g : HP K, g.w = 1 → GenV vs ts g → Tile (hp vs) ts g

theorem tiled_step (hst : MStep (hp vs) ts ts') (hv : Valid (hp vs) ts) (h : Tiled vs ts) : Tiled vs ts' := by
  intro g hw hg
  have hg0 : GenV vs ts g := fun a b ha hb => hg a b (hst.occ ha) (hst.occ hb)
  exact tile_step hst hv (hg0.gen hv hw) (hg.gen (hst.valid hv) hw) (h g hw hg0)

theorem tiled_steps (hst : Relation.ReflTransGen (MStep (hp vs)) ts ts') (hv : Valid (hp vs) ts) (h : Tiled vs ts) :
    Tiled vs ts' := by
  induction hst with
  | refl => exact h
  | tail hs hstep ih => exact tiled_step hstep (steps_valid hs hv) ih

theorem tiled_initial {first : Nat} (h : first < vs.length) (hn : vs.length ≤ INF0) :
    Tiled vs (initialTriangles first) := by
  intro g hw hg
  have hv := initial_valid h hn
  have hgen := hg.gen hv hw
  obtain ⟨e0, e1, e2, e3⟩ := hp_INF vs
  have hff : first < INF0 := by omega
  obtain ⟨p, hp', -⟩ := getI_lt h
  have hpe : hp vs first = HP.ofVtx p := hp_fin hff hp'
  have n0 := hgen 0 first INF0 3 ⟨_, rfl, has_0 _⟩
  have n1 := hgen 1 first INF1 0 ⟨_, rfl, has_0 _⟩
  rw [hpe, e0] at n0
  rw [hpe, e1] at n1
  simp only [HP.o, HP.ofVtx, HP.dir, hw] at n0 n1
  have m0 : g.y ≠ p.y := by intro e; apply n0; rw [e]; ring
  have m1 : g.x ≠ p.x := by intro e; apply n1; rw [e]; ring
  have key : ∀ j, InAt (hp vs) (initialTriangles first) g j ↔
      (j = 0 ∧ g.x < p.x ∧ p.y < g.y) ∨ (j = 1 ∧ p.x < g.x ∧ p.y < g.y) ∨ (j = 2 ∧ p.x < g.x ∧ g.y < p.y) ∨
      (j = 3 ∧ g.x < p.x ∧ g.y < p.y) := by
    intro j
    rcases j with _ | _ | _ | _ | j
    · rw [inAt_get (t := ⟨first, INF0, INF1, 3, NONE, 1⟩) rfl]
      simp only [In3, hpe, e0, e1, e2, e3, HP.o, HP.ofVtx, HP.dir, hw]
      constructor
      · rintro ⟨h1, h2, h3⟩; left; refine ⟨by trivial, ?_, ?_⟩ <;> linarith
      · rintro (⟨_, h1, h2⟩ | ⟨h, _⟩ | ⟨h, _⟩ | ⟨h, _⟩)
        · refine ⟨?_, ?_, ?_⟩ <;> linarith
        all_goals omega
    · rw [inAt_get (t := ⟨first, INF1, INF2, 0, NONE, 2⟩) rfl]
      simp only [In3, hpe, e0, e1, e2, e3, HP.o, HP.ofVtx, HP.dir, hw]
      constructor
      · rintro ⟨h1, h2, h3⟩; right; left; refine ⟨by trivial, ?_, ?_⟩ <;> linarith
      · rintro (⟨h, _⟩ | ⟨_, h1, h2⟩ | ⟨h, _⟩ | ⟨h, _⟩)
        · omega
        · refine ⟨?_, ?_, ?_⟩ <;> linarith
        all_goals omega
    · rw [inAt_get (t := ⟨first, INF2, INF3, 1, NONE, 3⟩) rfl]
      simp only [In3, hpe, e0, e1, e2, e3, HP.o, HP.ofVtx, HP.dir, hw]
      constructor
      · rintro ⟨h1, h2, h3⟩; right; right; left; refine ⟨by trivial, ?_, ?_⟩ <;> linarith
      · rintro (⟨h, _⟩ | ⟨h, _⟩ | ⟨_, h1, h2⟩ | ⟨h, _⟩)
        · omega
        · omega
        · refine ⟨?_, ?_, ?_⟩ <;> linarith
        · omega
    · rw [inAt_get (t := ⟨first, INF3, INF0, 2, NONE, 0⟩) rfl]
      simp only [In3, hpe, e0, e1, e2, e3, HP.o, HP.ofVtx, HP.dir, hw]
      constructor
      · rintro ⟨h1, h2, h3⟩; right; right; right; refine ⟨by trivial, ?_, ?_⟩ <;> linarith
      · rintro (⟨h, _⟩ | ⟨h, _⟩ | ⟨h, _⟩ | ⟨_, h1, h2⟩)
        · omega
        · omega
        · omega
        · refine ⟨?_, ?_, ?_⟩ <;> linarith
    · constructor
      · intro h; have := inAt_lt h; simp [initialTriangles] at this; omega
      · intro h; omega
  unfold Tile
  simp only [key]
  rcases lt_or_gt_of_ne m1 with hx | hx <;> rcases lt_or_gt_of_ne m0 with hy | hy
  · refine ⟨3, by simp [hx, hy], ?_⟩
    rintro j (⟨_, a, b⟩ | ⟨_, a, b⟩ | ⟨_, a, b⟩ | ⟨h, a, b⟩) <;> first | exact h | (exfalso; linarith)
  · refine ⟨0, by simp [hx, hy], ?_⟩
    rintro j (⟨h, a, b⟩ | ⟨_, a, b⟩ | ⟨_, a, b⟩ | ⟨_, a, b⟩) <;> first | exact h | (exfalso; linarith)
  · refine ⟨2, by simp [hx, hy], ?_⟩
    rintro j (⟨_, a, b⟩ | ⟨_, a, b⟩ | ⟨h, a, b⟩ | ⟨_, a, b⟩) <;> first | exact h | (exfalso; linarith)
  · refine ⟨1, by simp [hx, hy], ?_⟩
    rintro j (⟨_, a, b⟩ | ⟨h, a, b⟩ | ⟨_, a, b⟩ | ⟨_, a, b⟩) <;> first | exact h | (exfalso; linarith)

/-! ## Perturbation -/

theorem quad_roots_finite {a b c : K} (h : ¬ (b = 0 ∧ c = 0)) : {e : K | a + e * b + e ^ 2 * c = 0}.Finite := by
  by_cases hc : c = 0
  · have hb : b ≠ 0 := fun hb => h ⟨hb, hc⟩
    refine (Set.finite_singleton (-a / b)).subset fun e he => ?_
    simp only [Set.mem_ofPred_eq, hc, mul_zero, add_zero] at he
    rw [Set.mem_singleton_iff, eq_div_iff hb]; linarith
  · by_cases hr : ∃ r, a + r * b + r ^ 2 * c = 0
    · obtain ⟨r, hr⟩ := hr
      refine (Set.toFinite {r, -b / c - r}).subset fun e he => ?_
      simp only [Set.mem_ofPred_eq] at he
      have : (e - r) * (c * (e + r) + b) = 0 := by linear_combination he - hr
      rcases mul_eq_zero.1 this with h1 | h1
      · left; linarith
      · right
        rw [Set.mem_singleton_iff, eq_sub_iff_add_eq, eq_div_iff hc]
        linarith
    · refine Set.Finite.subset Set.finite_empty fun e he => hr ⟨e, he⟩

theorem quad_pos_near {a : K} (ha : 0 < a) (b c : K) : ∃ d, 0 < d ∧ ∀ e, 0 < e → e < d → 0 < a + e * b + e ^ 2 * c := by
  have hs : 0 < |b| + |c| + 1 := by positivity
  refine ⟨min 1 (a / (|b| + |c| + 1)), by positivity, fun e he hd => ?_⟩
  have h1 : e < 1 := lt_of_lt_of_le hd (min_le_left _ _)
  have h2 : e < a / (|b| + |c| + 1) := lt_of_lt_of_le hd (min_le_right _ _)
  rw [lt_div_iff₀ hs] at h2
  have h3 : -|b| * e ≤ e * b := by have := neg_abs_le b; nlinarith
  have h4 : -|c| * e ≤ e ^ 2 * c := by
    have h5 := neg_abs_le c
    have h6 : e ^ 2 ≤ e := by nlinarith
    have h7 : -|c| * e ≤ -|c| * e ^ 2 := by have := abs_nonneg c; nlinarith
    have h8 : e ^ 2 * -|c| ≤ e ^ 2 * c := mul_le_mul_of_nonneg_left h5 (by positivity)
    linarith
  have := abs_nonneg b
  have := abs_nonneg c
  nlinarith

/-- Move a point a little. -/
def HP.move (g : HP K) (e : K) : HP K := ⟨g.x + e, g.y + e ^ 2, g.w⟩

theorem o_move (a b g : HP K) (e : K) : HP.o a b (g.move e) = HP.o a b g + e * (HP.o a b ⟨1, 0, 0⟩) +
    e ^ 2 * HP.o a b ⟨0, 1, 0⟩ := by simp only [HP.o, HP.move]; ring

theorem dir_ne_zero (k : Fin 4) : ¬ ((HP.dir k : HP K).x = 0 ∧ (HP.dir k : HP K).y = 0) := by
  fin_cases k <;> simp [HP.dir]

theorem hp_inf_ne (vs : List (Vtx K)) {b : Nat} (hb : ¬ b < INF0) : ¬ ((hp vs b).x = 0 ∧ (hp vs b).y = 0) := by
  unfold hp
  rw [if_neg hb]
  split
  · exact dir_ne_zero _
  · split
    · exact dir_ne_zero _
    · split <;> exact dir_ne_zero _

theorem line_not_zero {a b : Nat} (h : a < INF0 ∨ b < INF0) (hne : hp vs a ≠ hp vs b) :
    ¬ (HP.o (hp vs a) (hp vs b) ⟨1, 0, 0⟩ = 0 ∧ HP.o (hp vs a) (hp vs b) ⟨0, 1, 0⟩ = 0) := by
  rintro ⟨h1, h2⟩
  simp only [HP.o, mul_zero, zero_mul, mul_one, sub_zero, zero_sub, zero_add, add_zero] at h1 h2
  by_cases ha : a < INF0
  · by_cases hb : b < INF0
    · rw [hp_w_fin vs ha, hp_w_fin vs hb] at h1 h2
      apply hne
      ext
      · linarith
      · linarith
      · rw [hp_w_fin vs ha, hp_w_fin vs hb]
    · rw [hp_w_fin vs ha, hp_w_inf vs hb] at h1 h2
      exact hp_inf_ne vs hb ⟨by linarith, by linarith⟩
  · have hb := h.resolve_left ha
    rw [hp_w_fin vs hb, hp_w_inf vs ha] at h1 h2
    exact hp_inf_ne vs ha ⟨by linarith, by linarith⟩

theorem occ_finite (ts : List Tri) : {v | Occ ts v}.Finite := by
  refine (List.finite_toSet (ts.flatMap fun t => [t.v1, t.v2, t.v3])).subset ?_
  rintro v ⟨i, t, ht, h⟩
  rw [hasVert_iff] at h
  simp only [Set.mem_ofPred_eq, List.mem_flatMap]
  exact ⟨t, List.mem_of_getElem? ht, by rcases h with h | h | h <;> simp [h]⟩

/-- Arbitrarily small moves bring a point into general position. -/
theorem exists_generic (vs : List (Vtx K)) (ts : List Tri) (g : HP K) {d : K} (hd : 0 < d) :
    ∃ e, 0 < e ∧ e < d ∧ GenV vs ts (g.move e) := by
  let S : Set K := ⋃ a ∈ {v | Occ ts v}, ⋃ b ∈ {v | Occ ts v},
    {e | (a < INF0 ∨ b < INF0) ∧ hp vs a ≠ hp vs b ∧ HP.o (hp vs a) (hp vs b) (g.move e) = 0}
  have hS : S.Finite := by
    refine (occ_finite ts).biUnion fun a _ => (occ_finite ts).biUnion fun b _ => ?_
    by_cases h : (a < INF0 ∨ b < INF0) ∧ hp vs a ≠ hp vs b
    · refine (quad_roots_finite (a := HP.o (hp vs a) (hp vs b) g) (line_not_zero h.1 h.2)).subset ?_
      rintro e ⟨_, _, he⟩
      rw [o_move] at he
      exact he
    · exact Set.Finite.subset Set.finite_empty fun e he => h ⟨he.1, he.2.1⟩
  obtain ⟨e, he1, he2⟩ := (Set.Ioo_infinite hd).exists_notMem_finite hS
  refine ⟨e, he1.1, he1.2, fun a b ha hb hf hne h0 => he2 ?_⟩
  simp only [S, Set.mem_iUnion]
  exact ⟨a, ha, b, hb, hf, hne, h0⟩

theorem In3.near {a b c g : HP K} (h : In3 a b c g) : ∃ d, 0 < d ∧ ∀ e, 0 < e → e < d → In3 a b c (g.move e) := by
  obtain ⟨d1, p1, h1⟩ := quad_pos_near h.1 (HP.o a b ⟨1, 0, 0⟩) (HP.o a b ⟨0, 1, 0⟩)
  obtain ⟨d2, p2, h2⟩ := quad_pos_near h.2.1 (HP.o b c ⟨1, 0, 0⟩) (HP.o b c ⟨0, 1, 0⟩)
  obtain ⟨d3, p3, h3⟩ := quad_pos_near h.2.2 (HP.o c a ⟨1, 0, 0⟩) (HP.o c a ⟨0, 1, 0⟩)
  refine ⟨min d1 (min d2 d3), by positivity, fun e he hd => ?_⟩
  simp only [lt_min_iff] at hd
  unfold In3
  rw [o_move, o_move, o_move]
  exact ⟨h1 e he hd.1, h2 e he hd.2.1, h3 e he hd.2.2⟩

/-- No point whatsoever is strictly inside two triangles. -/
theorem Tiled.disjoint (h : Tiled vs ts) {g : HP K} (hw : g.w = 1) {i j : Nat} (hi : InAt (hp vs) ts g i)
    (hj : InAt (hp vs) ts g j) : i = j := by
  obtain ⟨t, ht, h1⟩ := hi
  obtain ⟨u, hu, h2⟩ := hj
  obtain ⟨d1, p1, n1⟩ := h1.near
  obtain ⟨d2, p2, n2⟩ := h2.near
  obtain ⟨e, he, hd, hg⟩ := exists_generic vs ts g (lt_min p1 p2)
  rw [lt_min_iff] at hd
  obtain ⟨k, _, hk⟩ := h (g.move e) hw hg
  rw [hk i ⟨t, ht, n1 e he hd.1⟩, hk j ⟨u, hu, n2 e he hd.2⟩]

/-- A directed edge occurs in one triangle only. -/
theorem Tiled.edge (h : Tiled vs ts) (hv : Valid (hp vs) ts) {i j a b n m : Nat} (hi : Ent ts i a b n)
    (hj : Ent ts j a b m) : i = j := by
  obtain ⟨t, ht, h1⟩ := hi
  obtain ⟨u, hu, h2⟩ := hj
  obtain ⟨c, _, _, hR1⟩ := h1.rot
  obtain ⟨c', _, _, hR2⟩ := h2.rot
  have p1 := hR1.pos_iff.1 (hv.pos _ _ ht)
  have p2 := hR2.pos_iff.1 (hv.pos _ _ hu)
  set A := hp vs a
  set B := hp vs b
  set C := hp vs c
  set C' := hp vs c'
  have q1 : 0 < HP.o B C' A := by rwa [HP.o_cyc]
  have q2 : 0 < HP.o C' A B := by rwa [HP.o_cyc']
  obtain ⟨d1, pd1, hd1⟩ := quad_pos_near q1 (HP.o B C' C) 0
  obtain ⟨d2, pd2, hd2⟩ := quad_pos_near q2 (HP.o C' A C) 0
  obtain ⟨e, he⟩ := exists_between (lt_min pd1 pd2)
  rw [lt_min_iff] at he
  have k1 := hd1 e he.1 he.2.1
  have k2 := hd2 e he.1 he.2.2
  have aw : 0 ≤ A.w := hp_w_nonneg vs a
  have bw : 0 ≤ B.w := hp_w_nonneg vs b
  have cw : 0 ≤ C.w := hp_w_nonneg vs c
  have hw : 0 < A.w + B.w + e * C.w := by
    by_contra hn
    have hec : 0 ≤ e * C.w := mul_nonneg he.1.le cw
    have a0 : A.w = 0 := by linarith
    have b0 : B.w = 0 := by linarith
    have c0 : C.w = 0 := by
      have : e * C.w = 0 := by linarith
      exact (mul_eq_zero.1 this).resolve_left he.1.ne'
    rw [HP.o_inf3 a0 b0 c0] at p1
    exact lt_irrefl _ p1
  set w := A.w + B.w + e * C.w
  let g : HP K := ⟨(A.x + B.x + e * C.x) / w, (A.y + B.y + e * C.y) / w, 1⟩
  have ho : ∀ x y : HP K, HP.o x y g = (HP.o x y A + HP.o x y B + e * HP.o x y C) / w := by
    intro x y
    have hw1 : (1 : K) = w / w := (div_self hw.ne').symm
    rw [eq_div_iff hw.ne']
    simp only [HP.o, g]
    field_simp
    simp only [w]
    ring
  have I1 : In3 A B C g := by
    refine ⟨?_, ?_, ?_⟩ <;> rw [ho] <;> refine div_pos ?_ hw
    · rw [HP.o_same'', HP.o_same']; have := mul_pos he.1 p1; linarith
    · rw [HP.o_same'', HP.o_same', HP.o_cyc]; linarith
    · rw [HP.o_same'', HP.o_same', HP.o_cyc']; linarith
  have I2 : In3 A B C' g := by
    refine ⟨?_, ?_, ?_⟩ <;> rw [ho] <;> refine div_pos ?_ hw
    · rw [HP.o_same'', HP.o_same']; have := mul_pos he.1 p1; linarith
    · rw [HP.o_same'' B]; linarith
    · rw [HP.o_same' C']; linarith
  exact h.disjoint (g := g) rfl ((inAt_rot ht hR1).2 I1) ((inAt_rot hu hR2).2 I2)

/-! ## The outer edges -/

theorem MStep.outer {H : Nat → HP K} (h : MStep H ts ts') (hv : Valid H ts) {a b : Nat} (ho : ∃ i, Ent ts i a b NONE) :
    ∃ i, Ent ts' i a b NONE := by
  obtain ⟨i, hi⟩ := ho
  have hil := hi.lt
  cases h with
  | split3 ht hs hl h =>
    rename_i t1 p t
    by_cases h1 : i = t1
    · subst h1
      obtain ⟨t', ht', hh⟩ := hi
      rw [ht] at ht'; simp at ht'; subst ht'
      rcases hh with ⟨rfl, rfl, e⟩ | ⟨rfl, rfl, e⟩ | ⟨rfl, rfl, e⟩
      · exact ⟨_, _, hs.h3, .inr (.inl ⟨rfl, rfl, e⟩)⟩
      · exact ⟨_, _, hs.h2, .inr (.inl ⟨rfl, rfl, e⟩)⟩
      · exact ⟨_, _, hs.h1, .inr (.inl ⟨rfl, rfl, e⟩)⟩
    · refine ⟨i, (hs.ent_other hv ht hil h1).2 ⟨NONE, hi, ?_⟩⟩
      have := lt_of_getElem? ht
      have hne : NONE ≠ t1 := by omega
      simp [hne]
  | split4 hs hl h0 h1 h2 =>
    rename_i t1 t2 p x y o1 o2 n1 n2 n3 n4
    obtain ⟨_, _, _, _, _, _, ne, l1, l2, _⟩ := hs.facts hv
    obtain ⟨a1, ha, hRa⟩ := hs.g1
    obtain ⟨b1, hb, hRb⟩ := hs.g2
    have hlen := hv.len
    by_cases e1 : i = t1
    · subst e1
      obtain ⟨t', ht', hh⟩ := hi
      rw [ha] at ht'; simp at ht'; subst ht'
      rcases hRa.has_iff.1 hh with ⟨rfl, rfl, e⟩ | ⟨rfl, rfl, e⟩ | ⟨rfl, rfl, e⟩
      · omega
      · exact ⟨_, _, hs.h3, .inr (.inl ⟨rfl, rfl, e⟩)⟩
      · exact ⟨_, _, hs.h1, .inr (.inl ⟨rfl, rfl, e⟩)⟩
    by_cases e2 : i = t2
    · subst e2
      obtain ⟨t', ht', hh⟩ := hi
      rw [hb] at ht'; simp at ht'; subst ht'
      rcases hRb.has_iff.1 hh with ⟨rfl, rfl, e⟩ | ⟨rfl, rfl, e⟩ | ⟨rfl, rfl, e⟩
      · omega
      · exact ⟨_, _, hs.h2, .inr (.inl ⟨rfl, rfl, e⟩)⟩
      · exact ⟨_, _, hs.h4, .inr (.inl ⟨rfl, rfl, e⟩)⟩
    refine ⟨i, (hs.ent_other hv hil e1 e2).2 ⟨NONE, hi, ?_⟩⟩
    have hne : NONE ≠ t1 := by omega
    have hne2 : NONE ≠ t2 := by omega
    simp [hne, hne2]
  | flip hs h1 h2 =>
    rename_i s o p a b c n1 n2 n3 n4
    obtain ⟨l1, l2⟩ := hs.lt_none hv
    by_cases e1 : i = s
    · subst e1
      rcases hs.ent_s.1 hi with ⟨rfl, rfl, e⟩ | ⟨rfl, rfl, e⟩ | ⟨rfl, rfl, e⟩
      · exact ⟨_, hs.ent_s'.2 (.inl ⟨rfl, rfl, e⟩)⟩
      · omega
      · exact ⟨_, hs.ent_o'.2 (.inr (.inr ⟨rfl, rfl, e⟩))⟩
    by_cases e2 : i = o
    · subst e2
      rcases hs.ent_o.1 hi with ⟨rfl, rfl, e⟩ | ⟨rfl, rfl, e⟩ | ⟨rfl, rfl, e⟩
      · omega
      · exact ⟨_, hs.ent_s'.2 (.inr (.inl ⟨rfl, rfl, e⟩))⟩
      · exact ⟨_, hs.ent_o'.2 (.inr (.inl ⟨rfl, rfl, e⟩))⟩
    refine ⟨i, (hs.ent_other hv e1 e2).2 ⟨NONE, hi, ?_⟩⟩
    have hne : NONE ≠ s := by omega
    have hne2 : NONE ≠ o := by omega
    simp [hne, hne2]

theorem steps_outer {H : Nat → HP K} (h : Relation.ReflTransGen (MStep H) ts ts') (hv : Valid H ts) {a b : Nat}
    (ho : ∃ i, Ent ts i a b NONE) : ∃ i, Ent ts' i a b NONE := by
  induction h with
  | refl => exact ho
  | tail hs hstep ih => exact hstep.outer (steps_valid hs hv) ih

theorem countP_of_indices {α : Type} {l : List α} {P : α → Bool} {is : List Nat} (hnd : is.Nodup)
    (h : ∀ i ∈ is, ∃ t, l[i]? = some t ∧ P t = true) : is.length ≤ l.countP P := by
  have e : l.countP P = (((List.finRange l.length).filter (P ∘ l.get)).map (·.val)).length := by
    conv_lhs => rw [← List.ofFn_get l, List.ofFn_eq_map, List.countP_map]
    rw [List.length_map, List.countP_eq_length_filter]
  rw [e]
  refine (List.subperm_of_subset hnd fun i hi => ?_).length_le
  obtain ⟨t, ht, hP⟩ := h i hi
  obtain ⟨hl, rfl⟩ := List.getElem?_eq_some_iff.1 ht
  rw [List.mem_map]
  exact ⟨⟨i, hl⟩, by simp [hP], rfl⟩

/-- At least four triangles have an artificial vertex. -/
theorem four_infinite (hv : Valid (hp vs) ts)
    (h : ∀ k : Fin 4, ∃ i, Ent ts i (INF0 + k) (INF0 + (k + 1 : Fin 4)) NONE) :
    4 ≤ ts.countP (fun t => !t.isFinite) := by
  choose f hf using h
  have hB := IdCfg.big
  have hinj : ∀ k l : Fin 4, k ≠ l → f k ≠ f l := by
    intro k l hkl he
    obtain ⟨t, ht, h1⟩ := hf k
    obtain ⟨u, hu, h2⟩ := hf l
    rw [← he, ht] at hu; simp at hu; subst hu
    have hp := hv.pos _ _ ht
    have hall : ¬ t.v1 < INF0 ∧ ¬ t.v2 < INF0 ∧ ¬ t.v3 < INF0 := by
      have n1 : ((k + 1 : Fin 4) : ℕ) ≠ ((l + 1 : Fin 4) : ℕ) := by
        intro e; apply hkl; have := Fin.ext e; simpa using this
      have n2 : (k : ℕ) ≠ l := fun e => hkl (Fin.ext e)
      rcases h1 with ⟨a1, a2, _⟩ | ⟨a1, a2, _⟩ | ⟨a1, a2, _⟩ <;> rcases h2 with ⟨b1, b2, _⟩ | ⟨b1, b2, _⟩ | ⟨b1, b2, _⟩ <;>
        omega
    have := HP.o_inf3 (hp_w_inf vs hall.1) (hp_w_inf vs hall.2.1) (hp_w_inf vs hall.2.2)
    unfold Pos at hp
    rw [this] at hp
    exact lt_irrefl _ hp
  have hnd : [f 0, f 1, f 2, f 3].Nodup := by
    simp only [List.nodup_cons, List.mem_cons, List.not_mem_nil, or_false, not_or, not_false_eq_true, List.nodup_nil, and_true]
    refine ⟨⟨hinj _ _ (by decide), hinj _ _ (by decide), hinj _ _ (by decide)⟩, ⟨hinj _ _ (by decide), hinj _ _ (by decide)⟩,
      hinj _ _ (by decide)⟩
  refine le_trans (show 4 ≤ [f 0, f 1, f 2, f 3].length from le_rfl) (countP_of_indices (P := fun t : Tri => !t.isFinite) hnd fun i hi => ?_)
  have : ∃ k, i = f k := by
    simp only [List.mem_cons, List.not_mem_nil, or_false] at hi
    rcases hi with h | h | h | h <;> exact ⟨_, h⟩
  obtain ⟨k, rfl⟩ := this
  obtain ⟨t, ht, h1⟩ := hf k
  refine ⟨t, ht, ?_⟩
  rw [Bool.not_eq_true', Bool.eq_false_iff]
  intro hc
  simp only [Tri.isFinite, Bool.and_eq_true, isFin_iff] at hc
  rcases h1 with ⟨a1, a2, _⟩ | ⟨a1, a2, _⟩ | ⟨a1, a2, _⟩ <;> omega

theorem initial_outer (first : Nat) (k : Fin 4) :
    ∃ i, Ent (initialTriangles first) i (INF0 + k) (INF0 + (k + 1 : Fin 4)) NONE := by
  have hB := IdCfg.big
  refine ⟨k, ?_⟩
  fin_cases k
  · exact ⟨_, rfl, .inr (.inl ⟨by simp, by simp [INF0, INF1]; omega, rfl⟩)⟩
  · exact ⟨_, rfl, .inr (.inl ⟨by simp [INF0, INF1]; omega, by simp [INF0, INF2]; omega, rfl⟩)⟩
  · exact ⟨_, rfl, .inr (.inl ⟨by simp [INF0, INF2]; omega, by simp [INF0, INF3]; omega, rfl⟩)⟩
  · exact ⟨_, rfl, .inr (.inl ⟨by simp [INF0, INF3]; omega, by simp, rfl⟩)⟩

end

end CDT

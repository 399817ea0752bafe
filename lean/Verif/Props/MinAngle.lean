import Verif.Props.Greedy
import Verif.Props.GabrielC

/-! # C95: no triangulation has a larger smallest angle than a Delaunay result -/

set_option linter.unusedSectionVars false

namespace CDT
open Plane

section Main

section Plain
variable {K : Type} [Field K] [LinearOrder K] [IsStrictOrderedRing K]

/-- The cotangent of the angle at `C` of the triangle `A B C`. Between 0 and 180 degrees the cotangent decreases, so a smaller angle has a
larger cotangent. -/
def Spec.cotAt (A B C : Vtx K) : K := ((A.x - C.x) * (B.x - C.x) + (A.y - C.y) * (B.y - C.y)) / |area2 A B C|

/-- No angle of a triangle is smaller than the one with the cotangent `k`. -/
def Spec.AnglesAtLeast (vs : List (Vtx K)) (k : K) (out : List (Nat × Nat × Nat)) : Prop :=
  ∀ t ∈ out, ∀ a b c A B C, Spec.CornersOf t a b c → vs[a]? = some A → vs[b]? = some B → vs[c]? = some C → Spec.cotAt A B C ≤ k

/-- Triangles between the vertices, clockwise, which no vertex touches except at the corners. -/
def Spec.Rival (vs : List (Vtx K)) (out : List (Nat × Nat × Nat)) : Prop :=
  ∀ t ∈ out, ∃ A B C, vs[t.1]? = some A ∧ vs[t.2.1]? = some B ∧ vs[t.2.2]? = some C ∧ Clockwise A B C ∧
    ∀ P ∈ vs, InClosedTriangle A B C P → P = A ∨ P = B ∨ P = C

/-- A point close to `P` in the direction of `Q` is strictly on the same side of every line through two vertices as `P`. -/
theorem exists_near (vs : List (Vtx K)) (P Q : Vtx K) : ∃ e : K, 0 < e ∧ e < 1 ∧
    ∀ X ∈ vs, ∀ Y ∈ vs, area2 X Y (along P Q e) ≤ 0 → area2 X Y P ≤ 0 := by
  have one : ∀ u w : K, ∃ e : K, 0 < e ∧ e < 1 ∧ ∀ z, 0 < z → z ≤ e → u + z * (w - u) ≤ 0 → u ≤ 0 := by
    intro u w
    rcases le_or_gt u 0 with h | h
    · exact ⟨1 / 2, by norm_num, by norm_num, fun _ _ _ _ => h⟩
    · rcases le_or_gt 0 (w - u) with h' | h'
      · exact ⟨1 / 2, by norm_num, by norm_num, fun z z0 _ hz => absurd hz (by nlinarith [mul_nonneg z0.le h'])⟩
      · have hp : 0 < 2 * (u - (w - u)) := by linarith
        refine ⟨u / (2 * (u - (w - u))), div_pos h hp, by rw [div_lt_one hp]; linarith, fun z z0 hz hle => ?_⟩
        rw [le_div_iff₀ hp] at hz
        nlinarith
  have all : ∀ l : List (Vtx K × Vtx K), ∃ e : K, 0 < e ∧ e < 1 ∧ ∀ p ∈ l, ∀ z, 0 < z → z ≤ e →
      area2 p.1 p.2 (along P Q z) ≤ 0 → area2 p.1 p.2 P ≤ 0 := by
    intro l
    induction l with
    | nil => exact ⟨1 / 2, by norm_num, by norm_num, by simp⟩
    | cons p l ih =>
      obtain ⟨e, h0, h1, h⟩ := ih
      obtain ⟨e', h0', h1', h'⟩ := one (area2 p.1 p.2 P) (area2 p.1 p.2 Q)
      refine ⟨min e e', lt_min h0 h0', (min_le_left _ _).trans_lt h1, fun u hu z z0 hz hle => ?_⟩
      rcases List.mem_cons.1 hu with rfl | hu
      · rw [area2_along] at hle
        exact h' z z0 (hz.trans (min_le_right _ _)) hle
      · exact h u hu z z0 (hz.trans (min_le_left _ _)) hle
  obtain ⟨e, h0, h1, h⟩ := all (vs ×ˢ vs)
  exact ⟨e, h0, h1, fun X hX Y hY hle => h (X, Y) (List.mem_product.2 ⟨hX, hY⟩) e h0 le_rfl hle⟩

/-- The angle at `Z` of `A Y Z` is at most the angle at `C` of `A B C`, if the ray from `Z` to `Y` meets the side `A B`, and `Z` is on the
side of `C` and not inside of the circle. -/
theorem angle_le {A B C Y Z O : Vtx K} (hc : Clockwise A B C) (hZ : Clockwise A B Z) (hY : Clockwise A Y Z) (hB : 0 ≤ area2 Y Z B)
    (hO : Circumcenter O A B C) (hge : dist2 O A ≤ dist2 O Z) : Spec.cotAt A B C ≤ Spec.cotAt A Y Z := by
  unfold Clockwise at hc hZ hY
  have h1 : Spec.cotAt A B Z ≤ Spec.cotAt A Y Z := by
    unfold Spec.cotAt
    rw [abs_of_neg hZ, abs_of_neg hY, div_le_div_iff₀ (by linarith) (by linarith)]
    have : ((A.x - Y.x) * 0 + ((A.x - Z.x) * (Y.x - Z.x) + (A.y - Z.y) * (Y.y - Z.y))) * -area2 A B Z -
        ((A.x - Z.x) * (B.x - Z.x) + (A.y - Z.y) * (B.y - Z.y)) * -area2 A Y Z = dist2 A Z * area2 Y Z B := by
      unfold area2 dist2; ring
    have := mul_nonneg (show 0 ≤ dist2 A Z by unfold dist2; positivity) hB
    linarith
  have h2 : Spec.cotAt A B C ≤ Spec.cotAt A B Z := by
    unfold Spec.cotAt
    rw [abs_of_neg hZ, abs_of_neg hc, div_le_div_iff₀ (by linarith) (by linarith)]
    have e : area2 A B C * (dist2 O Z - ((A.x - Z.x) * (B.x - Z.x) + (A.y - Z.y) * (B.y - Z.y))) = area2 B C Z * dist2 O A +
        area2 C A Z * dist2 O B + area2 A B Z * (dist2 O C - ((A.x - C.x) * (B.x - C.x) + (A.y - C.y) * (B.y - C.y))) := by
      unfold area2 dist2; ring
    have s : area2 A B C = area2 B C Z + area2 C A Z + area2 A B Z := by unfold area2; ring
    obtain ⟨o1, o2⟩ := hO
    rw [← o1, ← o2] at e
    have k : area2 A B C * (dist2 O Z - dist2 O A) = area2 A B C * ((A.x - Z.x) * (B.x - Z.x) + (A.y - Z.y) * (B.y - Z.y)) -
        area2 A B Z * ((A.x - C.x) * (B.x - C.x) + (A.y - C.y) * (B.y - C.y)) := by linear_combination e - dist2 O A * s
    have := mul_nonpos_of_nonpos_of_nonneg hc.le (sub_nonneg.2 hge)
    linarith
  exact h2.trans h1

/-- Near the corner `A` of a triangle, next to the side `A B`, there is a point that is inside of the triangle and inside of a triangle of
any covering by triangles. The corner of that triangle on the side of `C` sees at most the angle at `C`, if it is not in the circle. -/
theorem rival_corner {vs : List (Vtx K)} {out' : List Out} (hr : Spec.Rival vs out') {A B C : Vtx K} (hA : A ∈ vs) (hB : B ∈ vs)
    (hc : Clockwise A B C) (hcov : ∀ q, InClosedTriangle A B C q → Spec.Covered vs out' q) :
    ∃ t ∈ out', ∃ a b c Y Z q, Spec.CornersOf t a b c ∧ vs[a]? = some A ∧ vs[b]? = some Y ∧ vs[c]? = some Z ∧ InTriangle A B C q ∧
      InTriangle A Y Z q ∧ ∀ O, Circumcenter O A B C → dist2 O A ≤ dist2 O Z →
        Spec.cotAt A B C ≤ Spec.cotAt A Y Z := by
  obtain ⟨d, d0, d1, hd⟩ := exists_near vs B C
  obtain ⟨e, e0, e1, he⟩ := exists_near vs A (along B C d)
  set Q := along B C d with hQ
  set q := along A Q e with hq
  have hcn : area2 A B C < 0 := hc
  have b1 : area2 A B q = e * d * area2 A B C := by simp only [hq, hQ]; unfold area2 along; ring
  have b2 : area2 B C q = (1 - e) * area2 A B C := by simp only [hq, hQ]; unfold area2 along; ring
  have b3 : area2 C A q = e * (1 - d) * area2 A B C := by simp only [hq, hQ]; unfold area2 along; ring
  have hin : InTriangle A B C q := by
    refine ⟨?_, ?_, ?_⟩
    · show area2 A B q < 0
      rw [b1]; exact mul_neg_of_pos_of_neg (mul_pos e0 d0) hcn
    · show area2 B C q < 0
      rw [b2]; exact mul_neg_of_pos_of_neg (by linarith) hcn
    · show area2 C A q < 0
      rw [b3]; exact mul_neg_of_pos_of_neg (mul_pos e0 (by linarith)) hcn
  obtain ⟨t, ht, X, Y, Z, gX, gY, gZ, hcl⟩ := hcov q ⟨hin.1.le, hin.2.1.le, hin.2.2.le⟩
  obtain ⟨X', Y', Z', gX', gY', gZ', hcw, hcor⟩ := hr t ht
  rw [gX] at gX'; rw [gY] at gY'; rw [gZ] at gZ'; cases gX'; cases gY'; cases gZ'
  have mX := List.mem_of_getElem? gX
  have mY := List.mem_of_getElem? gY
  have mZ := List.mem_of_getElem? gZ
  have hAin : InClosedTriangle X Y Z A := ⟨he X mX Y mY hcl.1, he Y mY Z mZ hcl.2.1, he Z mZ X mX hcl.2.2⟩
  -- the triangle with `A` as its first corner
  obtain ⟨a, b, c, Y, Z, hco, ga, gb, gc, mY, mZ, hcw, hcl, hcor⟩ : ∃ a b c Y Z, Spec.CornersOf t a b c ∧ vs[a]? = some A ∧
      vs[b]? = some Y ∧ vs[c]? = some Z ∧ Y ∈ vs ∧ Z ∈ vs ∧ area2 A Y Z < 0 ∧ InClosedTriangle A Y Z q ∧
      ∀ P ∈ vs, InClosedTriangle A Y Z P → P = A ∨ P = Y ∨ P = Z := by
    have hcw' : area2 X Y Z < 0 := hcw
    rcases hcor A hA hAin with rfl | rfl | rfl
    · exact ⟨_, _, _, Y, Z, .inl rfl, gX, gY, gZ, mY, mZ, hcw', hcl, hcor⟩
    · exact ⟨_, _, _, Z, X, .inr (.inr rfl), gY, gZ, gX, mZ, mX, by rw [area2_cyc]; exact hcw', ⟨hcl.2.1, hcl.2.2, hcl.1⟩,
        fun P hP h => by have := hcor P hP ⟨h.2.2, h.1, h.2.1⟩; tauto⟩
    · exact ⟨_, _, _, X, Y, .inr (.inl rfl), gZ, gX, gY, mX, mY, by rw [area2_cyc, area2_cyc]; exact hcw', ⟨hcl.2.2, hcl.1, hcl.2.1⟩,
        fun P hP h => by have := hcor P hP ⟨h.2.1, h.2.2, h.1⟩; tauto⟩
  obtain ⟨c1, c2, c3⟩ := hcl
  have s1 : area2 A Y q = e * area2 A Y Q := by simp only [hq]; unfold area2 along; ring
  have s3 : area2 Z A q = e * area2 Z A Q := by simp only [hq]; unfold area2 along; ring
  have Q1 : area2 A Y Q ≤ 0 := by rw [s1] at c1; by_contra hn; push Not at hn; nlinarith
  have Q3 : area2 Z A Q ≤ 0 := by rw [s3] at c3; by_contra hn; push Not at hn; nlinarith
  have B1 : area2 A Y B ≤ 0 := hd A hA Y mY Q1
  have B3 : area2 Z A B ≤ 0 := hd Z mZ A hA Q3
  have hdA : area2 A Y Z ≠ 0 := hcw.ne
  -- `Q` is on no line from `A` to a vertex
  have off : ∀ W ∈ vs, W ≠ A → area2 A W Q ≠ 0 := by
    intro W hW hne h0
    have u1 : area2 A W B ≤ 0 := hd A hA W hW h0.le
    have u2 : area2 W A B ≤ 0 := hd W hW A hA (by rw [show area2 W A Q = -area2 A W Q by unfold area2; ring, h0]; simp)
    have u3 : area2 A W B = 0 := by rw [show area2 W A B = -area2 A W B by unfold area2; ring] at u2; linarith
    have u4 : area2 A W C = 0 := by
      have : area2 A W Q = (1 - d) * area2 A W B + d * area2 A W C := by simp only [hQ]; unfold area2 along; ring
      rw [h0, u3] at this
      have : d * area2 A W C = 0 := by linarith
      exact (mul_eq_zero.1 this).resolve_left d0.ne'
    have x0 : (W.x - A.x) * area2 A B C = 0 := by unfold area2 at *; linear_combination (B.x - A.x) * u4 - (C.x - A.x) * u3
    have y0 : (W.y - A.y) * area2 A B C = 0 := by unfold area2 at *; linear_combination (B.y - A.y) * u4 - (C.y - A.y) * u3
    exact hne (vtx_ext (sub_eq_zero.1 ((mul_eq_zero.1 x0).resolve_right hcn.ne)) (sub_eq_zero.1 ((mul_eq_zero.1 y0).resolve_right hcn.ne)))
  have nY : Y ≠ A := by rintro rfl; apply hdA; unfold area2; ring
  have nZ : Z ≠ A := by rintro rfl; apply hdA; unfold area2; ring
  have Q1' : area2 A Y Q < 0 := lt_of_le_of_ne Q1 (off Y mY nY)
  have Q3' : area2 Z A Q < 0 := lt_of_le_of_ne Q3 fun h => off Z mZ nZ (by rw [show area2 A Z Q = -area2 Z A Q by unfold area2; ring, h]; simp)
  have q2 : area2 Y Z q < 0 := by
    by_contra hn
    push Not at hn
    have := he Z mZ Y mY (by rw [show area2 Z Y q = -area2 Y Z q by unfold area2; ring]; linarith)
    rw [show area2 Z Y A = -area2 A Y Z by unfold area2; ring] at this
    linarith
  have hin' : InTriangle A Y Z q := ⟨by show area2 A Y q < 0; rw [s1]; exact mul_neg_of_pos_of_neg e0 Q1', q2,
    by show area2 Z A q < 0; rw [s3]; exact mul_neg_of_pos_of_neg e0 Q3'⟩
  refine ⟨t, ht, a, b, c, Y, Z, q, hco, ga, gb, gc, hin, hin', fun O hO hge => ?_⟩
  -- `Z` is on the side of `C`
  have BZ : area2 A B Z ≤ 0 := by rw [show area2 A B Z = area2 Z A B by unfold area2; ring]; exact B3
  have hZ : area2 A B Z < 0 := by
    refine lt_of_le_of_ne BZ fun h0 => ?_
    -- Plücker's relation of the four directions from `A`
    have pl : area2 A B Z * area2 A Y Q = area2 A B Y * area2 A Z Q + area2 A Y Z * area2 A B Q := by unfold area2; ring
    have qB : area2 A B Q < 0 := by
      rw [show area2 A B Q = d * area2 A B C by simp only [hQ]; unfold area2 along; ring]; exact mul_neg_of_pos_of_neg d0 hcn
    have yB : 0 ≤ area2 A B Y := by rw [show area2 A B Y = -area2 A Y B by unfold area2; ring]; linarith
    have zQ : 0 < area2 A Z Q := by rw [show area2 A Z Q = -area2 Z A Q by unfold area2; ring]; linarith
    rw [h0, zero_mul] at pl
    have := mul_pos_of_neg_of_neg hcw qB
    have := mul_nonneg yB zQ.le
    linarith
  by_cases hYB : 0 ≤ area2 Y Z B
  · exact angle_le hc hZ hcw hYB hO hge
  · push Not at hYB
    rcases hcor B hB ⟨B1, hYB.le, B3⟩ with rfl | rfl | rfl
    · exact absurd (by unfold area2; ring) hcn.ne
    · exact angle_le hc hZ hcw (by unfold area2; apply le_of_eq; ring) hO hge
    · exact absurd (by unfold area2; ring) hZ.ne

/-- The smallest angle is at least the smallest angle of every triangulation of the convex hull of the vertices. -/
def Spec.MaxMinAngle (vs : List (Vtx K)) (out : List (Nat × Nat × Nat)) : Prop :=
  ∀ out' : List (Nat × Nat × Nat), Spec.Rival vs out' → Spec.CoversConvex vs out' → ∀ k, Spec.AnglesAtLeast vs k out' →
    Spec.AnglesAtLeast vs k out

/-- The same for triangulations of the region of the result that respect the constraints. -/
def Spec.MaxMinAngleC (vs : List (Vtx K)) (es : List Edge) (out : List (Nat × Nat × Nat)) : Prop :=
  ∀ out' : List (Nat × Nat × Nat), Spec.Rival vs out' → Spec.OpenFree vs es out' → (∀ q, Spec.Covered vs out' q ↔ Spec.Covered vs out q) →
    ∀ k, Spec.AnglesAtLeast vs k out' → Spec.AnglesAtLeast vs k out

theorem cornersOf_get {vs : List (Vtx K)} {t : Out} {a b c : Nat} {A B C : Vtx K} (h : Spec.CornersOf t a b c) (gA : vs[a]? = some A)
    (gB : vs[b]? = some B) (gC : vs[c]? = some C) {R : Vtx K → Vtx K → Vtx K → Prop}
    (hR : ∀ X Y Z, vs[t.1]? = some X → vs[t.2.1]? = some Y → vs[t.2.2]? = some Z → R X Y Z ∧ R Y Z X ∧ R Z X Y) : R A B C := by
  rcases h with rfl | rfl | rfl
  · exact (hR A B C gA gB gC).1
  · exact (hR B C A gB gC gA).2.2
  · exact (hR C A B gC gA gB).2.1

theorem maxMin_of_delaunay {vs : List (Vtx K)} {out : List Out} (hd : Spec.Delaunay vs out) : Spec.MaxMinAngle vs out := by
  intro out' hr hcov k hk t ht a b c A B C hco gA gB gC
  have hcirc : Clockwise A B C ∧ ∀ q ∈ vs, ¬ InCircle A B C q := by
    refine cornersOf_get (R := fun A B C => Clockwise A B C ∧ ∀ q ∈ vs, ¬ InCircle A B C q) hco gA gB gC fun X Y Z gX gY gZ => ?_
    obtain ⟨X', Y', Z', gX', gY', gZ', hcw, hemp⟩ := hd t ht
    rw [gX] at gX'; rw [gY] at gY'; rw [gZ] at gZ'; cases gX'; cases gY'; cases gZ'
    unfold Clockwise at hcw ⊢
    refine ⟨⟨hcw, hemp⟩, ⟨by rw [area2_cyc]; exact hcw, ?_⟩, ⟨by rw [area2_cyc, area2_cyc]; exact hcw, ?_⟩⟩
    · rintro q hq ⟨O, ⟨h1, h2⟩, h3⟩
      exact hemp q hq ⟨O, ⟨h2.symm, h2.symm.trans h1⟩, by linarith⟩
    · rintro q hq ⟨O, ⟨h1, h2⟩, h3⟩
      exact hemp q hq ⟨O, ⟨h1.symm.trans h2, h1.symm⟩, by linarith⟩
  obtain ⟨hc, hemp⟩ := hcirc
  have mA := List.mem_of_getElem? gA
  have mB := List.mem_of_getElem? gB
  have mC := List.mem_of_getElem? gC
  obtain ⟨t', ht', a', b', c', Y, Z, q, hco', ga, gb, gc, -, -, hang⟩ := rival_corner hr mA mB hc fun q hq => by
    refine hcov q fun X Y hall => ?_
    have := hall A mA; have := hall B mB; have := hall C mC
    have al : area2 A B C * area2 X Y q = area2 B C q * area2 X Y A + area2 C A q * area2 X Y B + area2 A B q * area2 X Y C := by
      unfold area2; ring
    obtain ⟨q1, q2, q3⟩ := hq
    have hcn : area2 A B C < 0 := hc
    by_contra hn
    push Not at hn
    nlinarith [mul_nonneg_of_nonpos_of_nonpos q2 ‹area2 X Y A ≤ 0›]
  obtain ⟨O, hO⟩ := exists_circumcenter A B C (ne_of_lt hc)
  exact (hang O hO (not_lt.1 fun h => hemp Z (List.mem_of_getElem? gc) ⟨O, hO, h⟩)).trans (hk t' ht' _ _ _ _ _ _ hco' ga gb gc)

theorem maxMin_of_constrained {vs : List (Vtx K)} {es : List Edge} {out : List Out} (hd : Spec.ConstrainedDelaunay vs es out)
    (hcw : ∀ t ∈ out, ∃ A B C, vs[t.1]? = some A ∧ vs[t.2.1]? = some B ∧ vs[t.2.2]? = some C ∧ Clockwise A B C) :
    Spec.MaxMinAngleC vs es out := by
  intro out' hr hfree hcov k hk t ht a b c A B C hco gA gB gC
  have hcirc : Clockwise A B C ∧ (∀ q, InTriangle A B C q → ∀ P ∈ vs, Spec.Visible vs es out q P → ¬ InCircle A B C P) ∧
      ∀ q, InClosedTriangle A B C q → Spec.Covered vs out q := by
    refine cornersOf_get (R := fun A B C => Clockwise A B C ∧
      (∀ q, InTriangle A B C q → ∀ P ∈ vs, Spec.Visible vs es out q P → ¬ InCircle A B C P) ∧
      ∀ q, InClosedTriangle A B C q → Spec.Covered vs out q) hco gA gB gC fun X Y Z gX gY gZ => ?_
    obtain ⟨X', Y', Z', gX', gY', gZ', hcw⟩ := hcw t ht
    rw [gX] at gX'; rw [gY] at gY'; rw [gZ] at gZ'; cases gX'; cases gY'; cases gZ'
    have hemp := hd t ht X Y Z gX gY gZ
    unfold Clockwise at hcw
    refine ⟨⟨hcw, hemp, fun q h => ⟨t, ht, X, Y, Z, gX, gY, gZ, h⟩⟩,
      ⟨by unfold Clockwise; rw [area2_cyc]; exact hcw, ?_, fun q h => ⟨t, ht, X, Y, Z, gX, gY, gZ, h.2.2, h.1, h.2.1⟩⟩,
      ⟨by unfold Clockwise; rw [area2_cyc, area2_cyc]; exact hcw, ?_, fun q h => ⟨t, ht, X, Y, Z, gX, gY, gZ, h.2.1, h.2.2, h.1⟩⟩⟩
    · rintro q hin P hP hv ⟨O, ⟨h1, h2⟩, h3⟩
      exact hemp q ⟨hin.2.2, hin.1, hin.2.1⟩ P hP hv ⟨O, ⟨h2.symm, h2.symm.trans h1⟩, by linarith⟩
    · rintro q hin P hP hv ⟨O, ⟨h1, h2⟩, h3⟩
      exact hemp q ⟨hin.2.1, hin.2.2, hin.1⟩ P hP hv ⟨O, ⟨h1.symm.trans h2, h1.symm⟩, by linarith⟩
  obtain ⟨hc, hemp, hself⟩ := hcirc
  obtain ⟨t', ht', a', b', c', Y, Z, q, hco', ga, gb, gc, hin, hin', hang⟩ :=
    rival_corner hr (List.mem_of_getElem? gA) (List.mem_of_getElem? gB) hc fun q hq => (hcov q).2 (hself q hq)
  have hcw' : Clockwise A Y Z := by
    have s : area2 A Y Z = area2 A Y q + area2 Y Z q + area2 Z A q := by unfold area2; ring
    obtain ⟨h1, h2, h3⟩ := hin'
    unfold Clockwise at h1 h2 h3 ⊢
    linarith
  -- `Z` can be seen from the common point
  have hvis : Spec.Visible vs es out q Z := by
    have key := fun X Y Z gX gY gZ hc hin => corners_visible (vs := vs) (vs' := vs) (es := es) (es' := es) (out := out) (out' := out')
      (fun _ => Iff.rfl) (fun _ h => h) (fun q _ h => (hcov q).1 h) hfree ht' (A := X) (B := Y) (C := Z) gX gY gZ hc (q := q) hin
    unfold Clockwise at hcw'
    rcases hco' with rfl | rfl | rfl
    · exact (key A Y Z ga gb gc hcw' hin').2.2
    · exact (key Y Z A gb gc ga (by unfold Clockwise; rw [area2_cyc]; exact hcw') ⟨hin'.2.1, hin'.2.2, hin'.1⟩).2.1
    · exact (key Z A Y gc ga gb (by unfold Clockwise; rw [area2_cyc, area2_cyc]; exact hcw') ⟨hin'.2.2, hin'.1, hin'.2.1⟩).1
  obtain ⟨O, hO⟩ := exists_circumcenter A B C (ne_of_lt hc)
  exact (hang O hO (not_lt.1 fun h => hemp q hin Z (List.mem_of_getElem? gc) hvis ⟨O, hO, h⟩)).trans
    (hk t' ht' _ _ _ _ _ _ hco' ga gb gc)

/-- Results are rivals themselves: the hypotheses of `Spec.MaxMinAngle` exclude no Delaunay result. -/
theorem rival_of_delaunay {vs : List (Vtx K)} {out : List Out} (hd : Spec.Delaunay vs out) : Spec.Rival vs out := by
  intro t ht
  obtain ⟨A, B, C, gA, gB, gC, hcw, -⟩ := hd t ht
  exact ⟨A, B, C, gA, gB, gC, hcw, fun P hP hin => corner_of_delaunay hd ht gA gB gC hP hin⟩

end Plain

variable {K : Type} [Field K] [LinearOrder K] [IsStrictOrderedRing K] [ExactParams K] [IdCfg]

/-- **C95** (exact arithmetic). Results that pass the test of C74 have the largest smallest angle of all triangulations of the convex
hull with the same vertices. -/
theorem C95_angles (fuel : Nat) (bins : Nat → Nat) (vs : List (Vtx K)) (h : Good fuel bins vs) (out : List Out)
    (ho : triangulation2d fuel bins vs = .ok out) (hne : out ≠ []) (hs : Spec.HullSides vs out) (hl : Spec.LocallyDelaunay vs [] out) :
    Spec.MaxMinAngle vs out :=
  maxMin_of_delaunay ((C74_certificate fuel bins vs h out ho hne).1 ⟨hs, hl⟩).2

/-- **C95** for framed points and one bin: no condition on the result. -/
theorem C95_framed (hcfg : RealCfg) (fuel : Nat) (bins : Nat → Nat) (vs : List (Vtx K)) (h : Good fuel bins vs) (h1 : bins vs.length = 1)
    (x0 x1 y0 y1 : K) (hf : Spec.Framed vs x0 x1 y0 y1) : ∃ out, triangulation2d fuel bins vs = .ok out ∧ Spec.MaxMinAngle vs out := by
  obtain ⟨out, ho, hd, -⟩ := C53_framed hcfg fuel bins vs h h1 x0 x1 y0 y1 hf
  exact ⟨out, ho, maxMin_of_delaunay hd⟩

/-- **C95** with constraints: a locally Delaunay result has the largest smallest angle of all triangulations of its region with the same
vertices in which no constraint passes through the inside of a triangle. -/
theorem C95_constrained (fuel : Nat) (bins : Nat → Nat) (vs : List (Vtx K)) (h : Good fuel bins vs) (es : List Edge) (out : List Out)
    (ho : constrained2d fuel bins vs es = .ok out) (hl : Spec.LocallyDelaunay vs es out) : Spec.MaxMinAngleC vs es out :=
  maxMin_of_constrained (C68_global fuel bins vs h es out ho hl) fun t ht =>
    C30_output_clockwise fuel bins vs h es out ho _ _ _ (show (t.1, t.2.1, t.2.2) ∈ out from ht)

/-- **C95** for framed points, one bin, and constraints that cross at most one edge each: no condition on the result. -/
theorem C95_single (hcfg : RealCfg) (fuel : Nat) (bins : Nat → Nat) (vs : List (Vtx K)) (h : Good fuel bins vs)
    (hfuel : fuelFor vs.length ≤ fuel) (h1 : bins vs.length = 1) (x0 x1 y0 y1 : K) (hf : Spec.Framed vs x0 x1 y0 y1)
    (es : List Edge) (hc : Spec.ClearOfVertices vs es) (hx : Spec.NonCrossing vs es)
    (out0 : List Out) (h0 : triangulation2d fuel bins vs = .ok out0) (hone : Spec.SingleCross vs es out0) :
    ∃ out, constrained2d fuel bins vs es = .ok out ∧ Spec.MaxMinAngleC vs es out := by
  obtain ⟨out, ho, hl⟩ := C59_single_partial hcfg fuel bins vs h hfuel h1 x0 x1 y0 y1 hf es hc hx out0 h0 hone
  exact ⟨out, ho, C95_constrained fuel bins vs h es out ho hl⟩

/-- **C95** in rounded arithmetic (`f32`, `f64`) on robust inputs and on grids; `V` are the exact positions. -/
theorem C95_angles_rounded {F : Type} [FloatOps F] [Rounded F] (fuel : Nat) (bins : Nat → Nat) (vs : List (Vtx F))
    (V : List (Vtx ℚ)) (W : ℚ) (h : Rounded.RGood fuel bins vs V W) (out : List Out)
    (ho : triangulation2d fuel bins vs = .ok out) (hne : out ≠ []) (hs : Spec.HullSides V out) (hl : Spec.LocallyDelaunay V [] out) :
    Spec.MaxMinAngle V out :=
  maxMin_of_delaunay ((C74_certificate_rounded fuel bins vs V W h out ho hne).1 ⟨hs, hl⟩).2

theorem C95_constrained_rounded {F : Type} [FloatOps F] [Rounded F] (fuel : Nat) (bins : Nat → Nat) (vs : List (Vtx F)) (V : List (Vtx ℚ))
    (W : ℚ) (h : Rounded.RGoodC fuel bins vs V W) (es : List Edge) (out : List Out) (ho : constrained2d fuel bins vs es = .ok out)
    (hl : Spec.LocallyDelaunay V es out) : Spec.MaxMinAngleC V es out := by
  let P' := Rounded.params F (bins vs.length) W (Rounded.scaleVal vs)
  rw [h.run] at ho
  exact C95_constrained fuel bins V h.good es out ho hl

/-- Results with constraints are rivals themselves: the hypotheses of `Spec.MaxMinAngleC` exclude no result. -/
theorem C95_self (fuel : Nat) (bins : Nat → Nat) (vs : List (Vtx K)) (h : Good fuel bins vs) (hf : fuelFor vs.length ≤ fuel)
    (es : List Edge) (hx : Spec.NonCrossing vs es) (hb : ∀ s ∈ Spec.segments vs es, s.1 ≠ s.2) (out : List Out)
    (ho : constrained2d fuel bins vs es = .ok out) : Spec.Rival vs out ∧ Spec.OpenFree vs es out := by
  refine ⟨fun t ht => ?_, h.open_free hf hx hb ho⟩
  obtain ⟨A, B, C, gA, gB, gC, hc⟩ := C30_output_clockwise fuel bins vs h es out ho _ _ _ (show (t.1, t.2.1, t.2.2) ∈ out from ht)
  exact ⟨A, B, C, gA, gB, gC, hc, fun P hP hin => h.output_empty ho t ht _ _ _ A B C P (.inl rfl) gA gB gC hP hin⟩

theorem C95_self_rounded {F : Type} [FloatOps F] [Rounded F] (fuel : Nat) (bins : Nat → Nat) (vs : List (Vtx F)) (V : List (Vtx ℚ)) (W : ℚ)
    (h : Rounded.RGoodC fuel bins vs V W) (es : List Edge) (hx : Spec.NonCrossing V es) (hb : ∀ s ∈ Spec.segments V es, s.1 ≠ s.2)
    (out : List Out) (ho : constrained2d fuel bins vs es = .ok out) : Spec.Rival V out ∧ Spec.OpenFree V es out := by
  let P' := Rounded.params F (bins vs.length) W (Rounded.scaleVal vs)
  rw [h.run] at ho
  exact C95_self fuel bins V h.good (by rw [h.len]; exact h.fuelC) es hx hb out ho

end Main

section Example
open Rounded
local instance minAngleCfg : IdCfg := u32Cfg

/-- Four vertices, in `f64` with the default bins. -/
def kiteGrid : List (Int × Int) := [(0,2),(4,0),(8,3),(3,5)]

theorem kite_good : RGood (F := F64) 506 Witness.defaultBins (flPts binary64 kiteGrid) (intPts kiteGrid) (2 ^ 3) :=
  C44_grid kiteGrid 3 (by decide) (by decide) (by decide) ⟨by norm_num, by decide +kernel, by decide +kernel⟩
    (by decide) (by decide +kernel) (by decide) (by decide)

theorem kite_run : triangulation2d (F := F64) 506 Witness.defaultBins (flPts binary64 kiteGrid) = .ok [(1, 3, 2), (0, 3, 1)] := by
  decide +kernel

theorem kite_angles : Spec.MaxMinAngle (intPts kiteGrid) [(1, 3, 2), (0, 3, 1)] :=
  C95_angles_rounded 506 _ _ _ _ kite_good _ kite_run (by decide) (hullSides_of_check (by decide +kernel)) (local_of_check (by decide +kernel))

/-- The other triangulation of the four vertices is a rival: the hypotheses of `Spec.MaxMinAngle` hold for it. -/
theorem kite_rival : Spec.Rival (intPts kiteGrid) [(0, 2, 1), (0, 3, 2)] ∧ Spec.CoversConvex (intPts kiteGrid) [(0, 2, 1), (0, 3, 2)] := by
  constructor
  · intro t ht
    simp only [List.mem_cons, List.not_mem_nil, or_false] at ht
    rcases ht with rfl | rfl
    · refine ⟨⟨0, 2⟩, ⟨8, 3⟩, ⟨4, 0⟩, by decide +kernel, by decide +kernel, by decide +kernel, by unfold Clockwise area2; norm_num, fun P hP hin => ?_⟩
      simp only [intPts, kiteGrid, List.map_cons, List.map_nil, List.mem_cons, List.not_mem_nil, or_false] at hP
      rcases hP with rfl | rfl | rfl | rfl <;>
        first | (exfalso; norm_num [InClosedTriangle, area2] at hin; done) | norm_num
    · refine ⟨⟨0, 2⟩, ⟨3, 5⟩, ⟨8, 3⟩, by decide +kernel, by decide +kernel, by decide +kernel, by unfold Clockwise area2; norm_num, fun P hP hin => ?_⟩
      simp only [intPts, kiteGrid, List.map_cons, List.map_nil, List.mem_cons, List.not_mem_nil, or_false] at hP
      rcases hP with rfl | rfl | rfl | rfl <;>
        first | (exfalso; norm_num [InClosedTriangle, area2] at hin; done) | norm_num
  · intro p hp
    have side : ∀ A B : Vtx ℚ, (∀ v ∈ intPts kiteGrid, area2 A B v ≤ 0) → area2 A B p ≤ 0 := hp
    have s1 := side ⟨4, 0⟩ ⟨0, 2⟩ (by simp only [intPts, kiteGrid, List.map_cons, List.map_nil, List.forall_mem_cons]; norm_num [area2])
    have s2 := side ⟨8, 3⟩ ⟨4, 0⟩ (by simp only [intPts, kiteGrid, List.map_cons, List.map_nil, List.forall_mem_cons]; norm_num [area2])
    have s3 := side ⟨3, 5⟩ ⟨8, 3⟩ (by simp only [intPts, kiteGrid, List.map_cons, List.map_nil, List.forall_mem_cons]; norm_num [area2])
    have s4 := side ⟨0, 2⟩ ⟨3, 5⟩ (by simp only [intPts, kiteGrid, List.map_cons, List.map_nil, List.forall_mem_cons]; norm_num [area2])
    rcases le_total (area2 (⟨0, 2⟩ : Vtx ℚ) ⟨8, 3⟩ p) 0 with h | h
    · exact ⟨(0, 2, 1), by decide, ⟨0, 2⟩, ⟨8, 3⟩, ⟨4, 0⟩, by decide +kernel, by decide +kernel, by decide +kernel, h, s2, s1⟩
    · refine ⟨(0, 3, 2), by decide, ⟨0, 2⟩, ⟨3, 5⟩, ⟨8, 3⟩, by decide +kernel, by decide +kernel, by decide +kernel, s4, s3, ?_⟩
      unfold area2 at h ⊢
      linarith

/-- Every bound for the angles of that triangulation is one for the result. The cotangents of the smallest angles are `38/21` and
`7/9`. -/
example (k : ℚ) (h : Spec.AnglesAtLeast (intPts kiteGrid) k [(0, 2, 1), (0, 3, 2)]) :
    Spec.AnglesAtLeast (intPts kiteGrid) k [(1, 3, 2), (0, 3, 1)] := kite_angles _ kite_rival.1 kite_rival.2 k h

/-- The constrained run of `Props/Visible`. -/
theorem local_angles_local : Spec.LocallyDelaunay (intPts localGrid) localEdges localOut := by
  obtain ⟨out, ho, hl⟩ := C59_single_rounded_partial (.inl rfl) 506 (fun _ => 1) _ (intPts localGrid) (2 ^ 3) local_good rfl 0 8 0 8 local_framed
    localEdges (clear_of_check (by decide +kernel)) (nonCrossing_of_check (by decide +kernel))
    [(2,5,3),(5,7,6),(3,5,4),(0,9,8),(4,6,9),(4,5,6),(1,7,2),(0,4,9),(2,7,5),(1,2,3),(1,8,7),(1,3,8),(0,3,4),(0,8,3)]
    (by decide +kernel) (single_of_check (by decide +kernel))
  rw [local_visible.1] at ho; simp only [Res.ok.injEq] at ho; rw [ho]; exact hl

theorem local_angles : Spec.MaxMinAngleC (intPts localGrid) localEdges localOut :=
  C95_constrained_rounded 506 (fun _ => 1) _ _ _ local_good localEdges localOut local_visible.1 local_angles_local

/-- Its own triangles in reverse order are a rival that respects the constraints, so a bound for them is one for the result. -/
example (k : ℚ) (h : Spec.AnglesAtLeast (intPts localGrid) k localOut.reverse) : Spec.AnglesAtLeast (intPts localGrid) k localOut := by
  obtain ⟨hr, hx⟩ := C95_self_rounded 506 (fun _ => 1) _ _ _ local_good localEdges (nonCrossing_of_check (by decide +kernel)) (by decide +kernel)
    localOut local_visible.1
  exact local_angles _ (fun t ht => hr t (List.mem_reverse.1 ht)) (fun t ht => hx t (List.mem_reverse.1 ht))
    (fun q => by unfold Spec.Covered; simp only [List.mem_reverse]) k h

end Example
end CDT

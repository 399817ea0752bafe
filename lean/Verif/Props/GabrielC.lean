import Mathlib.Data.Fintype.EquivFin
import Verif.Props.Gabriel
import Verif.Props.UniqueC

/-! # C93: which vertices the edges of a constrained Delaunay result join -/

set_option linter.unusedSectionVars false

namespace CDT
open Plane

section Main

section Plain
variable {K : Type} [Field K] [LinearOrder K] [IsStrictOrderedRing K]

/-- The circle around `m` goes through `P` and `Q`, and every other vertex that can be seen from a point between them is outside. -/
def Spec.SeesTwo (vs : List (Vtx K)) (es : List Edge) (out : List (Nat × Nat × Nat)) (m P Q : Vtx K) : Prop :=
  dist2 m P = dist2 m Q ∧ ∀ x, InsideSegment P Q x → ∀ r ∈ vs, Spec.Visible vs es out x r → r = P ∨ r = Q ∨ dist2 m P < dist2 m r

theorem Spec.OnlyTwo.sees {vs : List (Vtx K)} {m P Q : Vtx K} (h : Spec.OnlyTwo vs m P Q) (es : List Edge) (out : List Out) :
    Spec.SeesTwo vs es out m P Q := ⟨h.1, fun _ _ r hr _ => h.2 r hr⟩

theorem inside_along {P Q x : Vtx K} (h : InsideSegment P Q x) : ∃ s, 0 < s ∧ s < 1 ∧ x = along P Q s := by
  obtain ⟨s, s0, s1, hx, hy⟩ := h
  exact ⟨s, s0, s1, vtx_ext hx hy⟩

theorem along_inside {P Q : Vtx K} {s : K} (s0 : 0 < s) (s1 : s < 1) : InsideSegment P Q (along P Q s) := ⟨s, s0, s1, rfl, rfl⟩

/-- A part of a line of sight is a line of sight. -/
theorem visible_part {vs : List (Vtx K)} {es : List Edge} {out : List Out} {P Q : Vtx K} (h : Spec.Visible vs es out P Q) {s : K}
    (s0 : 0 < s) (s1 : s < 1) : Spec.Visible vs es out (along P Q s) P ∧ Spec.Visible vs es out (along P Q s) Q := by
  constructor <;> rintro y ⟨z, z0, z1, hx, hy⟩ <;> apply h y
  · refine ⟨s - z * s, by nlinarith, by nlinarith, ?_, ?_⟩
    · simp only [along] at hx; rw [hx]; ring
    · simp only [along] at hy; rw [hy]; ring
  · refine ⟨s + z * (1 - s), by nlinarith, by nlinarith, ?_, ?_⟩
    · simp only [along] at hx; rw [hx]; ring
    · simp only [along] at hy; rw [hy]; ring

/-- The line of sight between the two vertices does not pass through the inside of a triangle. -/
theorem not_inside {vs : List (Vtx K)} {es : List Edge} {out : List Out} (hd : Spec.ConstrainedDelaunay vs es out)
    (hfree : Spec.OpenFree vs es out) {m P Q : Vtx K} (hP : P ∈ vs) (hQ : Q ∈ vs) (hv : Spec.Visible vs es out P Q)
    (he : Spec.SeesTwo vs es out m P Q) {t : Out} (ht : t ∈ out) {A B C : Vtx K} (gA : vs[t.1]? = some A) (gB : vs[t.2.1]? = some B)
    (gC : vs[t.2.2]? = some C) (hc : Clockwise A B C) {s : K} (s0 : 0 < s) (s1 : s < 1) : ¬ InTriangle A B C (along P Q s) := by
  intro hin
  obtain ⟨v1, v2, v3⟩ := corners_visible (vs := vs) (vs' := vs) (es := es) (es' := es) (out := out) (out' := out) (fun _ => Iff.rfl)
    (fun _ h => h) (fun _ _ h => h) hfree ht gA gB gC hc hin
  obtain ⟨p1, p2⟩ := visible_part hv s0 s1
  obtain ⟨O, hO⟩ := exists_circumcenter A B C hc.ne
  have hp : dist2 O A ≤ dist2 O P := not_lt.1 fun hl => hd t ht A B C gA gB gC _ hin P hP p1 ⟨O, hO, hl⟩
  have hq : dist2 O A ≤ dist2 O Q := not_lt.1 fun hl => hd t ht A B C gA gB gC _ hin Q hQ p2 ⟨O, hO, hl⟩
  obtain ⟨hO1, hO2⟩ := hO
  obtain ⟨hm, hall⟩ := he
  have w1 := hall _ (along_inside s0 s1) A (List.mem_of_getElem? gA) v1
  have w2 := hall _ (along_inside s0 s1) B (List.mem_of_getElem? gB) v2
  have w3 := hall _ (along_inside s0 s1) C (List.mem_of_getElem? gC) v3
  obtain ⟨t1, t2, t3⟩ := hin
  set M := along P Q s with hM
  have sum : area2 A B C = area2 B C M + area2 C A M + area2 A B M := by unfold area2; ring
  have key : area2 A B C * ((1 - s) * (dist2 O P - dist2 O A) + s * (dist2 O Q - dist2 O A)) = - (area2 B C M * (dist2 m A - dist2 m P) +
      area2 C A M * (dist2 m B - dist2 m P) + area2 A B M * (dist2 m C - dist2 m P)) := by
    have e1 : (1 - s) * (dist2 O P - dist2 m P) + s * (dist2 O Q - dist2 m Q) = dist2 O M - dist2 m M := by
      simp only [hM, dist2, along]; ring
    have e2 : area2 A B C * (dist2 O M - dist2 m M) = area2 B C M * (dist2 O A - dist2 m A) + area2 C A M * (dist2 O B - dist2 m B) +
        area2 A B M * (dist2 O C - dist2 m C) := by unfold dist2 area2; ring
    rw [← hO1, ← hO2] at e2
    linear_combination area2 A B C * e1 + e2 - s * area2 A B C * hm + (dist2 m P - dist2 O A) * sum
  have k1 : area2 A B C * ((1 - s) * (dist2 O P - dist2 O A) + s * (dist2 O Q - dist2 O A)) ≤ 0 :=
    mul_nonpos_of_nonpos_of_nonneg hc.le (add_nonneg (mul_nonneg (by linarith) (by linarith)) (mul_nonneg s0.le (by linarith)))
  have g : ∀ R : Vtx K, R = P ∨ R = Q ∨ dist2 m P < dist2 m R → 0 ≤ dist2 m R - dist2 m P := by
    rintro R (rfl | rfl | h) <;> linarith
  have n1 : area2 B C M * (dist2 m A - dist2 m P) ≤ 0 := mul_nonpos_of_nonpos_of_nonneg t2.le (g A w1)
  have n2 : area2 C A M * (dist2 m B - dist2 m P) ≤ 0 := mul_nonpos_of_nonpos_of_nonneg t3.le (g B w2)
  have n3 : area2 A B M * (dist2 m C - dist2 m P) ≤ 0 := mul_nonpos_of_nonpos_of_nonneg t1.le (g C w3)
  have z : ∀ (x : K) (R : Vtx K), x < 0 → x * (dist2 m R - dist2 m P) = 0 → R = P ∨ R = Q ∨ dist2 m P < dist2 m R → R = P ∨ R = Q := by
    rintro x R hx hz (h | h | h)
    · exact .inl h
    · exact .inr h
    · rcases mul_eq_zero.1 hz with h' | h' <;> linarith
  have z1 := z _ A t2 (by linarith) w1
  have z2 := z _ B t3 (by linarith) w2
  have z3 := z _ C t1 (by linarith) w3
  have nAB : A ≠ B := by rintro rfl; unfold Clockwise area2 at hc; linarith
  have nBC : B ≠ C := by rintro rfl; unfold Clockwise area2 at hc; linarith
  have nCA : C ≠ A := by rintro rfl; unfold Clockwise area2 at hc; linarith
  rcases z1 with rfl | rfl <;> rcases z2 with rfl | rfl <;> rcases z3 with rfl | rfl <;> first | exact nAB rfl | exact nBC rfl | exact nCA rfl

/-- Two points of the open segment `P Q` are on the side `A B` of a triangle in which no vertex but the corners is; `A` and `B` are not
between `P` and `Q`. Then the segments are the same. -/
theorem same_segment {vs : List (Vtx K)} {A B C P Q : Vtx K} (hc : Clockwise A B C)
    (hcorner : ∀ R ∈ vs, InClosedTriangle A B C R → R = A ∨ R = B ∨ R = C) (hP : P ∈ vs) (hQ : Q ∈ vs) (hne : P ≠ Q)
    (hA : ¬ InsideSegment P Q A) (hB : ¬ InsideSegment P Q B) {s z : K} (s0 : 0 < s) (s1 : s < 1) (hsz : s ≠ z)
    (h1 : area2 A B (along P Q s) = 0) (h2 : area2 A B (along P Q z) = 0) (hcl : InClosedTriangle A B C (along P Q s)) :
    (A = P ∧ B = Q) ∨ (A = Q ∧ B = P) := by
  have eP : area2 A B P = 0 ∧ area2 A B Q = 0 := by
    rw [area2_along] at h1 h2
    have hd : area2 A B Q - area2 A B P = 0 := by
      have : (s - z) * (area2 A B Q - area2 A B P) = 0 := by linear_combination h1 - h2
      exact (mul_eq_zero.1 this).resolve_left (sub_ne_zero.2 hsz)
    rw [hd, mul_zero, add_zero] at h1
    exact ⟨h1, by linarith⟩
  obtain ⟨p0, q0⟩ := eP
  -- the side as a line through `A`
  have hAB : 0 < dist2 A B := by
    have h0 : 0 ≤ dist2 A B := by unfold dist2; positivity
    refine lt_of_le_of_ne h0 fun h => ?_
    unfold dist2 at h
    have a1 : (A.x - B.x) ^ 2 = 0 := by nlinarith [sq_nonneg (A.x - B.x), sq_nonneg (A.y - B.y)]
    have a2 : (A.y - B.y) ^ 2 = 0 := by nlinarith [sq_nonneg (A.x - B.x), sq_nonneg (A.y - B.y)]
    have b1 := (pow_eq_zero_iff two_ne_zero).1 a1
    have b2 := (pow_eq_zero_iff two_ne_zero).1 a2
    unfold Clockwise area2 at hc
    rw [show B.x - A.x = 0 by linarith, show B.y - A.y = 0 by linarith] at hc
    simp at hc
  have param : ∀ R : Vtx K, area2 A B R = 0 → ∃ l, R = along A B l := by
    intro R hR
    refine ⟨((R.x - A.x) * (B.x - A.x) + (R.y - A.y) * (B.y - A.y)) / dist2 A B, ?_⟩
    have hne0 := hAB.ne'
    unfold area2 at hR
    apply vtx_ext <;> simp only [along] <;> field_simp <;> unfold dist2 <;> [linear_combination (-(B.y - A.y)) * hR; linear_combination (B.x - A.x) * hR]
  obtain ⟨p, rfl⟩ := param P p0
  obtain ⟨q, rfl⟩ := param Q q0
  have hpq : p ≠ q := fun h => hne (by rw [h])
  have comp : along (along A B p) (along A B q) s = along A B (p + s * (q - p)) := by apply vtx_ext <;> simp only [along] <;> ring
  rw [comp] at hcl
  obtain ⟨-, c2, c3⟩ := hcl
  have f2 : ∀ l : K, area2 B C (along A B l) = (1 - l) * area2 A B C := by intro l; unfold area2 along; ring
  have f3 : ∀ l : K, area2 C A (along A B l) = l * area2 A B C := by intro l; unfold area2 along; ring
  have f1 : ∀ l : K, area2 A B (along A B l) = 0 := by intro l; unfold area2 along; ring
  unfold Clockwise at hc
  rw [f2] at c2; rw [f3] at c3
  have l0 : 0 ≤ p + s * (q - p) := by by_contra hn; push Not at hn; nlinarith
  have l1 : p + s * (q - p) ≤ 1 := by by_contra hn; push Not at hn; nlinarith
  -- `A` and `B` have the parameters `-p / (q - p)` and `(1 - p) / (q - p)` on `P Q`
  have inA : ∀ l : K, 0 < (l - p) / (q - p) → (l - p) / (q - p) < 1 → InsideSegment (along A B p) (along A B q) (along A B l) := by
    intro l h0 h1
    refine ⟨_, h0, h1, ?_, ?_⟩ <;> simp only [along] <;> field_simp [sub_ne_zero.2 hpq.symm] <;> ring
  have aA : along A B (0 : K) = A := by apply vtx_ext <;> simp [along]
  have aB : along A B (1 : K) = B := by apply vtx_ext <;> simp [along]
  have nA : ¬ (0 < (0 - p) / (q - p) ∧ (0 - p) / (q - p) < 1) := fun h => hA (by have := inA 0 h.1 h.2; rwa [aA] at this)
  have nB : ¬ (0 < (1 - p) / (q - p) ∧ (1 - p) / (q - p) < 1) := fun h => hB (by have := inA 1 h.1 h.2; rwa [aB] at this)
  -- so both ends are on the side
  have ends : 0 ≤ p ∧ p ≤ 1 ∧ 0 ≤ q ∧ q ≤ 1 := by
    rcases lt_or_gt_of_ne hpq with h | h
    · have hqp : 0 < q - p := sub_pos.2 h
      have g0 : 0 ≤ p := by
        by_contra hn; push Not at hn
        apply nA
        rw [lt_div_iff₀ hqp, div_lt_one hqp]
        constructor <;> nlinarith
      have g1 : q ≤ 1 := by
        by_contra hn; push Not at hn
        apply nB
        rw [lt_div_iff₀ hqp, div_lt_one hqp]
        constructor <;> nlinarith
      exact ⟨g0, by linarith, by linarith, g1⟩
    · have hqp : q - p < 0 := sub_neg.2 h
      have g0 : 0 ≤ q := by
        by_contra hn; push Not at hn
        apply nA
        rw [lt_div_iff_of_neg hqp, div_lt_one_of_neg hqp]
        constructor <;> nlinarith
      have g1 : p ≤ 1 := by
        by_contra hn; push Not at hn
        apply nB
        rw [lt_div_iff_of_neg hqp, div_lt_one_of_neg hqp]
        constructor <;> nlinarith
      exact ⟨by linarith, g1, g0, by linarith⟩
  obtain ⟨e1, e2, e3, e4⟩ := ends
  have corner : ∀ l : K, 0 ≤ l → l ≤ 1 → along A B l ∈ vs → along A B l = A ∨ along A B l = B := by
    intro l h0 h1 hm
    rcases hcorner _ hm ⟨(f1 l).le, by rw [f2]; nlinarith, by rw [f3]; nlinarith⟩ with h | h | h
    · exact .inl h
    · exact .inr h
    · have := f1 l
      rw [h] at this
      exact absurd this hc.ne
  rcases corner p e1 e2 hP with h | h <;> rcases corner q e3 e4 hQ with h' | h'
  · exact absurd (h.trans h'.symm) hne
  · exact .inl ⟨h.symm, h'.symm⟩
  · exact .inr ⟨h'.symm, h.symm⟩
  · exact absurd (h.trans h'.symm) hne

/-- Two vertices that see each other and a circle through them outside of which all other vertices in sight are: an edge joins them. -/
theorem edge_of_sight {vs : List (Vtx K)} {es : List Edge} {out : List Out} (hd : Spec.ConstrainedDelaunay vs es out)
    (hfree : Spec.OpenFree vs es out)
    (hcw : ∀ t ∈ out, ∃ A B C, vs[t.1]? = some A ∧ vs[t.2.1]? = some B ∧ vs[t.2.2]? = some C ∧ Clockwise A B C)
    (hcorner : ∀ t ∈ out, ∀ a b c A B C P, Spec.CornersOf t a b c → vs[a]? = some A → vs[b]? = some B → vs[c]? = some C → P ∈ vs →
      InClosedTriangle A B C P → P = A ∨ P = B ∨ P = C) {m P Q : Vtx K} (hP : P ∈ vs) (hQ : Q ∈ vs) (hne : P ≠ Q)
    (hv : Spec.Visible vs es out P Q) (he : Spec.SeesTwo vs es out m P Q) : Spec.Joined vs out P Q := by
  -- a side for every point between `P` and `Q`
  have side : ∀ n : ℕ, ∃ k : Fin out.length × Fin 3, ∃ a b c A B C, Spec.CornersOf (out[k.1]) a b c ∧
      (k.2 = 0 → (a, b, c) = out[k.1]) ∧ (k.2 = 1 → (c, a, b) = out[k.1]) ∧ (k.2 = 2 → (b, c, a) = out[k.1]) ∧
      vs[a]? = some A ∧ vs[b]? = some B ∧ vs[c]? = some C ∧ Clockwise A B C ∧
      InClosedTriangle A B C (along P Q (1 / ((n : K) + 2))) ∧ area2 A B (along P Q (1 / ((n : K) + 2))) = 0 := by
    intro n
    have p2 : (0 : K) < (n : K) + 2 := by positivity
    have s0 : 0 < 1 / ((n : K) + 2) := by positivity
    have s1 : 1 / ((n : K) + 2) < 1 := by rw [div_lt_one p2]; linarith [(Nat.cast_nonneg n : (0 : K) ≤ n)]
    obtain ⟨-, ⟨t, ht, A, B, C, gA, gB, gC, c1, c2, c3⟩, -⟩ := hv _ (along_inside s0 s1)
    obtain ⟨A', B', C', gA', gB', gC', hc⟩ := hcw t ht
    rw [gA] at gA'; rw [gB] at gB'; rw [gC] at gC'; cases gA'; cases gB'; cases gC'
    have hn := not_inside hd hfree hP hQ hv he ht gA gB gC hc s0 s1
    obtain ⟨i, hi, rfl⟩ := List.mem_iff_getElem.1 ht
    have hc1 : Clockwise B C A := by unfold Clockwise at hc ⊢; rw [area2_cyc]; exact hc
    have hc2 : Clockwise C A B := by unfold Clockwise at hc1 ⊢; rw [area2_cyc]; exact hc1
    by_cases h1 : area2 A B (along P Q (1 / ((n : K) + 2))) = 0
    · exact ⟨(⟨i, hi⟩, 0), _, _, _, A, B, C, .inl rfl, fun _ => rfl, by simp, by simp, gA, gB, gC, hc, ⟨c1, c2, c3⟩, h1⟩
    by_cases h2 : area2 B C (along P Q (1 / ((n : K) + 2))) = 0
    · exact ⟨(⟨i, hi⟩, 1), _, _, _, B, C, A, .inr (.inr rfl), by simp, fun _ => rfl, by simp, gB, gC, gA, hc1, ⟨c2, c3, c1⟩, h2⟩
    by_cases h3 : area2 C A (along P Q (1 / ((n : K) + 2))) = 0
    · exact ⟨(⟨i, hi⟩, 2), _, _, _, C, A, B, .inr (.inl rfl), by simp, by simp, fun _ => rfl, gC, gA, gB, hc2, ⟨c3, c1, c2⟩, h3⟩
    exact absurd ⟨lt_of_le_of_ne c1 h1, lt_of_le_of_ne c2 h2, lt_of_le_of_ne c3 h3⟩ hn
  choose f hf using side
  obtain ⟨n, n', hnn, hfe⟩ := Finite.exists_ne_map_eq_of_infinite f
  obtain ⟨a, b, c, A, B, C, hco, k0, k1, k2, gA, gB, gC, hc, hcl, h0⟩ := hf n
  obtain ⟨a', b', c', A', B', C', hco', k0', k1', k2', gA', gB', gC', hc', hcl', h0'⟩ := hf n'
  have same : (a', b', c') = (a, b, c) := by
    rw [← hfe] at k0' k1' k2'
    generalize f n = k at k0 k1 k2 k0' k1' k2'
    obtain ⟨i, j⟩ := k
    fin_cases j
    · exact (k0' rfl).trans (k0 rfl).symm
    · have := (k1' rfl).trans (k1 rfl).symm
      simp only [Prod.mk.injEq] at this ⊢; tauto
    · have := (k2' rfl).trans (k2 rfl).symm
      simp only [Prod.mk.injEq] at this ⊢; tauto
  simp only [Prod.mk.injEq] at same
  obtain ⟨rfl, rfl, rfl⟩ := same
  rw [gA] at gA'; rw [gB] at gB'; cases gA'; cases gB'
  have p2 : (0 : K) < (n : K) + 2 := by positivity
  have p2' : (0 : K) < (n' : K) + 2 := by positivity
  have s0 : 0 < 1 / ((n : K) + 2) := by positivity
  have s1 : 1 / ((n : K) + 2) < 1 := by rw [div_lt_one p2]; linarith [(Nat.cast_nonneg n : (0 : K) ≤ n)]
  have hsz : 1 / ((n : K) + 2) ≠ 1 / ((n' : K) + 2) := by
    intro h
    rw [div_eq_div_iff p2.ne' p2'.ne'] at h
    apply hnn
    have : (n : K) = n' := by linarith
    exact_mod_cast this
  have hm : out[(f n).1] ∈ out := List.getElem_mem _
  rcases same_segment hc (fun R hR hin => hcorner _ hm a' b' c' A B C R hco gA gB gC hR hin) hP hQ hne
    (fun h => (hv A h).1 (List.mem_of_getElem? gA)) (fun h => (hv B h).1 (List.mem_of_getElem? gB)) s0 s1 hsz h0 h0' hcl with ⟨rfl, rfl⟩ | ⟨rfl, rfl⟩
  · exact ⟨_, hm, a', b', c', hco, .inl ⟨gA, gB⟩⟩
  · exact ⟨_, hm, a', b', c', hco, .inr ⟨gA, gB⟩⟩

end Plain

variable {K : Type} [Field K] [LinearOrder K] [IsStrictOrderedRing K] [ExactParams K] [IdCfg]

/-- **C93** (exact arithmetic). In a locally Delaunay result, any two vertices that see each other are joined by an edge, if there is a
circle through them outside of which all other vertices are that can be seen from a point between them. -/
theorem C93_edges (fuel : Nat) (bins : Nat → Nat) (vs : List (Vtx K)) (h : Good fuel bins vs) (hf : fuelFor vs.length ≤ fuel)
    (es : List Edge) (hx : Spec.NonCrossing vs es) (hb : ∀ s ∈ Spec.segments vs es, s.1 ≠ s.2) (out : List Out)
    (ho : constrained2d fuel bins vs es = .ok out) (hl : Spec.LocallyDelaunay vs es out) (m P Q : Vtx K) (hP : P ∈ vs) (hQ : Q ∈ vs)
    (hne : P ≠ Q) (hv : Spec.Visible vs es out P Q) (he : Spec.SeesTwo vs es out m P Q) : Spec.Joined vs out P Q :=
  edge_of_sight (C68_global fuel bins vs h es out ho hl) (h.open_free hf hx hb ho)
    (fun t ht => C30_output_clockwise fuel bins vs h es out ho _ _ _ (show (t.1, t.2.1, t.2.2) ∈ out from ht)) (h.output_empty ho) hP hQ hne hv he

/-- **C93**, the diametral disc: two vertices that see each other are joined if no other vertex is in it. -/
theorem C93_gabriel (fuel : Nat) (bins : Nat → Nat) (vs : List (Vtx K)) (h : Good fuel bins vs) (hf : fuelFor vs.length ≤ fuel)
    (es : List Edge) (hx : Spec.NonCrossing vs es) (hb : ∀ s ∈ Spec.segments vs es, s.1 ≠ s.2) (out : List Out)
    (ho : constrained2d fuel bins vs es = .ok out) (hl : Spec.LocallyDelaunay vs es out) (P Q : Vtx K) (hP : P ∈ vs) (hQ : Q ∈ vs)
    (hne : P ≠ Q) (hv : Spec.Visible vs es out P Q) (he : Spec.Gabriel vs P Q) : Spec.Joined vs out P Q :=
  C93_edges fuel bins vs h hf es hx hb out ho hl _ P Q hP hQ hne hv ((gabriel_onlyTwo he).sees es out)

/-- **C93** for framed points, one bin, and constraints that cross at most one edge each: no condition on the result. -/
theorem C93_single (hcfg : RealCfg) (fuel : Nat) (bins : Nat → Nat) (vs : List (Vtx K)) (h : Good fuel bins vs)
    (hfuel : fuelFor vs.length ≤ fuel) (h1 : bins vs.length = 1) (x0 x1 y0 y1 : K) (hf : Spec.Framed vs x0 x1 y0 y1)
    (es : List Edge) (hc : Spec.ClearOfVertices vs es) (hx : Spec.NonCrossing vs es) (hb : ∀ s ∈ Spec.segments vs es, s.1 ≠ s.2)
    (out0 : List Out) (h0 : triangulation2d fuel bins vs = .ok out0) (hone : Spec.SingleCross vs es out0) :
    ∃ out, constrained2d fuel bins vs es = .ok out ∧ ∀ m, ∀ P ∈ vs, ∀ Q ∈ vs, P ≠ Q → Spec.Visible vs es out P Q →
      Spec.SeesTwo vs es out m P Q → Spec.Joined vs out P Q := by
  obtain ⟨out, ho, hl⟩ := C59_single_partial hcfg fuel bins vs h hfuel h1 x0 x1 y0 y1 hf es hc hx out0 h0 hone
  exact ⟨out, ho, fun m P hP Q hQ hne hv he => C93_edges fuel bins vs h hfuel es hx hb out ho hl m P Q hP hQ hne hv he⟩

/-- **C93** in rounded arithmetic (`f32`, `f64`) on robust inputs and on grids; `V` are the exact positions. -/
theorem C93_edges_rounded {F : Type} [FloatOps F] [Rounded F] (fuel : Nat) (bins : Nat → Nat) (vs : List (Vtx F)) (V : List (Vtx ℚ)) (W : ℚ)
    (h : Rounded.RGoodC fuel bins vs V W) (es : List Edge) (hx : Spec.NonCrossing V es) (hb : ∀ s ∈ Spec.segments V es, s.1 ≠ s.2)
    (out : List Out) (ho : constrained2d fuel bins vs es = .ok out) (hl : Spec.LocallyDelaunay V es out) (m P Q : Vtx ℚ) (hP : P ∈ V)
    (hQ : Q ∈ V) (hne : P ≠ Q) (hv : Spec.Visible V es out P Q) (he : Spec.SeesTwo V es out m P Q) : Spec.Joined V out P Q := by
  let P' := Rounded.params F (bins vs.length) W (Rounded.scaleVal vs)
  rw [h.run] at ho
  exact C93_edges fuel bins V h.good (by rw [h.len]; exact h.fuelC) es hx hb out ho hl m P Q hP hQ hne hv he

end Main

section Example
open Rounded
local instance gabrielCCfg : IdCfg := u32Cfg

/-- The vertices `(6,5)` and `(7,3)` of the constrained run of `Props/Visible` see each other. -/
theorem sight_visible : Spec.Visible (intPts localGrid) localEdges localOut ⟨6, 5⟩ ⟨7, 3⟩ := by
  rintro ⟨x, y⟩ ⟨s, s0, s1, hx, hy⟩
  simp only at hx hy
  refine ⟨?_, ?_, ?_⟩
  · intro hm
    simp only [intPts, localGrid, List.map_cons, List.map_nil, List.mem_cons, Vtx.mk.injEq, List.not_mem_nil, or_false] at hm
    push_cast at hm
    rcases hm with ⟨h1, h2⟩ | ⟨h1, h2⟩ | ⟨h1, h2⟩ | ⟨h1, h2⟩ | ⟨h1, h2⟩ | ⟨h1, h2⟩ | ⟨h1, h2⟩ | ⟨h1, h2⟩ | ⟨h1, h2⟩ | ⟨h1, h2⟩ <;> linarith
  · exact ⟨(1,3,8), by decide, ⟨7, 3⟩, ⟨6, 5⟩, ⟨8, 8⟩, by decide +kernel, by decide +kernel, by decide +kernel, by
      unfold InClosedTriangle area2; refine ⟨?_, ?_, ?_⟩ <;> simp only [hx, hy] <;> linarith⟩
  · intro e he A B hA hB hon
    obtain ⟨z, z0, z1, ex, ey⟩ := hon
    simp only [localEdges, List.mem_cons, List.not_mem_nil, or_false] at he
    rcases he with rfl | rfl | rfl | rfl <;>
      simp only [intPts, localGrid, List.map_cons, List.getElem?_cons_succ, List.getElem?_cons_zero, Option.some.injEq] at hA hB <;>
      subst hA hB <;> simp only at ex ey <;> push_cast at ex ey <;> linarith

/-- Their diametral disc is empty, so they are joined. -/
example : Spec.Joined (intPts localGrid) localOut ⟨6, 5⟩ ⟨7, 3⟩ := by
  have hl : Spec.LocallyDelaunay (intPts localGrid) localEdges localOut := by
    obtain ⟨out, ho, hl⟩ := C59_single_rounded_partial (.inl rfl) 506 (fun _ => 1) _ (intPts localGrid) (2 ^ 3) local_good rfl 0 8 0 8 local_framed
      localEdges (clear_of_check (by decide +kernel)) (nonCrossing_of_check (by decide +kernel))
      [(2,5,3),(5,7,6),(3,5,4),(0,9,8),(4,6,9),(4,5,6),(1,7,2),(0,4,9),(2,7,5),(1,2,3),(1,8,7),(1,3,8),(0,3,4),(0,8,3)]
      (by decide +kernel) (single_of_check (by decide +kernel))
    rw [local_visible.1] at ho; simp only [Res.ok.injEq] at ho; rw [ho]; exact hl
  refine C93_edges_rounded 506 (fun _ => 1) _ _ _ local_good localEdges (nonCrossing_of_check (by decide +kernel)) (by decide +kernel) localOut
    local_visible.1 hl _ _ _ (by decide +kernel) (by decide +kernel) (by decide +kernel) sight_visible
    ((gabriel_onlyTwo ?_).sees _ _)
  intro r hr
  simp only [intPts, localGrid, List.map, List.mem_cons, List.not_mem_nil, or_false] at hr
  rcases hr with rfl | rfl | rfl | rfl | rfl | rfl | rfl | rfl | rfl | rfl <;> norm_num [Plane.dist2, Spec.middle]

end Example
end CDT

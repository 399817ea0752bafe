import Verif.Spec.Visible

/-! # From locally Delaunay to constrained Delaunay: the walk along a line of sight -/

set_option linter.unusedSectionVars false
set_option linter.unusedVariables false

namespace CDT
open Plane

variable {K : Type} [Field K] [LinearOrder K] [IsStrictOrderedRing K]

/-- The last point of an interval where some affine functions are not negative. -/
theorem affine_last (fs : List (K × K)) {s0 : K} (h1 : s0 ≤ 1) (h : ∀ f ∈ fs, 0 ≤ f.1 + s0 * f.2) :
    ∃ s, s0 ≤ s ∧ s ≤ 1 ∧ (∀ f ∈ fs, 0 ≤ f.1 + s * f.2) ∧ (s = 1 ∨ ∃ f ∈ fs, f.1 + s * f.2 = 0 ∧ f.2 < 0) := by
  induction fs with
  | nil => exact ⟨1, h1, le_refl _, by simp, .inl rfl⟩
  | cons f fs ih =>
    obtain ⟨s, a1, a2, a3, a4⟩ := ih fun f hf => h f (by simp [hf])
    by_cases hf : 0 ≤ f.1 + s * f.2
    · exact ⟨s, a1, a2, by simpa using ⟨hf, fun x y hm => a3 (x, y) hm⟩, a4.imp id fun ⟨f, hf, h⟩ => ⟨f, by simp [hf], h⟩⟩
    have hf0 := h f (by simp)
    have hs : s0 < s := by
      rcases lt_or_eq_of_le a1 with h | h
      · exact h
      · rw [← h] at hf; exact absurd hf0 hf
    have hneg : f.2 < 0 := by
      by_contra hn
      have := mul_nonneg (sub_nonneg.2 a1) (not_lt.1 hn)
      apply hf; linarith
    have hz : f.1 + (f.1 / -f.2) * f.2 = 0 := by
      have := hneg.ne
      rw [div_neg, neg_mul, div_mul_cancel₀ _ this]; ring
    set z := f.1 / -f.2 with hzd
    have z0 : s0 ≤ z := by
      by_contra hn
      have := mul_pos (sub_pos.2 (not_le.1 hn)) (neg_pos.2 hneg)
      linarith
    have z1 : z ≤ s := by
      by_contra hn
      have := mul_pos (sub_pos.2 (not_le.1 hn)) (neg_pos.2 hneg)
      apply hf; linarith
    refine ⟨z, z0, z1.trans a2, ?_, .inr ⟨f, by simp, hz, hneg⟩⟩
    intro g hg
    rcases List.mem_cons.1 hg with rfl | hg'
    · exact hz.ge
    · have g0 := h g hg
      have g1 := a3 g hg'
      rcases le_total 0 g.2 with h2 | h2
      · have := mul_nonneg (sub_nonneg.2 z0) h2; linarith
      · have := mul_nonneg (sub_nonneg.2 z1) (neg_nonneg.2 h2); linarith

/-- A maximal value of a partial function on a list. -/
theorem exists_last {α : Type} (l : List α) (R : α → K → Prop) (hR : ∀ t s s', R t s → R t s' → s = s') (h : ∃ t ∈ l, ∃ s, R t s) :
    ∃ t ∈ l, ∃ s, R t s ∧ ∀ u ∈ l, ∀ s', R u s' → s' ≤ s := by
  induction l with
  | nil => simp at h
  | cons x l ih =>
    by_cases hl : ∃ t ∈ l, ∃ s, R t s
    · obtain ⟨t, ht, s, h1, h2⟩ := ih hl
      by_cases hx : ∃ s', R x s' ∧ s < s'
      · obtain ⟨s', h3, h4⟩ := hx
        refine ⟨x, by simp, s', h3, fun u hu z hz => ?_⟩
        rcases List.mem_cons.1 hu with rfl | hu
        · exact (hR _ _ _ hz h3).le
        · exact (h2 u hu z hz).trans h4.le
      · push Not at hx
        refine ⟨t, by simp [ht], s, h1, fun u hu z hz => ?_⟩
        rcases List.mem_cons.1 hu with rfl | hu
        · exact hx z hz
        · exact h2 u hu z hz
    · obtain ⟨t, ht, s, h1⟩ := h
      rcases List.mem_cons.1 ht with rfl | ht
      · refine ⟨t, by simp, s, h1, fun u hu z hz => ?_⟩
        rcases List.mem_cons.1 hu with rfl | hu
        · exact (hR _ _ _ hz h1).le
        · exact absurd ⟨u, hu, z, hz⟩ hl
      · exact absurd ⟨t, ht, s, h1⟩ hl

/-- The point at the fraction `s` of the way from `q` to `p`. -/
def along (q p : Vtx K) (s : K) : Vtx K := ⟨q.x + s * (p.x - q.x), q.y + s * (p.y - q.y)⟩

theorem area2_along (a b q p : Vtx K) (s : K) : area2 a b (along q p s) = area2 a b q + s * (area2 a b p - area2 a b q) := by
  unfold area2 along; ring

/-- Power of a point with respect to the circle of `a b c`, up to a positive factor: positive inside if `a b c` is clockwise. -/
def power (a b c p : Vtx K) : K :=
  -((a.x - c.x) * (b.x - c.x) + (a.y - c.y) * (b.y - c.y)) * area2 a b p + ((a.x - p.x) * (b.x - p.x) + (a.y - p.y) * (b.y - p.y)) * area2 a b c

theorem power_inCircle {a b c p : Vtx K} (h : Clockwise a b c) : InCircle a b c p ↔ 0 < power a b c p := by
  have key : ∀ m, Circumcenter m a b c → power a b c p = (dist2 m p - dist2 m a) * area2 a b c := by
    rintro m ⟨e1, e2⟩
    unfold dist2 at e1 e2
    unfold power dist2 area2
    linear_combination ((b.x - a.x) * (p.y - a.y) - (p.x - a.x) * (b.y - a.y)) * e2 - ((c.x - a.x) * (p.y - a.y) - (p.x - a.x) * (c.y - a.y)) * e1
  constructor
  · rintro ⟨m, hm, hl⟩
    rw [key m hm]
    exact mul_pos_of_neg_of_neg (by linarith) h
  · intro hp
    obtain ⟨m, hm⟩ := exists_circumcenter a b c (ne_of_lt h)
    refine ⟨m, hm, ?_⟩
    rw [key m hm] at hp
    unfold Clockwise at h
    by_contra hn
    have := mul_nonpos_of_nonneg_of_nonpos (sub_nonneg.2 (not_lt.1 hn)) h.le
    linarith

/-- Behind a locally Delaunay edge `a b` between `a b c` and `b a d`, the circle of `a b c` is part of the circle of `b a d`. -/
theorem power_across {a b c d p : Vtx K} (hc : Clockwise a b c) (hd : Clockwise b a d) (hp : Clockwise b a p) (hl : ¬ InCircle a b c d)
    (h : InCircle a b c p) : InCircle b a d p := by
  rw [power_inCircle hc] at h hl
  rw [power_inCircle hd]
  unfold Clockwise at hc hd hp
  rw [area2_swap] at hd hp
  unfold power at *
  rw [area2_swap a b p, area2_swap a b d]
  set gc := (a.x - c.x) * (b.x - c.x) + (a.y - c.y) * (b.y - c.y)
  set gd := (a.x - d.x) * (b.x - d.x) + (a.y - d.y) * (b.y - d.y)
  set gp := (a.x - p.x) * (b.x - p.x) + (a.y - p.y) * (b.y - p.y)
  have e1 : (b.x - d.x) * (a.x - d.x) + (b.y - d.y) * (a.y - d.y) = gd := by ring
  have e2 : (b.x - p.x) * (a.x - p.x) + (b.y - p.y) * (a.y - p.y) = gp := by ring
  rw [e1, e2]
  have m1 := mul_pos h (show 0 < area2 a b d by linarith)
  have m2 := mul_nonneg (neg_nonneg.2 (not_lt.1 hl)) (show 0 ≤ area2 a b p by linarith)
  have : 0 < -area2 a b c * (-gd * -area2 a b p + gp * -area2 a b d) := by linarith
  exact (mul_pos_iff_of_pos_left (by linarith)).1 this

theorem not_inCircle_self {a b c : Vtx K} {p : Vtx K} (h : p = a ∨ p = b ∨ p = c) : ¬ InCircle a b c p := by
  rintro ⟨m, ⟨e1, e2⟩, e3⟩
  rcases h with rfl | rfl | rfl
  · exact lt_irrefl _ e3
  · rw [e1] at e3; exact lt_irrefl _ e3
  · rw [e2] at e3; exact lt_irrefl _ e3

theorem inCircle_cyc {a b c p : Vtx K} (h : InCircle a b c p) : InCircle b c a p := by
  obtain ⟨m, ⟨e1, e2⟩, e3⟩ := h
  exact ⟨m, ⟨e1.symm.trans e2, e1.symm⟩, by rw [← e1]; exact e3⟩

theorem cornersOf_cyc {t : Nat × Nat × Nat} {a b c : Nat} (h : Spec.CornersOf t a b c) : Spec.CornersOf t b c a := by
  rcases h with h | h | h
  · exact .inr (.inr h)
  · exact .inl h
  · exact .inr (.inl h)

/-- A point of the line `a b` in the closed triangle `a b c`, not at `a` or `b`, is between them. -/
theorem between_of_zero {a b c x : Vtx K} (hc : Clockwise a b c) (h0 : area2 a b x = 0) (h1 : area2 b c x ≤ 0) (h2 : area2 c a x ≤ 0)
    (ha : x ≠ a) (hb : x ≠ b) : InsideSegment a b x := by
  have hne : area2 a b c ≠ 0 := ne_of_lt hc
  have hsum : area2 a b x + area2 b c x + area2 c a x = area2 a b c := by unfold area2; ring
  have ex : x.x = a.x + (area2 c a x / area2 a b c) * (b.x - a.x) := by
    field_simp
    unfold area2 at *
    linear_combination (c.x - a.x) * h0
  have ey : x.y = a.y + (area2 c a x / area2 a b c) * (b.y - a.y) := by
    field_simp
    unfold area2 at *
    linear_combination (c.y - a.y) * h0
  refine ⟨area2 c a x / area2 a b c, ?_, ?_, ex, ey⟩
  · rcases lt_or_eq_of_le h2 with h | h
    · exact div_pos_of_neg_of_neg h hc
    · exfalso; apply ha
      rw [h] at ex ey
      cases x; cases a; simp at ex ey; simp [ex, ey]
  · rw [div_lt_one_of_neg hc]
    rcases lt_or_eq_of_le h1 with h | h
    · linarith
    · exfalso; apply hb
      have : area2 c a x / area2 a b c = 1 := by rw [div_eq_one_iff_eq hne]; linarith
      rw [this] at ex ey
      cases x; cases b; simp at ex ey; simp [ex, ey]

/-- Where the line of sight leaves a triangle with the property `I`: at its end or through the side `a b`. -/
def Leaves (vs : List (Vtx K)) (I : Vtx K → Vtx K → Vtx K → Prop) (q p : Vtx K) (t : Nat × Nat × Nat) (s : K) : Prop :=
  ∃ a b c A B C, Spec.CornersOf t a b c ∧ vs[a]? = some A ∧ vs[b]? = some B ∧ vs[c]? = some C ∧ I A B C ∧
    InClosedTriangle A B C (along q p s) ∧ 0 < s ∧ s ≤ 1 ∧ (s = 1 ∨ (area2 A B (along q p s) = 0 ∧ Clockwise B A p))

theorem closed_cyc {a b c x : Vtx K} (h : InClosedTriangle a b c x) : InClosedTriangle b c a x := ⟨h.2.1, h.2.2, h.1⟩

theorem Leaves.unique {vs : List (Vtx K)} {I : Vtx K → Vtx K → Vtx K → Prop} {q p : Vtx K} {t : Nat × Nat × Nat} {s s' : K}
    (h : Leaves vs I q p t s) (h' : Leaves vs I q p t s') :
    s ≤ s' := by
  by_contra hn
  push Not at hn
  obtain ⟨a, b, c, A, B, C, hc, gA, gB, gC, -, hcl, s0, s1, -⟩ := h
  obtain ⟨a', b', c', A', B', C', hc', gA', gB', gC', -, -, -, s1', hl'⟩ := h'
  rcases hl' with rfl | ⟨h0, hp⟩
  · linarith
  have key : area2 A' B' (along q p s) ≤ 0 := by
    have : (a' = a ∧ b' = b) ∨ (a' = b ∧ b' = c) ∨ (a' = c ∧ b' = a) := by
      rcases hc with rfl | rfl | rfl <;> rcases hc' with h | h | h <;> simp only [Prod.mk.injEq] at h <;> obtain ⟨h1, h2, h3⟩ := h <;>
        subst h1 h2 h3 <;> simp
    rcases this with ⟨rfl, rfl⟩ | ⟨rfl, rfl⟩ | ⟨rfl, rfl⟩
    · rw [gA] at gA'; rw [gB] at gB'; cases gA'; cases gB'; exact hcl.1
    · rw [gB] at gA'; rw [gC] at gB'; cases gA'; cases gB'; exact hcl.2.1
    · rw [gC] at gA'; rw [gA] at gB'; cases gA'; cases gB'; exact hcl.2.2
  unfold Clockwise at hp
  rw [area2_swap] at hp
  rw [area2_along] at h0 key
  have m := mul_pos (sub_pos.2 hn) (neg_pos.2 hp)
  -- value at s' is 0, at 1 positive
  have hd : 0 < area2 A' B' p - area2 A' B' q := by
    by_contra hd
    have := mul_nonneg (sub_nonneg.2 s1') (neg_nonneg.2 (not_lt.1 hd))
    linarith
  have := mul_pos (sub_pos.2 hn) hd
  linarith

/-- A triangle met by the line of sight is left somewhere. -/
theorem Leaves.exists {vs : List (Vtx K)} {I : Vtx K → Vtx K → Vtx K → Prop} (hI : ∀ A B C, I A B C → I B C A) {q p : Vtx K}
    {t : Nat × Nat × Nat} {a b c : Nat} {A B C : Vtx K} (hc : Spec.CornersOf t a b c)
    (gA : vs[a]? = some A) (gB : vs[b]? = some B) (gC : vs[c]? = some C) (hin : I A B C) {s0 : K} (hs : s0 ≤ 1)
    (hcl : InClosedTriangle A B C (along q p s0)) (h0 : 0 < s0 ∨ (s0 = 0 ∧ InTriangle A B C q)) : ∃ s, s0 ≤ s ∧ Leaves vs I q p t s := by
  obtain ⟨s, h1, h2, h3, h4⟩ := affine_last [(-area2 A B q, -(area2 A B p - area2 A B q)), (-area2 B C q, -(area2 B C p - area2 B C q)),
    (-area2 C A q, -(area2 C A p - area2 C A q))] hs (by
      obtain ⟨c1, c2, c3⟩ := hcl
      rw [area2_along] at c1 c2 c3
      simp only [List.mem_cons, List.not_mem_nil, or_false, forall_eq_or_imp, forall_eq]
      exact ⟨by linarith, by linarith, by linarith⟩)
  simp only [List.mem_cons, List.not_mem_nil, or_false, forall_eq_or_imp, forall_eq, exists_eq_or_imp, exists_eq_left] at h3 h4
  obtain ⟨c1, c2, c3⟩ := h3
  have hcl' : InClosedTriangle A B C (along q p s) := by
    refine ⟨?_, ?_, ?_⟩ <;> rw [area2_along] <;> linarith
  have pos : 0 < s := by
    rcases h0 with h0 | ⟨rfl, hq⟩
    · linarith
    · rcases lt_or_eq_of_le h1 with h | h
      · exact h
      · exfalso
        subst h
        obtain ⟨q1, q2, q3⟩ := hq
        unfold Clockwise at q1 q2 q3
        rcases h4 with h | ⟨h, -⟩ | ⟨h, -⟩ | ⟨h, -⟩
        · exact zero_ne_one h
        · linarith
        · linarith
        · linarith
  refine ⟨s, h1, ?_⟩
  by_cases he : s = 1
  · exact ⟨a, b, c, A, B, C, hc, gA, gB, gC, hin, hcl', pos, h2, .inl he⟩
  have hlt : s < 1 := lt_of_le_of_ne h2 he
  have beyond : ∀ X Y : Vtx K, -area2 X Y q + s * -(area2 X Y p - area2 X Y q) = 0 → -(area2 X Y p - area2 X Y q) < 0 →
      area2 X Y (along q p s) = 0 ∧ Clockwise Y X p := by
    intro X Y e1 e2
    refine ⟨by rw [area2_along]; linarith, ?_⟩
    unfold Clockwise
    rw [area2_swap]
    have := mul_pos (sub_pos.2 hlt) (neg_pos.2 e2)
    linarith
  rcases h4 with h | ⟨e1, e2⟩ | ⟨e1, e2⟩ | ⟨e1, e2⟩
  · exact absurd h he
  · exact ⟨a, b, c, A, B, C, hc, gA, gB, gC, hin, hcl', pos, h2, .inr (beyond _ _ e1 e2)⟩
  · exact ⟨b, c, a, B, C, A, cornersOf_cyc hc, gB, gC, gA, hI _ _ _ hin, closed_cyc hcl', pos, h2, .inr (beyond _ _ e1 e2)⟩
  · exact ⟨c, a, b, C, A, B, cornersOf_cyc (cornersOf_cyc hc), gC, gA, gB, hI _ _ _ (hI _ _ _ hin), closed_cyc (closed_cyc hcl'), pos, h2,
      .inr (beyond _ _ e1 e2)⟩

/-- Behind the side through which one triangle is left, the next triangle is left later. -/
theorem Leaves.next {vs : List (Vtx K)} {I : Vtx K → Vtx K → Vtx K → Prop} (hI : ∀ A B C, I A B C → I B C A) {q p : Vtx K}
    {u : Nat × Nat × Nat} {a b d : Nat} {A B D : Vtx K} {s : K} (hud : Spec.CornersOf u b a d)
    (gA : vs[a]? = some A) (gB : vs[b]? = some B) (gD : vs[d]? = some D) (hBAD : Clockwise B A D) (hin' : I B A D)
    (hX : InsideSegment A B (along q p s)) (hz : area2 A B (along q p s) = 0) (hpb : Clockwise B A p) (s0 : 0 < s) (hlt : s < 1) :
    ∃ s', s < s' ∧ Leaves vs I q p u s' := by
  obtain ⟨z, z0, z1, hx, hy⟩ := hX
  have aAD : area2 A D (along q p s) < 0 := by
    have : area2 A D (along q p s) = z * area2 B A D := by unfold area2; rw [hx, hy]; ring
    rw [this]; exact mul_neg_of_pos_of_neg z0 hBAD
  have aDB : area2 D B (along q p s) < 0 := by
    have : area2 D B (along q p s) = (1 - z) * area2 B A D := by unfold area2; rw [hx, hy]; ring
    rw [this]; exact mul_neg_of_pos_of_neg (by linarith) hBAD
  have aBA : area2 B A (along q p s) = 0 := by rw [area2_swap, hz, neg_zero]
  obtain ⟨s', hs', hL'⟩ := Leaves.exists hI hud gB gA gD hin' hlt.le ⟨aBA.le, aAD.le, aDB.le⟩ (.inl s0)
  refine ⟨s', lt_of_le_of_ne hs' ?_, hL'⟩
  rintro rfl
  obtain ⟨a', b', c', A', B', C', hc', gA', gB', gC', -, -, -, -, hl'⟩ := hL'
  obtain ⟨e0, e1⟩ := hl'.resolve_left hlt.ne
  have : (a' = b ∧ b' = a) ∨ (a' = a ∧ b' = d) ∨ (a' = d ∧ b' = b) := by
    rcases hud with rfl | rfl | rfl <;> rcases hc' with h | h | h <;> simp only [Prod.mk.injEq] at h <;> obtain ⟨h1, h2, h3⟩ := h <;>
      subst h1 h2 h3 <;> simp
  rcases this with ⟨rfl, rfl⟩ | ⟨rfl, rfl⟩ | ⟨rfl, rfl⟩
  · rw [gB] at gA'; rw [gA] at gB'; cases gA'; cases gB'
    unfold Clockwise at e1 hpb
    rw [area2_swap] at hpb
    linarith
  · rw [gA] at gA'; rw [gD] at gB'; cases gA'; cases gB'
    linarith
  · rw [gD] at gA'; rw [gB] at gB'; cases gA'; cases gB'
    linarith

/-- The constrained Delaunay lemma: in a locally Delaunay triangulation, no visible vertex is inside a circumcircle. -/
theorem constrainedDelaunay_of_local {vs : List (Vtx K)} {es : List Edge} {out : List (Nat × Nat × Nat)}
    (hcw : ∀ t ∈ out, ∀ a b c A B C, Spec.CornersOf t a b c → vs[a]? = some A → vs[b]? = some B → vs[c]? = some C → Clockwise A B C)
    (hget : ∀ t ∈ out, ∀ a b c, Spec.CornersOf t a b c → ∃ C, vs[c]? = some C)
    (hloc : Spec.LocallyDelaunay vs es out)
    (hemp : ∀ t ∈ out, ∀ a b c A B C P, Spec.CornersOf t a b c → vs[a]? = some A → vs[b]? = some B → vs[c]? = some C → P ∈ vs →
      InClosedTriangle A B C P → P = A ∨ P = B ∨ P = C)
    (hnb : ∀ t ∈ out, ∀ a b c A B, Spec.CornersOf t a b c → vs[a]? = some A → vs[b]? = some B → ∀ X P, InsideSegment A B X → Clockwise B A P →
      ¬ Spec.Constrains vs es A B → (∀ Y, InsideSegment X P Y → Spec.Covered vs out Y) → ∃ u ∈ out, ∃ d, Spec.CornersOf u b a d) :
    Spec.ConstrainedDelaunay vs es out := by
  intro t0 ht0 A0 B0 C0 gA0 gB0 gC0 q hq p hp hvis hin0
  obtain ⟨t, ht, s, hL, hmax⟩ := exists_last out (Leaves vs (fun A B C => InCircle A B C p) q p) (fun t s s' h h' => le_antisymm (h.unique h') (h'.unique h))
    ⟨t0, ht0, by
      obtain ⟨s, -, hs⟩ := Leaves.exists (I := fun A B C => InCircle A B C p) (fun _ _ _ => inCircle_cyc) (q := q) (p := p) (s0 := 0) (t := t0) (.inl rfl) gA0 gB0 gC0 hin0 zero_le_one
        (by
          obtain ⟨h1, h2, h3⟩ := hq
          unfold Clockwise at h1 h2 h3
          refine ⟨?_, ?_, ?_⟩ <;> rw [area2_along] <;> linarith) (.inr ⟨rfl, hq⟩)
      exact ⟨s, hs⟩⟩
  obtain ⟨a, b, c, A, B, C, hc, gA, gB, gC, hin, hcl, s0, s1, hl⟩ := hL
  have hABC := hcw t ht a b c A B C hc gA gB gC
  by_cases he : s = 1
  · subst he
    have e : along q p 1 = p := by unfold along; cases p; simp
    rw [e] at hcl
    exact not_inCircle_self (hemp t ht a b c A B C p hc gA gB gC hp hcl) hin
  have hlt : s < 1 := lt_of_le_of_ne s1 he
  obtain ⟨hz, hpb⟩ := hl.resolve_left he
  obtain ⟨v1, v2, v3⟩ := hvis (along q p s) ⟨s, s0, hlt, rfl, rfl⟩
  have hX := between_of_zero hABC hz hcl.2.1 hcl.2.2 (fun e => v1 (e ▸ List.mem_of_getElem? gA)) (fun e => v1 (e ▸ List.mem_of_getElem? gB))
  have hXon : OnSegment A B (along q p s) := by
    obtain ⟨z, h1, h2, h3⟩ := hX; exact ⟨z, h1.le, h2.le, h3⟩
  have hXon' : OnSegment B A (along q p s) := by
    obtain ⟨z, h1, h2, h3, h4⟩ := hX
    exact ⟨1 - z, by linarith, by linarith, by rw [h3]; ring, by rw [h4]; ring⟩
  have hno : ¬ Spec.Constrains vs es A B := by
    rintro ⟨e, he, ⟨h1, h2⟩ | ⟨h1, h2⟩⟩
    · exact v3 e he A B h1 h2 hXon
    · exact v3 e he B A h1 h2 hXon'
  obtain ⟨u, hu, d, hud⟩ := hnb t ht a b c A B hc gA gB (along q p s) p hX hpb hno (by
    rintro Y ⟨z, z0, z1, hx, hy⟩
    refine (hvis Y ⟨s + z * (1 - s), ?_, ?_, ?_, ?_⟩).2.1
    · have := mul_pos z0 (sub_pos.2 hlt); linarith
    · have := mul_pos (sub_pos.2 z1) (sub_pos.2 hlt); linarith
    · rw [hx]; simp only [along]; ring
    · rw [hy]; simp only [along]; ring)
  obtain ⟨D, gD⟩ := hget u hu b a d hud
  have hBAD := hcw u hu b a d B A D hud gB gA gD
  have hin' := power_across hABC hBAD hpb (hloc t ht u hu a b c d hc hud A B C D gA gB gC gD hno) hin
  obtain ⟨s', hs', hL'⟩ := Leaves.next (I := fun A B C => InCircle A B C p) (fun _ _ _ => inCircle_cyc) hud gA gB gD hBAD hin' hX hz hpb s0 hlt
  exact absurd (hmax u hu s' hL') (not_le.2 hs')

end CDT

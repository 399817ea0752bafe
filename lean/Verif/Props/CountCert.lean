import Verif.Props.RegionCount
import Verif.Props.HullCount

/-!
# C103: the number of triangles decides whether the convex hull is covered

No set of triangles between the vertices that do not overlap and contain no other vertex has more than `2 n - 2 - b` elements, and a
result that has as many covers the convex hull.
-/

set_option linter.unusedSectionVars false

namespace CDT
open Plane

section Geometry
variable {K : Type} [Field K] [LinearOrder K] [IsStrictOrderedRing K]

/-- Strictly inside a triangle between vertices. -/
def Spec.InsideSome (vs : List (Vtx K)) (z : Vtx K) : Prop := ∃ X ∈ vs, ∃ Y ∈ vs, ∃ Z ∈ vs, InTriangle X Y Z z

/-- A point strictly inside a triangle is strictly on the side of a line that has the corners on it. -/
theorem inside_strict {p q X Y Z z : Vtx K} (hpq : q ≠ p) (hX : area2 p q X ≤ 0) (hY : area2 p q Y ≤ 0) (hZ : area2 p q Z ≤ 0)
    (h : InTriangle X Y Z z) : area2 p q z < 0 := by
  obtain ⟨w1, w2, w3⟩ := h
  unfold Clockwise at w1 w2 w3
  have hS : area2 X Y Z = area2 X Y z + area2 Y Z z + area2 Z X z := by unfold area2; ring
  have key : area2 X Y Z * area2 p q z = area2 Y Z z * area2 p q X + area2 Z X z * area2 p q Y + area2 X Y z * area2 p q Z := by
    unfold area2; ring
  have n1 := mul_nonneg_of_nonpos_of_nonpos w2.le hX
  have n2 := mul_nonneg_of_nonpos_of_nonpos w3.le hY
  have n3 := mul_nonneg_of_nonpos_of_nonpos w1.le hZ
  by_contra hn
  have h0 := mul_nonneg_of_nonpos_of_nonpos (show -area2 p q z ≤ 0 by linarith) (show area2 X Y Z ≤ 0 by linarith)
  have eX := (mul_eq_zero.1 (show area2 Y Z z * area2 p q X = 0 by linarith)).resolve_left w2.ne
  have eY := (mul_eq_zero.1 (show area2 Z X z * area2 p q Y = 0 by linarith)).resolve_left w3.ne
  have eZ := (mul_eq_zero.1 (show area2 X Y z * area2 p q Z = 0 by linarith)).resolve_left w1.ne
  have line : ((q.x - p.x) ^ 2 + (q.y - p.y) ^ 2) * area2 X Y Z =
      ((q.x - p.x) * (Y.x - X.x) + (q.y - p.y) * (Y.y - X.y)) * (area2 p q Z - area2 p q X) -
      (area2 p q Y - area2 p q X) * ((q.x - p.x) * (Z.x - X.x) + (q.y - p.y) * (Z.y - X.y)) := by unfold area2; ring
  rw [eX, eY, eZ] at line
  have hD : 0 < (q.x - p.x) ^ 2 + (q.y - p.y) ^ 2 := by
    rcases (add_nonneg (sq_nonneg (q.x - p.x)) (sq_nonneg (q.y - p.y))).lt_or_eq with h | h
    · exact h
    · exfalso
      apply hpq
      have k1 : q.x - p.x = 0 := pow_eq_zero_iff two_ne_zero |>.1 (by linarith [sq_nonneg (q.x - p.x), sq_nonneg (q.y - p.y)])
      have k2 : q.y - p.y = 0 := pow_eq_zero_iff two_ne_zero |>.1 (by linarith [sq_nonneg (q.x - p.x), sq_nonneg (q.y - p.y)])
      cases p; cases q
      simp only [Vtx.mk.injEq] at *
      exact ⟨by linarith, by linarith⟩
  have : area2 X Y Z = 0 := (mul_eq_zero.1 (show ((q.x - p.x) ^ 2 + (q.y - p.y) ^ 2) * area2 X Y Z = 0 by linarith)).resolve_left hD.ne'
  linarith

/-- From a position on a supporting line one does not get inside along a direction that does not cross the line. -/
theorem not_into {vs : List (Vtx K)} {p q d : Vtx K} (hpq : q ≠ p) (hall : ∀ r ∈ vs, area2 p q r ≤ 0) (hs : 0 ≤ slope2 p q d) :
    ¬ Spec.Into (Spec.InsideSome vs) p d := by
  rintro ⟨e, e0, he⟩
  obtain ⟨X, hX, Y, hY, Z, hZ, hin⟩ := he (e / 2) (by linarith) (by linarith)
  have := inside_strict hpq (hall X hX) (hall Y hY) (hall Z hZ) hin
  rw [area2_ahead, area2_left, zero_add] at this
  exact absurd (mul_nonneg (by linarith) hs) this.not_ge

theorem hull_bad {vs : List (Vtx K)} {p d : Vtx K} (h : Spec.OnHull vs p) : ∃ s, ¬ Spec.Into (Spec.InsideSome vs) p (Spec.sense d s) := by
  obtain ⟨q, hq, hall⟩ := h
  rcases le_total 0 (slope2 p q d) with h | h
  · exact ⟨true, not_into hq hall (by simpa [sense_slope] using h)⟩
  · exact ⟨false, not_into hq hall (by simpa [sense_slope] using h)⟩

/-- The positions that are extreme across a direction are on the border of the convex hull, and neither sense leads inside. -/
theorem extreme_bad {vs : List (Vtx K)} {p d c : Vtx K} (hc : c = d ∨ c = Spec.sense d false) (hd : Spec.ahead p c 1 ≠ p)
    (hall : ∀ r ∈ vs, area2 p (Spec.ahead p c 1) r ≤ 0) :
    Spec.OnHull vs p ∧ ∀ s, ¬ Spec.Into (Spec.InsideSome vs) p (Spec.sense d s) := by
  refine ⟨⟨_, hd, hall⟩, fun s => not_into hd hall (le_of_eq ?_)⟩
  rcases hc with rfl | rfl <;> cases s <;> simp [slope2, Spec.ahead, Spec.sense]

/-- The number of ways into the inner of the convex hull. -/
theorem inner_ways {vs : List (Vtx K)} {d : Vtx K} (hd : Spec.Oblique vs d) (hne : ∃ p ∈ vs, ∃ q ∈ vs, p ≠ q) :
    (Spec.ways (Spec.InsideSome vs) vs d).card + (Spec.hullPositions vs).card + 2 ≤ 2 * (Spec.positions vs).card := by
  classical
  obtain ⟨p, hp, q, hq, hpq⟩ := hne
  have mp : ∀ {r}, r ∈ Spec.positions vs ↔ r ∈ vs := by intro r; simp [Spec.positions]
  have mh : ∀ {r}, r ∈ Spec.hullPositions vs ↔ r ∈ vs ∧ Spec.OnHull vs r := by intro r; simp [Spec.hullPositions, Spec.positions]
  have hd0 : d.x ≠ 0 ∨ d.y ≠ 0 := by
    by_contra hn
    push Not at hn
    exact hd p hp q hq hpq (by rw [hn.1, hn.2]; ring)
  let f : Vtx K → K := fun r => r.x * d.y - d.x * r.y
  have finj : ∀ {r r'}, r ∈ vs → r' ∈ vs → f r = f r' → r = r' := by
    intro r r' h h' e
    by_contra hn
    refine hd r h r' h' hn ?_
    simp only [f] at e
    linear_combination -e
  obtain ⟨M, hM, hMax⟩ := Finset.exists_max_image (Spec.positions vs) f ⟨p, mp.2 hp⟩
  obtain ⟨m, hm, hMin⟩ := Finset.exists_min_image (Spec.positions vs) f ⟨p, mp.2 hp⟩
  have hMm : M ≠ m := by
    rintro rfl
    have e1 := le_antisymm (hMax p (mp.2 hp)) (hMin p (mp.2 hp))
    have e2 := le_antisymm (hMax q (mp.2 hq)) (hMin q (mp.2 hq))
    exact hpq (finj hp hq (e1.trans e2.symm))
  have go : ∀ (r c : Vtx K), (c.x ≠ 0 ∨ c.y ≠ 0) → Spec.ahead r c 1 ≠ r := by
    intro r c hc h
    unfold Spec.ahead at h
    cases r
    simp only [Vtx.mk.injEq, one_mul, add_eq_left] at h
    exact hc.elim (fun k => k h.1) (fun k => k h.2)
  obtain ⟨oM, bM⟩ := extreme_bad (vs := vs) (p := M) (d := d) (c := Spec.sense d false) (.inr rfl)
    (go _ _ (by simpa [Spec.sense] using hd0)) fun r hr => by
      have := hMax r (mp.2 hr)
      simp only [f] at this
      unfold area2 Spec.ahead Spec.sense
      simp only
      linarith
  obtain ⟨om, bm⟩ := extreme_bad (vs := vs) (p := m) (d := d) (c := d) (.inl rfl) (go _ _ hd0) fun r hr => by
      have := hMin r (mp.2 hr)
      simp only [f] at this
      unfold area2 Spec.ahead
      simp only
      linarith
  have hb : ∀ r, ∃ s, Spec.OnHull vs r → ¬ Spec.Into (Spec.InsideSome vs) r (Spec.sense d s) := by
    intro r
    by_cases h : Spec.OnHull vs r
    · obtain ⟨s, hs⟩ := hull_bad (d := d) h
      exact ⟨s, fun _ => hs⟩
    · exact ⟨true, fun h' => absurd h' h⟩
  choose s hs using hb
  let B : Finset (Vtx K × Bool) := (Spec.hullPositions vs).image (fun r => (r, s r)) ∪ {(M, !s M), (m, !s m)}
  have cB : B.card = (Spec.hullPositions vs).card + 2 := by
    rw [Finset.card_union_of_disjoint, Finset.card_image_of_injective, Finset.card_pair]
    · intro h; exact hMm (congrArg Prod.fst h)
    · intro a b h; exact congrArg Prod.fst h
    · rw [Finset.disjoint_right]
      intro x hx hx'
      obtain ⟨r, -, hr⟩ := Finset.mem_image.1 hx'
      simp only [Finset.mem_insert, Finset.mem_singleton] at hx
      rcases hx with rfl | rfl
      · simp only [Prod.mk.injEq] at hr
        obtain ⟨rfl, h⟩ := hr
        cases h' : s r <;> simp [h'] at h
      · simp only [Prod.mk.injEq] at hr
        obtain ⟨rfl, h⟩ := hr
        cases h' : s r <;> simp [h'] at h
  have hdis : Disjoint (Spec.ways (Spec.InsideSome vs) vs d) B := by
    rw [Finset.disjoint_right]
    intro x hx hw
    have hin := (mem_ways.1 hw).2
    rcases Finset.mem_union.1 hx with hx | hx
    · obtain ⟨r, hr, rfl⟩ := Finset.mem_image.1 hx
      exact hs r (mh.1 hr).2 hin
    · simp only [Finset.mem_insert, Finset.mem_singleton] at hx
      rcases hx with rfl | rfl
      · exact bM _ hin
      · exact bm _ hin
  have hsub : Spec.ways (Spec.InsideSome vs) vs d ∪ B ⊆ Spec.positions vs ×ˢ Finset.univ := by
    intro x hx
    rw [Finset.mem_product]
    refine ⟨mp.2 ?_, Finset.mem_univ _⟩
    rcases Finset.mem_union.1 hx with hx | hx
    · exact (mem_ways.1 hx).1
    · rcases Finset.mem_union.1 hx with hx | hx
      · obtain ⟨r, hr, rfl⟩ := Finset.mem_image.1 hx
        exact (mh.1 hr).1
      · simp only [Finset.mem_insert, Finset.mem_singleton] at hx
        rcases hx with rfl | rfl
        · exact mp.1 hM
        · exact mp.1 hm
  have := Finset.card_le_card hsub
  rw [Finset.card_union_of_disjoint hdis, cB, Finset.card_product, Finset.card_univ, Fintype.card_bool] at this
  omega

/-- A way into the union of the triangles is a way into one of them. -/
theorem first_of_covered {vs : List (Vtx K)} {out : List (Nat × Nat × Nat)} (hr : Spec.Rival vs out) {d : Vtx K} (hd : Spec.Oblique vs d)
    {p : Vtx K} {s : Bool} (h : Spec.Into (Spec.Covered vs out) p (Spec.sense d s)) :
    ∃ t ∈ out, ∃ A B C, vs[t.1]? = some A ∧ vs[t.2.1]? = some B ∧ vs[t.2.2]? = some C ∧ FirstIn A B C p (Spec.sense d s) := by
  obtain ⟨e1, h1, hin⟩ := h
  obtain ⟨e, e0, he⟩ := exists_first vs p (Spec.sense d s)
  have hm : 0 < min e1 e := lt_min h1 e0
  have l1 : min e1 e / 2 < e1 := by have := min_le_left e1 e; linarith
  have l2 : min e1 e / 2 < e := by have := min_le_right e1 e; linarith
  have off : Spec.OffLines vs (Spec.ahead p (Spec.sense d s) (min e1 e / 2)) := by
    intro X hX Y hY hne
    rcases first_either (p := p) (oblique_slope hd hX hY hne s) with h | h
    · exact ((he _ (half_pos hm) l2 X hX Y hY).2 h).ne
    · have := (he _ (half_pos hm) l2 Y hY X hX).2 h
      rw [area2_swap] at this
      exact (neg_lt_zero.1 this).ne'
  obtain ⟨t, ht, A, B, C, gA, gB, gC, hcl⟩ := hin _ (half_pos hm) l1
  obtain ⟨A', B', C', gA', gB', gC', hc, -⟩ := hr t ht
  rw [gA] at gA'; cases gA'
  rw [gB] at gB'; cases gB'
  rw [gC] at gC'; cases gC'
  have mA := List.mem_of_getElem? gA
  have mB := List.mem_of_getElem? gB
  have mC := List.mem_of_getElem? gC
  exact ⟨t, ht, A, B, C, gA, gB, gC, (he _ (half_pos hm) l2 A mA B mB).1 (lt_of_le_of_ne hcl.1 (off A mA B mB (cw_ne hc))),
      (he _ (half_pos hm) l2 B mB C mC).1 (lt_of_le_of_ne hcl.2.1 (off B mB C mC (cw_ne (cw_rot hc)))),
      (he _ (half_pos hm) l2 C mC A mA).1 (lt_of_le_of_ne hcl.2.2 (off C mC A mA (cw_ne (cw_rot (cw_rot hc)))))⟩

theorem firstIn_inTriangle {vs : List (Vtx K)} {A B C p d : Vtx K} {e : K} (hA : A ∈ vs) (hB : B ∈ vs) (hC : C ∈ vs) (hf : FirstIn A B C p d)
    (he : ∀ t, 0 < t → t < e → ∀ X ∈ vs, ∀ Y ∈ vs, (area2 X Y (Spec.ahead p d t) < 0 ↔ FirstRight X Y p d)) (t : K) (t0 : 0 < t) (ht : t < e) :
    InTriangle A B C (Spec.ahead p d t) :=
  ⟨(he t t0 ht A hA B hB).2 hf.1, (he t t0 ht B hB C hC).2 hf.2.1, (he t t0 ht C hC A hA).2 hf.2.2⟩

theorem into_of_first {vs : List (Vtx K)} {A B C p d : Vtx K} (hA : A ∈ vs) (hB : B ∈ vs) (hC : C ∈ vs) (hf : FirstIn A B C p d) :
    Spec.Into (Spec.InsideSome vs) p d := by
  obtain ⟨e, e0, he⟩ := exists_first vs p d
  exact ⟨e, e0, fun t t0 ht => ⟨A, hA, B, hB, C, hC, firstIn_inTriangle hA hB hC hf he t t0 ht⟩⟩

theorem ways_subset {vs : List (Vtx K)} {out : List (Nat × Nat × Nat)} (hr : Spec.Rival vs out) {d : Vtx K} (hd : Spec.Oblique vs d) :
    Spec.ways (Spec.Covered vs out) vs d ⊆ Spec.ways (Spec.InsideSome vs) vs d := by
  intro x hx
  obtain ⟨mx, hin⟩ := mem_ways.1 hx
  obtain ⟨t, -, A, B, C, gA, gB, gC, hf⟩ := first_of_covered hr hd hin
  exact mem_ways.2 ⟨mx, into_of_first (List.mem_of_getElem? gA) (List.mem_of_getElem? gB) (List.mem_of_getElem? gC) hf⟩

/-- **C103**. No set of triangles between the vertices that do not overlap and contain no other vertex has more than `2 n - 2 - b` elements. -/
theorem C103_most (vs : List (Vtx K)) (hne : ∃ p ∈ vs, ∃ q ∈ vs, p ≠ q) (out : List (Nat × Nat × Nat)) (hr : Spec.Rival vs out)
    (ha : Spec.Apart vs out) : out.length + (Spec.hullPositions vs).card + 2 ≤ 2 * (Spec.positions vs).card := by
  obtain ⟨d, hd⟩ := exists_oblique vs
  have h1 := length_ways hr ha hd (R := Spec.Covered vs out) fun _ _ => Iff.rfl
  have h2 := Finset.card_le_card (ways_subset hr hd)
  have h3 := inner_ways hd hne
  omega

/-- Numbers that are not both zero. -/
theorem exists_nonzero (l : List (K × K)) (h : ∀ x ∈ l, x.1 ≠ 0 ∨ x.2 ≠ 0) : ∃ e : K, 0 < e ∧ ∀ x ∈ l, ∀ t, 0 < t → t < e → x.1 + t * x.2 ≠ 0 := by
  induction l with
  | nil => exact ⟨1, one_pos, by simp⟩
  | cons x l ih =>
    obtain ⟨e, e0, he⟩ := ih fun y hy => h y (by simp [hy])
    obtain ⟨e', e0', he'⟩ : ∃ e' : K, 0 < e' ∧ ∀ t, 0 < t → t < e' → x.1 + t * x.2 ≠ 0 := by
      by_cases hx : x.1 = 0
      · refine ⟨1, one_pos, fun t t0 _ => ?_⟩
        rw [hx, zero_add]
        exact mul_ne_zero t0.ne' ((h x (by simp)).resolve_left (fun k => k hx))
      · refine ⟨|x.1| / (|x.2| + 1), div_pos (abs_pos.2 hx) (by positivity), fun t t0 ht h0 => ?_⟩
        rw [lt_div_iff₀ (by positivity)] at ht
        have : |x.1| = t * |x.2| := by
          rw [show x.1 = -(t * x.2) by linarith, abs_neg, abs_mul, abs_of_pos t0]
        linarith
    refine ⟨min e e', lt_min e0 e0', fun y hy t t0 ht => ?_⟩
    rcases List.mem_cons.1 hy with rfl | hy
    · exact he' t t0 (ht.trans_le (min_le_right _ _))
    · exact he y hy t t0 (ht.trans_le (min_le_left _ _))

theorem rival_corners {vs : List (Vtx K)} {out : List (Nat × Nat × Nat)} (hr : Spec.Rival vs out) {t : Nat × Nat × Nat} (ht : t ∈ out)
    {a b c : Nat} (hc : Spec.CornersOf t a b c) : ∃ A B C, vs[a]? = some A ∧ vs[b]? = some B ∧ vs[c]? = some C ∧ Clockwise A B C ∧
      (∀ P ∈ vs, InClosedTriangle A B C P → P = A ∨ P = B ∨ P = C) := by
  obtain ⟨A, B, C, gA, gB, gC, hcw, emp⟩ := hr t ht
  rcases hc with rfl | rfl | rfl
  · exact ⟨A, B, C, gA, gB, gC, hcw, emp⟩
  · exact ⟨C, A, B, gC, gA, gB, cw_rot (cw_rot hcw), fun P hP h => by have := emp P hP ⟨h.2.1, h.2.2, h.1⟩; tauto⟩
  · exact ⟨B, C, A, gB, gC, gA, cw_rot hcw, fun P hP h => by have := emp P hP ⟨h.2.2, h.1, h.2.1⟩; tauto⟩

/-- Triangles with a common inner point are the same. -/
theorem apart_corners {vs : List (Vtx K)} {out : List (Nat × Nat × Nat)} (ha : Spec.Apart vs out) {t u : Nat × Nat × Nat} (ht : t ∈ out)
    (hu : u ∈ out) {a b c x y z : Nat} (hc : Spec.CornersOf t a b c) (hx : Spec.CornersOf u x y z) {A B C X Y Z q : Vtx K}
    (gA : vs[a]? = some A) (gB : vs[b]? = some B) (gC : vs[c]? = some C) (gX : vs[x]? = some X) (gY : vs[y]? = some Y) (gZ : vs[z]? = some Z)
    (h : InTriangle A B C q) (h' : InTriangle X Y Z q) : t = u := by
  obtain ⟨i, hi⟩ := List.mem_iff_getElem?.1 ht
  obtain ⟨j, hj⟩ := List.mem_iff_getElem?.1 hu
  by_cases hij : i = j
  · subst hij; rw [hi] at hj; exact Option.some.inj hj
  · exfalso
    have k := ha i j t u hij hi hj
    rcases hc with rfl | rfl | rfl <;> rcases hx with rfl | rfl | rfl
    · exact k A B C X Y Z gA gB gC gX gY gZ q ⟨h, h'⟩
    · exact k A B C Y Z X gA gB gC gY gZ gX q ⟨h, h'.2.1, h'.2.2, h'.1⟩
    · exact k A B C Z X Y gA gB gC gZ gX gY q ⟨h, h'.2.2, h'.1, h'.2.1⟩
    · exact k B C A X Y Z gB gC gA gX gY gZ q ⟨⟨h.2.1, h.2.2, h.1⟩, h'⟩
    · exact k B C A Y Z X gB gC gA gY gZ gX q ⟨⟨h.2.1, h.2.2, h.1⟩, h'.2.1, h'.2.2, h'.1⟩
    · exact k B C A Z X Y gB gC gA gZ gX gY q ⟨⟨h.2.1, h.2.2, h.1⟩, h'.2.2, h'.1, h'.2.1⟩
    · exact k C A B X Y Z gC gA gB gX gY gZ q ⟨⟨h.2.2, h.1, h.2.1⟩, h'⟩
    · exact k C A B Y Z X gC gA gB gY gZ gX q ⟨⟨h.2.2, h.1, h.2.1⟩, h'.2.1, h'.2.2, h'.1⟩
    · exact k C A B Z X Y gC gA gB gZ gX gY q ⟨⟨h.2.2, h.1, h.2.1⟩, h'.2.2, h'.1, h'.2.1⟩

/-- A side without neighbor that has a vertex on its outer side leaves a way uncovered. -/
theorem exists_uncovered {vs : List (Vtx K)} {out : List (Nat × Nat × Nat)} (hr : Spec.Rival vs out) (ha : Spec.Apart vs out)
    (hid : ∀ t ∈ out, ∀ u ∈ out, ∀ a b c x y z A, Spec.CornersOf t a b c → Spec.CornersOf u x y z → vs[a]? = some A → vs[x]? = some A → a = x)
    {t : Nat × Nat × Nat} (ht : t ∈ out) {a b c : Nat} (hc : Spec.CornersOf t a b c) {A B P : Vtx K} (gA : vs[a]? = some A)
    (gB : vs[b]? = some B) (hno : ¬ ∃ u ∈ out, ∃ d, Spec.CornersOf u b a d) (hP : P ∈ vs) (hPA : 0 < area2 A B P) :
    ∃ d, Spec.Oblique vs d ∧ (A, true) ∈ Spec.ways (Spec.InsideSome vs) vs d ∧ (A, true) ∉ Spec.ways (Spec.Covered vs out) vs d := by
  have mA := List.mem_of_getElem? gA
  have mB := List.mem_of_getElem? gB
  obtain ⟨A', B', C, gA', gB', gC, hcw, emp⟩ := rival_corners hr ht hc
  rw [gA] at gA'; cases gA'
  rw [gB] at gB'; cases gB'
  have mC := List.mem_of_getElem? gC
  let D : Vtx K := ⟨P.x - A.x, P.y - A.y⟩
  obtain ⟨e1, e1p, h1⟩ := exists_first vs B D
  obtain ⟨e2, e2p, h2⟩ := exists_nonzero (((vs ×ˢ vs).filter fun x => decide (x.1 ≠ x.2)).map fun x =>
      (slope2 x.1 x.2 ⟨B.x - A.x, B.y - A.y⟩, slope2 x.1 x.2 D)) (by
    intro x hx
    obtain ⟨⟨p, q⟩, hy, rfl⟩ := List.mem_map.1 hx
    have hpq : p ≠ q := of_decide_eq_true (List.mem_filter.1 hy).2
    by_contra hn
    push Not at hn
    obtain ⟨z1, z2⟩ := hn
    simp only [slope2, D] at z1 z2
    have i1 : (q.x - p.x) * area2 A B P = 0 := by
      unfold area2; linear_combination (B.x - A.x) * z2 - (P.x - A.x) * z1
    have i2 : (q.y - p.y) * area2 A B P = 0 := by
      unfold area2; linear_combination (B.y - A.y) * z2 - (P.y - A.y) * z1
    have k1 := (mul_eq_zero.1 i1).resolve_right hPA.ne'
    have k2 := (mul_eq_zero.1 i2).resolve_right hPA.ne'
    apply hpq
    cases p; cases q
    simp only [Vtx.mk.injEq] at *
    exact ⟨by linarith, by linarith⟩)
  have hm : 0 < min e1 e2 := lt_min e1p e2p
  set ε := min e1 e2 / 2 with hε
  have ε0 : 0 < ε := half_pos hm
  have l1 : ε < e1 := by have := min_le_left e1 e2; rw [hε]; linarith
  have l2 : ε < e2 := by have := min_le_right e1 e2; rw [hε]; linarith
  let d : Vtx K := ⟨B.x - A.x + ε * D.x, B.y - A.y + ε * D.y⟩
  have hd : Spec.Oblique vs d := by
    intro p hp q hq hpq h0
    refine h2 (slope2 p q ⟨B.x - A.x, B.y - A.y⟩, slope2 p q D) (List.mem_map.2 ⟨(p, q), List.mem_filter.2 ⟨List.mem_product.2 ⟨hp, hq⟩,
      decide_eq_true hpq⟩, rfl⟩) ε ε0 l2 ?_
    simp only [d, slope2] at h0 ⊢
    linear_combination h0
  have sd : Spec.sense d true = d := rfl
  refine ⟨d, hd, mem_ways.2 ⟨mA, ?_⟩, fun hmem => ?_⟩
  · refine into_of_first (A := A) (B := P) (C := B) mA hP mB ?_
    have hcw' : Clockwise A P B := by
      have : area2 A P B = - area2 A B P := by unfold area2; ring
      unfold Clockwise; rw [this]; linarith
    rw [sd]
    refine (firstIn_corner hcw').2 ⟨?_, ?_⟩
    · have : slope2 A P d = - area2 A B P := by simp only [slope2, d, D, area2]; ring
      rw [this]; linarith
    · have : slope2 B A d = - (ε * area2 A B P) := by simp only [slope2, d, D, area2]; ring
      rw [this]; linarith [mul_pos ε0 hPA]
  · obtain ⟨u, hu, X0, Y0, Z0, gX0, gY0, gZ0, hf⟩ := first_of_covered hr hd (mem_ways.1 hmem).2
    rw [sd] at hf
    simp only at hf
    -- the corner of this triangle at `A`
    obtain ⟨x, y, z, X, Y, hxyz, gx, gy, gz, hfx⟩ : ∃ x y z X Y, Spec.CornersOf u x y z ∧ vs[x]? = some A ∧ vs[y]? = some X ∧ vs[z]? = some Y ∧
        FirstIn A X Y A d := by
      obtain ⟨X', Y', Z', g1, g2, g3, -, emp'⟩ := hr u hu
      rw [gX0] at g1; cases g1
      rw [gY0] at g2; cases g2
      rw [gZ0] at g3; cases g3
      rcases emp' A mA (firstIn_closed hf) with e | e | e
      · exact ⟨u.1, u.2.1, u.2.2, Y0, Z0, .inl rfl, by rw [gX0, e], gY0, gZ0, by rw [← e] at hf; exact hf⟩
      · exact ⟨u.2.1, u.2.2, u.1, Z0, X0, .inr (.inr rfl), by rw [gY0, e], gZ0, gX0, by rw [← e] at hf; exact firstIn_rot.2 hf⟩
      · exact ⟨u.2.2, u.1, u.2.1, X0, Y0, .inr (.inl rfl), by rw [gZ0, e], gX0, gY0, by rw [← e] at hf; exact firstIn_rot.2 (firstIn_rot.2 hf)⟩
    obtain ⟨A', X', Y', g1, g2, g3, hcx, empx⟩ := rival_corners hr hu hxyz
    rw [gx] at g1; cases g1
    rw [gy] at g2; cases g2
    rw [gz] at g3; cases g3
    have mX := List.mem_of_getElem? gy
    have mY := List.mem_of_getElem? gz
    obtain ⟨s1, s2⟩ := (firstIn_corner hcx).1 hfx
    have f1 : FirstRight A X B D := (h1 ε ε0 l1 A mA X mX).1 (by
      have : area2 A X (Spec.ahead B D ε) = slope2 A X d := by simp only [area2, Spec.ahead, slope2, d]; ring
      rw [this]; exact s1)
    have f2 : FirstRight Y A B D := (h1 ε ε0 l1 Y mY A mA).1 (by
      have : area2 Y A (Spec.ahead B D ε) = slope2 Y A d := by simp only [area2, Spec.ahead, slope2, d]; ring
      rw [this]; exact s2)
    unfold Clockwise at hcx hcw
    rcases f1 with f1 | ⟨f1, f1'⟩
    · rcases f2 with f2 | ⟨f2, f2'⟩
      · -- both triangles contain points close to `A` to the right of `A B`
        obtain ⟨e3, e3p, h3⟩ := exists_first vs B (⟨C.x - A.x, C.y - A.y⟩ : Vtx K)
        let d' : Vtx K := ⟨B.x - A.x + e3 / 2 * (C.x - A.x), B.y - A.y + e3 / 2 * (C.y - A.y)⟩
        have in1 : FirstIn A B C A d' := by
          refine (firstIn_corner hcw).2 ⟨?_, ?_⟩
          · have : slope2 A B d' = e3 / 2 * area2 A B C := by simp only [slope2, d', area2]; ring
            rw [this]; exact mul_neg_of_pos_of_neg (half_pos e3p) hcw
          · have : slope2 C A d' = area2 A B C := by simp only [slope2, d', area2]; ring
            rw [this]; exact hcw
        have in2 : FirstIn A X Y A d' := by
          refine (firstIn_corner hcx).2 ⟨?_, ?_⟩
          · have : slope2 A X d' = area2 A X (Spec.ahead B ⟨C.x - A.x, C.y - A.y⟩ (e3 / 2)) := by simp only [area2, Spec.ahead, slope2, d']; ring
            rw [this]; exact (h3 _ (half_pos e3p) (by linarith) A mA X mX).2 (.inl f1)
          · have : slope2 Y A d' = area2 Y A (Spec.ahead B ⟨C.x - A.x, C.y - A.y⟩ (e3 / 2)) := by simp only [area2, Spec.ahead, slope2, d']; ring
            rw [this]; exact (h3 _ (half_pos e3p) (by linarith) Y mY A mA).2 (.inl f2)
        obtain ⟨e4, e4p, h4⟩ := exists_first vs A d'
        have htu := apart_corners ha ht hu hc hxyz gA gB gC gx gy gz
          (firstIn_inTriangle mA mB mC in1 h4 (e4 / 2) (half_pos e4p) (by linarith))
          (firstIn_inTriangle mA mX mY in2 h4 (e4 / 2) (half_pos e4p) (by linarith))
        subst htu
        have hAB : A ≠ B := cw_ne hcw
        have hCA : C ≠ A := cw_ne (cw_rot (cw_rot hcw))
        have same : y = b ∨ x = b ∨ x = c := by
          rcases hc with rfl | rfl | rfl <;> rcases hxyz with h | h | h <;> simp only [Prod.mk.injEq] at h <;> omega
        rcases same with rfl | rfl | rfl
        · rw [gB] at gy; cases gy
          rw [area2_right] at f1; exact lt_irrefl _ f1
        · rw [gB] at gx; exact hAB (Option.some.inj gx).symm
        · rw [gC] at gx; exact hCA (Option.some.inj gx)
      · -- `Y` is on the ray from `A` through `B`
        have hY : area2 A B Y = 0 := by rw [← f2]; unfold area2; ring
        have hYP : 0 < area2 A Y P := by
          have : slope2 Y A D = - area2 A Y P := by simp only [slope2, D, area2]; ring
          rw [this] at f2'; linarith
        obtain ⟨μ, ex, ey⟩ : ∃ μ, Y.x - A.x = μ * (B.x - A.x) ∧ Y.y - A.y = μ * (B.y - A.y) := by
          unfold area2 at hY
          by_cases hx : B.x - A.x = 0
          · have hy : B.y - A.y ≠ 0 := by
              intro hy
              exact cw_ne hcw (by
                cases A; cases B
                simp only [Vtx.mk.injEq] at *
                exact ⟨by linarith, by linarith⟩)
            refine ⟨(Y.y - A.y) / (B.y - A.y), ?_, by field_simp⟩
            rw [hx, mul_zero]
            rw [hx] at hY
            exact (mul_eq_zero.1 (show (B.y - A.y) * (Y.x - A.x) = 0 by linarith)).resolve_left hy
          · refine ⟨(Y.x - A.x) / (B.x - A.x), by field_simp, ?_⟩
            field_simp
            linarith
        have hμ : 0 < μ := by
          have : area2 A Y P = μ * area2 A B P := by
            unfold area2
            linear_combination (P.y - A.y) * ex - (P.x - A.x) * ey
          rw [this] at hYP
          exact (pos_iff_pos_of_mul_pos hYP).2 hPA
        have hYx : Y.x = A.x + μ * (B.x - A.x) := by linarith
        have hYy : Y.y = A.y + μ * (B.y - A.y) := by linarith
        rcases lt_trichotomy μ 1 with hlt | heq | hgt
        · -- `Y` is inside the side of the first triangle
          have hin : InClosedTriangle A B C Y := by
            refine ⟨hY.le, ?_, ?_⟩
            · have : area2 B C Y = (1 - μ) * area2 A B C := by unfold area2; rw [hYx, hYy]; ring
              rw [this]; exact mul_nonpos_of_nonneg_of_nonpos (by linarith) hcw.le
            · have : area2 C A Y = μ * area2 A B C := by unfold area2; rw [hYx, hYy]; ring
              rw [this]; exact mul_nonpos_of_nonneg_of_nonpos hμ.le hcw.le
          rcases emp Y mY hin with e | e | e
          · rw [e, area2_left] at hcx; exact lt_irrefl _ hcx
          · have : (1 - μ) * area2 A B C = 0 := by
              have : area2 B C Y = (1 - μ) * area2 A B C := by unfold area2; rw [hYx, hYy]; ring
              rw [← this, e, area2_left]
            rcases mul_eq_zero.1 this with h | h
            · linarith
            · exact hcw.ne h
          · rw [e] at hY; exact hcw.ne hY
        · -- `Y = B`: the triangle is a neighbor
          have hYB : Y = B := by
            rw [heq] at hYx hYy
            cases Y; cases B
            simp only [Vtx.mk.injEq] at *
            exact ⟨by linarith, by linarith⟩
          subst hYB
          have xa : a = x := hid t ht u hu a b c x y z A hc hxyz gA gx
          have zb : b = z := by
            refine hid t ht u hu b c a z x y Y ?_ ?_ gB gz
            · unfold Spec.CornersOf at hc ⊢; tauto
            · unfold Spec.CornersOf at hxyz ⊢; tauto
          subst xa; subst zb
          refine hno ⟨u, hu, y, ?_⟩
          unfold Spec.CornersOf at hxyz ⊢
          tauto
        · -- `B` is inside a side of the other triangle
          have hin : InClosedTriangle A X Y B := by
            have i1 : μ * area2 A X B = area2 A X Y := by unfold area2; rw [hYx, hYy]; ring
            have i2 : μ * area2 X Y B = (μ - 1) * area2 A X Y := by unfold area2; rw [hYx, hYy]; ring
            refine ⟨?_, ?_, ?_⟩
            · by_contra hn; have := mul_pos hμ (not_le.1 hn); linarith
            · by_contra hn
              have := mul_pos hμ (not_le.1 hn)
              have := mul_neg_of_pos_of_neg (show 0 < μ - 1 by linarith) hcx
              linarith
            · exact f2.le
          rcases empx B mB hin with e | e | e
          · exact cw_ne hcw e.symm
          · rw [← e] at hcx; exact hcx.ne hY
          · rw [e] at hYx hYy
            have k1 : (μ - 1) * (Y.x - A.x) = 0 := by linarith
            have k2 : (μ - 1) * (Y.y - A.y) = 0 := by linarith
            have j1 := (mul_eq_zero.1 k1).resolve_left (by linarith)
            have j2 := (mul_eq_zero.1 k2).resolve_left (by linarith)
            apply cw_ne hcw
            rw [e]
            cases A; cases Y
            simp only [Vtx.mk.injEq] at *
            exact ⟨by linarith, by linarith⟩
    · -- `X` is on the other side of `A`
      have k1 : area2 A X P < 0 := by
        have : slope2 A X D = area2 A X P := by simp only [slope2, D, area2]
        rwa [this] at f1'
      have k2 : area2 A B Y ≤ 0 := by
        have : area2 A B Y = area2 Y A B := by unfold area2; ring
        rw [this]
        rcases f2 with h | h
        · exact h.le
        · exact h.1.le
      have pl : area2 A B P * area2 A X Y = area2 A B Y * area2 A X P - area2 A X B * area2 A P Y := by unfold area2; ring
      rw [f1, zero_mul, sub_zero] at pl
      have := mul_nonneg_of_nonpos_of_nonpos k2 k1.le
      have := mul_neg_of_pos_of_neg hPA hcx
      linarith

/-- As many triangles as possible: every side without neighbor is on the border of the convex hull. -/
theorem sides_of_count {vs : List (Vtx K)} {out : List (Nat × Nat × Nat)} (hr : Spec.Rival vs out) (ha : Spec.Apart vs out)
    (hid : ∀ t ∈ out, ∀ u ∈ out, ∀ a b c x y z A, Spec.CornersOf t a b c → Spec.CornersOf u x y z → vs[a]? = some A → vs[x]? = some A → a = x)
    (hn : 2 * (Spec.positions vs).card ≤ out.length + (Spec.hullPositions vs).card + 2) : Spec.HullSides vs out := by
  classical
  intro t ht a b c hc A B gA gB
  by_contra hcon
  simp only [not_or, not_forall, not_le] at hcon
  obtain ⟨hno, P, hP, hPA⟩ := hcon
  obtain ⟨d, hd, h1, h2⟩ := exists_uncovered hr ha hid ht hc gA gB hno hP hPA
  have hAB : A ≠ B := by rintro rfl; simp [area2] at hPA
  have k1 := length_ways hr ha hd (R := Spec.Covered vs out) fun _ _ => Iff.rfl
  have k2 := inner_ways hd ⟨A, List.mem_of_getElem? gA, B, List.mem_of_getElem? gB, hAB⟩
  have k3 := Finset.card_le_card (Finset.insert_subset h1 (ways_subset hr hd))
  rw [Finset.card_insert_of_notMem h2] at k3
  omega

end Geometry

section Main
variable {K : Type} [Field K] [LinearOrder K] [IsStrictOrderedRing K] [ExactParams K] [IdCfg]

/-- In a result a position has one index. -/
theorem Good.one_id {fuel : Nat} {bins : Nat → Nat} {vs : List (Vtx K)} (h : Good fuel bins vs) {out : List Out}
    (ho : triangulation2d fuel bins vs = .ok out) : ∀ t ∈ out, ∀ u ∈ out, ∀ a b c x y z A, Spec.CornersOf t a b c → Spec.CornersOf u x y z →
      vs[a]? = some A → vs[x]? = some A → a = x := by
  intro t ht u hu a b c x y z A hc hx ga gx
  obtain ⟨s, rfl, hv, hok, hT, hocc⟩ := h.result ho (List.ne_nil_of_mem ht)
  have hR := h.runIds hv hok hT hocc
  have occ : ∀ {t a b c}, t ∈ filterSeq s.ts → Spec.CornersOf t a b c → Occ s.ts a := by
    intro t a b c ht hc
    obtain ⟨T, hTm, -, rfl⟩ := mem_filterSeq ht
    obtain ⟨i, hi⟩ := List.mem_iff_getElem?.1 hTm
    refine ⟨i, T, hi, ?_⟩
    rcases cornersOf_verts hc with ⟨e, -, -⟩ | ⟨-, -, e⟩ | ⟨-, e, -⟩ <;> rw [← e] <;> simp [Tri.hasVert]
  exact hR.inj a x A (occ ht hc) (occ hu hx) ga gx

/-- **C103**. A result covers the convex hull if and only if it has `2 n - 2 - b` triangles. -/
theorem C103_count_iff (fuel : Nat) (bins : Nat → Nat) (vs : List (Vtx K)) (h : Good fuel bins vs) (out : List Out)
    (ho : triangulation2d fuel bins vs = .ok out) (hne : out ≠ []) :
    Spec.CoversConvex vs out ↔ out.length + (Spec.hullPositions vs).card + 2 = 2 * (Spec.positions vs).card := by
  constructor
  · intro hc
    exact C83_certified fuel bins vs h out ho hne (C74_sides fuel bins vs h out ho hc)
  · intro hn
    obtain ⟨hr, ha⟩ := unconstrained_apart fuel bins vs h out ho
    exact C74_covers fuel bins vs h out ho hne (sides_of_count hr ha (h.one_id ho) hn.ge)

/-- **C103**. A result that covers the convex hull has the largest number of triangles, of all sets of triangles between the vertices that do
not overlap and contain no other vertex. -/
theorem C103_largest (fuel : Nat) (bins : Nat → Nat) (vs : List (Vtx K)) (h : Good fuel bins vs) (out : List Out)
    (ho : triangulation2d fuel bins vs = .ok out) (hne : out ≠ []) (hc : Spec.CoversConvex vs out) (out' : List (Nat × Nat × Nat))
    (hr : Spec.Rival vs out') (ha : Spec.Apart vs out') : out'.length ≤ out.length := by
  have h1 := (C103_count_iff fuel bins vs h out ho hne).1 hc
  obtain ⟨t, ht⟩ := List.exists_mem_of_ne_nil out hne
  obtain ⟨A, B, C, gA, gB, gC, hcw⟩ := C03_clockwise fuel bins vs h out ho t.1 t.2.1 t.2.2 ht
  have h2 := C103_most vs ⟨A, List.mem_of_getElem? gA, B, List.mem_of_getElem? gB, cw_ne hcw⟩ out' hr ha
  omega

/-- **C103**. Two results of the same vertices: if one covers the convex hull, the other does if and only if it has as many triangles. -/
theorem C103_compare (fuel fuel' : Nat) (bins bins' : Nat → Nat) (vs vs' : List (Vtx K)) (h : Good fuel bins vs) (h' : Good fuel' bins' vs')
    (hsame : ∀ p, p ∈ vs ↔ p ∈ vs') (out out' : List Out) (ho : triangulation2d fuel bins vs = .ok out)
    (ho' : triangulation2d fuel' bins' vs' = .ok out') (hne : out ≠ []) (hne' : out' ≠ []) (hc : Spec.CoversConvex vs out) :
    Spec.CoversConvex vs' out' ↔ out'.length = out.length := by
  have e : Spec.positions vs = Spec.positions vs' := by
    ext p; simp only [Spec.positions, List.mem_toFinset]; exact hsame p
  have e' : Spec.hullPositions vs = Spec.hullPositions vs' := by
    ext p; rw [mem_hullPositions, mem_hullPositions, hsame]; simp only [Spec.OnHull, hsame]
  rw [C103_count_iff fuel' bins' vs' h' out' ho' hne', ← e, ← e']
  have := (C103_count_iff fuel bins vs h out ho hne).1 hc
  omega

/-- **C103** in rounded arithmetic. -/
theorem C103_count_iff_rounded {F : Type} [FloatOps F] [Rounded F] (fuel : Nat) (bins : Nat → Nat) (vs : List (Vtx F)) (V : List (Vtx ℚ)) (W : ℚ)
    (h : Rounded.RGood fuel bins vs V W) (out : List Out) (ho : triangulation2d fuel bins vs = .ok out) (hne : out ≠ []) :
    Spec.CoversConvex V out ↔ out.length + (Spec.hullPositions V).card + 2 = 2 * (Spec.positions V).card := by
  let P := Rounded.params F (bins vs.length) W (Rounded.scaleVal vs)
  rw [h.run] at ho
  exact C103_count_iff fuel bins V h.good out ho hne

/-- **C103** in rounded arithmetic: comparison of two runs, also between formats. -/
theorem C103_compare_rounded {F F' : Type} [FloatOps F] [Rounded F] [FloatOps F'] [Rounded F'] (fuel fuel' : Nat) (bins bins' : Nat → Nat)
    (vs : List (Vtx F)) (vs' : List (Vtx F')) (V V' : List (Vtx ℚ)) (W W' : ℚ) (h : Rounded.RGood fuel bins vs V W)
    (h' : Rounded.RGood fuel' bins' vs' V' W') (hsame : ∀ p, p ∈ V ↔ p ∈ V') (out out' : List Out)
    (ho : triangulation2d fuel bins vs = .ok out) (ho' : triangulation2d fuel' bins' vs' = .ok out') (hne : out ≠ []) (hne' : out' ≠ [])
    (hc : Spec.CoversConvex V out) : Spec.CoversConvex V' out' ↔ out'.length = out.length := by
  have e : Spec.positions V = Spec.positions V' := by
    ext p; simp only [Spec.positions, List.mem_toFinset]; exact hsame p
  have e' : Spec.hullPositions V = Spec.hullPositions V' := by
    ext p; rw [mem_hullPositions, mem_hullPositions, hsame]; simp only [Spec.OnHull, hsame]
  rw [C103_count_iff_rounded fuel' bins' vs' V' W' h' out' ho' hne', ← e, ← e']
  have := (C103_count_iff_rounded fuel bins vs V W h out ho hne).1 hc
  omega

end Main

/-! ## Example -/

section Example
open Rounded
local instance countCertCfg : IdCfg := u32Cfg

/-- Seven points. -/
def sevenGrid : List (Int × Int) := [(9, 10), (15, 13), (12, 0), (2, 3), (0, 6), (0, 1), (16, 15)]

theorem seven_good : RGood (F := F64) 506 (fun _ => 1) (flPts binary64 sevenGrid) (intPts sevenGrid) (2 ^ 4) :=
  C44_grid sevenGrid 4 (by decide) (by decide) (by decide) ⟨by norm_num, by decide +kernel, by decide +kernel⟩
    (by decide) (by decide +kernel) (by decide) (by decide)

theorem seven_good' : RGood (F := F64) 506 (fun _ => 1) (flPts binary64 sevenGrid.reverse) (intPts sevenGrid.reverse) (2 ^ 4) :=
  C44_grid sevenGrid.reverse 4 (by decide) (by decide) (by decide) ⟨by norm_num, by decide +kernel, by decide +kernel⟩
    (by decide) (by decide +kernel) (by decide) (by decide)

def sevenOut : List Out := [(3, 5, 4), (1, 6, 2), (0, 6, 1), (2, 5, 3), (0, 4, 6), (0, 2, 3), (0, 3, 4), (0, 1, 2)]

def sevenOut' : List Out := [(0, 4, 5), (2, 6, 3), (4, 6, 5), (3, 6, 4), (1, 2, 3), (1, 3, 4), (0, 5, 6)]

theorem seven_run : triangulation2d (F := F64) 506 (fun _ => 1) (flPts binary64 sevenGrid) = .ok sevenOut := by decide +kernel

theorem seven_run' : triangulation2d (F := F64) 506 (fun _ => 1) (flPts binary64 sevenGrid.reverse) = .ok sevenOut' := by decide +kernel

/-- The hypotheses of `C103_compare_rounded` hold: the points give eight triangles that cover the convex hull; in the opposite order
they give seven, which therefore do not. -/
example : Spec.CoversConvex (intPts sevenGrid) sevenOut ∧ ¬ Spec.CoversConvex (intPts sevenGrid.reverse) sevenOut' := by
  have hc : Spec.CoversConvex (intPts sevenGrid) sevenOut :=
    (C74_certificate_rounded 506 _ _ _ _ seven_good sevenOut seven_run (by decide)).1
      ⟨hullSides_of_check (by decide +kernel), local_of_check (by decide +kernel)⟩ |>.1
  refine ⟨hc, fun h => ?_⟩
  have := (C103_compare_rounded 506 506 _ _ _ _ _ _ _ _ seven_good seven_good'
    (fun q => List.Perm.mem_iff (show (intPts sevenGrid).Perm (intPts sevenGrid.reverse) by decide +kernel)) _ _ seven_run seven_run'
    (by decide) (by decide) hc).1 h
  exact absurd this (by decide)

/-- Four of the seven points are on the border of the convex hull. -/
example : (Spec.hullPositions (intPts sevenGrid)).card = 4 := by
  have h := (C103_count_iff_rounded 506 _ _ _ _ seven_good sevenOut seven_run (by decide)).1
    ((C74_certificate_rounded 506 _ _ _ _ seven_good sevenOut seven_run (by decide)).1
      ⟨hullSides_of_check (by decide +kernel), local_of_check (by decide +kernel)⟩).1
  have h2 : (Spec.positions (intPts sevenGrid)).card = 7 := by decide +kernel
  have h1 : sevenOut.length = 8 := rfl
  omega

end Example

end CDT

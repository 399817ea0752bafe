import Verif.Props.MinAngle
import Verif.Props.BoxCount

/-! # C97: the number of triangles of a region, counted at the vertices -/

set_option linter.unusedSectionVars false

namespace CDT
open Plane

section Main

section Plain
variable {K : Type} [Field K] [LinearOrder K] [IsStrictOrderedRing K]

/-- The point reached from `p` after the time `t` in the direction `d`. -/
def Spec.ahead (p d : Vtx K) (t : K) : Vtx K := ⟨p.x + t * d.x, p.y + t * d.y⟩

/-- The direction `d` is not the one of a line through two different positions. -/
def Spec.Oblique (vs : List (Vtx K)) (d : Vtx K) : Prop :=
  ∀ p ∈ vs, ∀ q ∈ vs, p ≠ q → (q.x - p.x) * d.y - d.x * (q.y - p.y) ≠ 0

/-- Leaving `p` in the direction `d` one is in the region `R` at first. -/
def Spec.Into (R : Vtx K → Prop) (p d : Vtx K) : Prop := ∃ e, 0 < e ∧ ∀ t, 0 < t → t < e → R (Spec.ahead p d t)

/-- The direction or the opposite one. -/
def Spec.sense (d : Vtx K) : Bool → Vtx K
  | true => d
  | false => ⟨-d.x, -d.y⟩

/-- The ways into the region: a position, and one of the two senses of a line, such that one is in the region at first. -/
noncomputable def Spec.ways (R : Vtx K → Prop) (vs : List (Vtx K)) (d : Vtx K) : Finset (Vtx K × Bool) := by
  classical
  exact (Spec.positions vs ×ˢ Finset.univ).filter fun x => Spec.Into R x.1 (Spec.sense d x.2)

/-- No point is inside of two triangles. -/
def Spec.Apart (vs : List (Vtx K)) (out : List (Nat × Nat × Nat)) : Prop :=
  ∀ (i j : Nat) (t u : Nat × Nat × Nat), i ≠ j → out[i]? = some t → out[j]? = some u → ∀ A B C A' B' C', vs[t.1]? = some A → vs[t.2.1]? = some B → vs[t.2.2]? = some C →
    vs[u.1]? = some A' → vs[u.2.1]? = some B' → vs[u.2.2]? = some C' → ∀ q, ¬ (InTriangle A B C q ∧ InTriangle A' B' C' q)

/-- The point is on no line through two positions. -/
def Spec.OffLines (vs : List (Vtx K)) (q : Vtx K) : Prop := ∀ X ∈ vs, ∀ Y ∈ vs, X ≠ Y → area2 X Y q ≠ 0

theorem mem_ways {R : Vtx K → Prop} {vs : List (Vtx K)} {d : Vtx K} {x : Vtx K × Bool} :
    x ∈ Spec.ways R vs d ↔ x.1 ∈ vs ∧ Spec.Into R x.1 (Spec.sense d x.2) := by
  classical
  simp [Spec.ways, Spec.positions, Finset.mem_product]

/-- The slope of `area2 X Y` in the direction `d`. -/
def slope2 (X Y d : Vtx K) : K := (Y.x - X.x) * d.y - d.x * (Y.y - X.y)

theorem area2_ahead (X Y p d : Vtx K) (t : K) : area2 X Y (Spec.ahead p d t) = area2 X Y p + t * slope2 X Y d := by
  unfold area2 Spec.ahead slope2; ring

theorem slope2_swap (X Y d : Vtx K) : slope2 Y X d = - slope2 X Y d := by unfold slope2; ring

theorem slope2_sum (A B C d : Vtx K) : slope2 A B d + slope2 B C d + slope2 C A d = 0 := by unfold slope2; ring

/-- At first strictly to the right of `X Y`. -/
def FirstRight (X Y p d : Vtx K) : Prop := area2 X Y p < 0 ∨ (area2 X Y p = 0 ∧ slope2 X Y d < 0)

/-- Sides of lines do not change for a while. -/
theorem exists_first (vs : List (Vtx K)) (p d : Vtx K) : ∃ e : K, 0 < e ∧ ∀ t, 0 < t → t < e → ∀ X ∈ vs, ∀ Y ∈ vs,
    (area2 X Y (Spec.ahead p d t) < 0 ↔ FirstRight X Y p d) := by
  have one : ∀ u w : K, ∃ e : K, 0 < e ∧ ∀ t, 0 < t → t < e → (u + t * w < 0 ↔ u < 0 ∨ (u = 0 ∧ w < 0)) := by
    intro u w
    rcases lt_trichotomy u 0 with h | h | h
    · refine ⟨-u / (|w| + 1), div_pos (by linarith) (by positivity), fun t t0 ht => ?_⟩
      rw [lt_div_iff₀ (by positivity)] at ht
      refine ⟨fun _ => .inl h, fun _ => ?_⟩
      nlinarith [mul_le_mul_of_nonneg_left (le_abs_self w) t0.le]
    · subst h
      refine ⟨1, one_pos, fun t t0 _ => ?_⟩
      simp only [zero_add, lt_self_iff_false, true_and, false_or]
      exact ⟨fun h => by by_contra hc; nlinarith [mul_nonneg t0.le (not_lt.1 hc)], fun h => mul_neg_of_pos_of_neg t0 h⟩
    · refine ⟨u / (|w| + 1), div_pos h (by positivity), fun t t0 ht => ?_⟩
      rw [lt_div_iff₀ (by positivity)] at ht
      refine ⟨fun hc => ?_, fun hc => ?_⟩
      · nlinarith [mul_le_mul_of_nonneg_left (neg_abs_le w) t0.le]
      · rcases hc with hc | ⟨hc, -⟩ <;> linarith
  have all : ∀ l : List (Vtx K × Vtx K), ∃ e : K, 0 < e ∧ ∀ x ∈ l, ∀ t, 0 < t → t < e →
      (area2 x.1 x.2 (Spec.ahead p d t) < 0 ↔ FirstRight x.1 x.2 p d) := by
    intro l
    induction l with
    | nil => exact ⟨1, one_pos, by simp⟩
    | cons x l ih =>
      obtain ⟨e, h0, h⟩ := ih
      obtain ⟨e', h0', h'⟩ := one (area2 x.1 x.2 p) (slope2 x.1 x.2 d)
      refine ⟨min e e', lt_min h0 h0', fun u hu t t0 ht => ?_⟩
      rcases List.mem_cons.1 hu with rfl | hu
      · rw [area2_ahead]
        exact h' t t0 (ht.trans_le (min_le_right _ _))
      · exact h u hu t t0 (ht.trans_le (min_le_left _ _))
  obtain ⟨e, h0, h⟩ := all (vs ×ˢ vs)
  exact ⟨e, h0, fun t t0 ht X hX Y hY => h (X, Y) (List.mem_product.2 ⟨hX, hY⟩) t t0 ht⟩

theorem sense_slope (X Y d : Vtx K) (s : Bool) : slope2 X Y (Spec.sense d s) = if s then slope2 X Y d else - slope2 X Y d := by
  cases s
  · simp only [Spec.sense, slope2, Bool.false_eq_true, if_false]; ring
  · simp [Spec.sense]

theorem oblique_slope {vs : List (Vtx K)} {d : Vtx K} (h : Spec.Oblique vs d) {X Y : Vtx K} (hX : X ∈ vs) (hY : Y ∈ vs) (hne : X ≠ Y) (s : Bool) :
    slope2 X Y (Spec.sense d s) ≠ 0 := by
  have := h X hX Y hY hne
  rw [sense_slope]
  unfold slope2
  split
  · exact this
  · exact neg_ne_zero.2 this

theorem first_either {X Y p d : Vtx K} (h : slope2 X Y d ≠ 0) : FirstRight X Y p d ∨ FirstRight Y X p d := by
  unfold FirstRight
  rw [area2_swap X Y, slope2_swap X Y]
  rcases lt_trichotomy (area2 X Y p) 0 with h1 | h1 | h1
  · exact .inl (.inl h1)
  · rcases lt_or_gt_of_ne h with h2 | h2
    · exact .inl (.inr ⟨h1, h2⟩)
    · exact .inr (.inr ⟨by rw [h1, neg_zero], by linarith⟩)
  · exact .inr (.inl (by linarith))

/-- At first inside of the triangle. -/
def FirstIn (A B C p d : Vtx K) : Prop := FirstRight A B p d ∧ FirstRight B C p d ∧ FirstRight C A p d

theorem firstIn_closed {A B C p d : Vtx K} (h : FirstIn A B C p d) : InClosedTriangle A B C p := by
  refine ⟨?_, ?_, ?_⟩
  · rcases h.1 with h | h; exacts [h.le, h.1.le]
  · rcases h.2.1 with h | h; exacts [h.le, h.1.le]
  · rcases h.2.2 with h | h; exacts [h.le, h.1.le]

theorem area2_left (A B : Vtx K) : area2 A B A = 0 := by unfold area2; ring
theorem area2_right (A B : Vtx K) : area2 A B B = 0 := by unfold area2; ring
theorem area2_cycle (A B C : Vtx K) : area2 B C A = area2 A B C := by unfold area2; ring

theorem firstIn_corner {A B C d : Vtx K} (hc : Clockwise A B C) : FirstIn A B C A d ↔ slope2 A B d < 0 ∧ slope2 C A d < 0 := by
  unfold Clockwise at hc
  unfold FirstIn FirstRight
  rw [area2_left, area2_right, area2_cycle]
  simp [hc]

theorem firstIn_rot {A B C p d : Vtx K} : FirstIn B C A p d ↔ FirstIn A B C p d := by
  unfold FirstIn; tauto

theorem cw_rot {A B C : Vtx K} (hc : Clockwise A B C) : Clockwise B C A := by
  unfold Clockwise at *; rwa [area2_cycle]

theorem cw_ne {A B C : Vtx K} (hc : Clockwise A B C) : A ≠ B := by
  rintro rfl
  unfold Clockwise area2 at hc
  simp at hc

/-- Every triangle has exactly one corner, and one sense, that lead into it. -/
theorem one_way {A B C d : Vtx K} (hc : Clockwise A B C) (h1 : slope2 A B d ≠ 0) (h2 : slope2 B C d ≠ 0) (h3 : slope2 C A d ≠ 0) :
    ∃ x : Vtx K × Bool, (x.1 = A ∨ x.1 = B ∨ x.1 = C) ∧ FirstIn A B C x.1 (Spec.sense d x.2) ∧
      ∀ y : Vtx K × Bool, (y.1 = A ∨ y.1 = B ∨ y.1 = C) → FirstIn A B C y.1 (Spec.sense d y.2) → y = x := by
  have hs := slope2_sum A B C d
  have eA : ∀ s, FirstIn A B C A (Spec.sense d s) ↔ slope2 A B (Spec.sense d s) < 0 ∧ slope2 C A (Spec.sense d s) < 0 := fun s => firstIn_corner hc
  have eB : ∀ s, FirstIn A B C B (Spec.sense d s) ↔ slope2 B C (Spec.sense d s) < 0 ∧ slope2 A B (Spec.sense d s) < 0 := fun s => by
    rw [← firstIn_rot]; exact firstIn_corner (cw_rot hc)
  have eC : ∀ s, FirstIn A B C C (Spec.sense d s) ↔ slope2 C A (Spec.sense d s) < 0 ∧ slope2 B C (Spec.sense d s) < 0 := fun s => by
    rw [← firstIn_rot, ← firstIn_rot]; exact firstIn_corner (cw_rot (cw_rot hc))
  simp only [sense_slope] at eA eB eC
  have key : ∀ x : Vtx K × Bool, (x.1 = A ∨ x.1 = B ∨ x.1 = C) → FirstIn A B C x.1 (Spec.sense d x.2) →
      ∀ y : Vtx K × Bool, (y.1 = A ∨ y.1 = B ∨ y.1 = C) → FirstIn A B C y.1 (Spec.sense d y.2) → y = x := by
    rintro ⟨x, s⟩ hx fx ⟨y, s'⟩ hy fy
    simp only at hx fx hy fy
    rcases hx with rfl | rfl | rfl <;> rcases hy with rfl | rfl | rfl <;> cases s <;> cases s' <;>
      simp only [eA, eB, eC, Bool.false_eq_true, if_false, if_true] at fx fy <;> first | rfl | (exfalso; obtain ⟨f1, f2⟩ := fx; obtain ⟨f3, f4⟩ := fy; linarith)
  have ex : ∃ x : Vtx K × Bool, (x.1 = A ∨ x.1 = B ∨ x.1 = C) ∧ FirstIn A B C x.1 (Spec.sense d x.2) := by
    rcases lt_or_gt_of_ne h1 with a | a <;> rcases lt_or_gt_of_ne h2 with b | b <;> rcases lt_or_gt_of_ne h3 with c | c
    · exfalso; linarith
    · exact ⟨(B, true), .inr (.inl rfl), (eB true).2 (by simp [a, b])⟩
    · exact ⟨(A, true), .inl rfl, (eA true).2 (by simp [a, c])⟩
    · exact ⟨(C, false), .inr (.inr rfl), (eC false).2 (by simp [b, c])⟩
    · exact ⟨(C, true), .inr (.inr rfl), (eC true).2 (by simp [b, c])⟩
    · exact ⟨(A, false), .inl rfl, (eA false).2 (by simp [a, c])⟩
    · exact ⟨(B, false), .inr (.inl rfl), (eB false).2 (by simp [a, b])⟩
    · exfalso; linarith
  obtain ⟨x, hx, fx⟩ := ex
  exact ⟨x, hx, fx, key x hx fx⟩

/-- The number of triangles is the number of ways into their union. -/
theorem length_ways {vs : List (Vtx K)} {out : List (Nat × Nat × Nat)} (hr : Spec.Rival vs out) (ha : Spec.Apart vs out) {d : Vtx K}
    (hd : Spec.Oblique vs d) {R : Vtx K → Prop} (hR : ∀ q, Spec.OffLines vs q → (Spec.Covered vs out q ↔ R q)) :
    out.length = (Spec.ways R vs d).card := by
  -- `x` leads into the triangle with the number `i`
  let r : Nat → Vtx K × Bool → Prop := fun i x => ∃ t A B C, out[i]? = some t ∧ vs[t.1]? = some A ∧ vs[t.2.1]? = some B ∧ vs[t.2.2]? = some C ∧
    Clockwise A B C ∧ FirstIn A B C x.1 (Spec.sense d x.2)
  have inside : ∀ {t : Nat × Nat × Nat} {A B C p : Vtx K} {s : Bool} {e : K}, vs[t.1]? = some A → vs[t.2.1]? = some B → vs[t.2.2]? = some C →
      FirstIn A B C p (Spec.sense d s) → (∀ t, 0 < t → t < e → ∀ X ∈ vs, ∀ Y ∈ vs, (area2 X Y (Spec.ahead p (Spec.sense d s) t) < 0 ↔
        FirstRight X Y p (Spec.sense d s))) → ∀ t, 0 < t → t < e → InTriangle A B C (Spec.ahead p (Spec.sense d s) t) := by
    intro t A B C p s e gA gB gC hf he z z0 hz
    have mA := List.mem_of_getElem? gA
    have mB := List.mem_of_getElem? gB
    have mC := List.mem_of_getElem? gC
    exact ⟨(he z z0 hz A mA B mB).2 hf.1, (he z z0 hz B mB C mC).2 hf.2.1, (he z z0 hz C mC A mA).2 hf.2.2⟩
  have off : ∀ {p : Vtx K} {s : Bool} {e : K}, (∀ t, 0 < t → t < e → ∀ X ∈ vs, ∀ Y ∈ vs, (area2 X Y (Spec.ahead p (Spec.sense d s) t) < 0 ↔
        FirstRight X Y p (Spec.sense d s))) → ∀ t, 0 < t → t < e → Spec.OffLines vs (Spec.ahead p (Spec.sense d s) t) := by
    intro p s e he z z0 hz X hX Y hY hne
    rcases first_either (p := p) (oblique_slope hd hX hY hne s) with h | h
    · exact ((he z z0 hz X hX Y hY).2 h).ne
    · have := (he z z0 hz Y hY X hX).2 h
      rw [area2_swap] at this
      exact (neg_lt_zero.1 this).ne'
  have fwd : ∀ i, i < out.length → ∃ x, x ∈ Spec.ways R vs d ∧ r i x := by
    intro i hi
    obtain ⟨A, B, C, gA, gB, gC, hc, -⟩ := hr _ (List.getElem_mem hi)
    have mA := List.mem_of_getElem? gA
    have mB := List.mem_of_getElem? gB
    have mC := List.mem_of_getElem? gC
    have n1 := cw_ne hc
    have n2 := cw_ne (cw_rot hc)
    have n3 := cw_ne (cw_rot (cw_rot hc))
    obtain ⟨x, hx, fx, -⟩ := one_way hc (oblique_slope hd mA mB n1 true) (oblique_slope hd mB mC n2 true) (oblique_slope hd mC mA n3 true)
    refine ⟨x, mem_ways.2 ⟨by rcases hx with h | h | h <;> rw [h] <;> assumption, ?_⟩, _, A, B, C, List.getElem?_eq_getElem hi, gA, gB, gC, hc, fx⟩
    obtain ⟨e, e0, he⟩ := exists_first vs x.1 (Spec.sense d x.2)
    refine ⟨e, e0, fun t t0 ht => (hR _ (off he t t0 ht)).1 ⟨_, List.getElem_mem hi, A, B, C, gA, gB, gC, ?_⟩⟩
    have := inside gA gB gC fx he t t0 ht
    exact ⟨this.1.le, this.2.1.le, this.2.2.le⟩
  have uniq : ∀ {i x y}, r i x → r i y → x.1 ∈ vs → y.1 ∈ vs → x = y := by
    rintro i x y ⟨t, A, B, C, ht, gA, gB, gC, hc, fx⟩ ⟨t', A', B', C', ht', gA', gB', gC', -, fy⟩ mx my
    rw [ht] at ht'; cases ht'
    rw [gA] at gA'; cases gA'
    rw [gB] at gB'; cases gB'
    rw [gC] at gC'; cases gC'
    obtain ⟨A', B', C', gA', gB', gC', -, emp⟩ := hr t (List.mem_of_getElem? ht)
    rw [gA] at gA'; cases gA'
    rw [gB] at gB'; cases gB'
    rw [gC] at gC'; cases gC'
    have mA := List.mem_of_getElem? gA
    have mB := List.mem_of_getElem? gB
    have mC := List.mem_of_getElem? gC
    obtain ⟨z, -, -, hz⟩ := one_way hc (oblique_slope hd mA mB (cw_ne hc) true)
      (oblique_slope hd mB mC (cw_ne (cw_rot hc)) true) (oblique_slope hd mC mA (cw_ne (cw_rot (cw_rot hc))) true)
    rw [hz x (emp _ mx (firstIn_closed fx)) fx, hz y (emp _ my (firstIn_closed fy)) fy]
  have inj : ∀ {i j x}, r i x → r j x → i = j := by
    rintro i j x ⟨t, A, B, C, ht, gA, gB, gC, hc, fx⟩ ⟨t', A', B', C', ht', gA', gB', gC', -, fy⟩
    by_contra hij
    obtain ⟨e, e0, he⟩ := exists_first vs x.1 (Spec.sense d x.2)
    exact ha i j t t' hij ht ht' A B C A' B' C' gA gB gC gA' gB' gC' _
      ⟨inside gA gB gC fx he (e / 2) (by linarith) (by linarith), inside gA' gB' gC' fy he (e / 2) (by linarith) (by linarith)⟩
  have sur : ∀ x ∈ Spec.ways R vs d, ∃ i, i < out.length ∧ r i x := by
    intro x hx
    obtain ⟨mx, e1, h1, hin⟩ := mem_ways.1 hx
    obtain ⟨e, e0, he⟩ := exists_first vs x.1 (Spec.sense d x.2)
    have hm : 0 < min e1 e := lt_min h1 e0
    have l1 : min e1 e / 2 < e1 := by have := min_le_left e1 e; linarith
    have l2 : min e1 e / 2 < e := by have := min_le_right e1 e; linarith
    have ho := off he _ (half_pos hm) l2
    obtain ⟨t, ht, A, B, C, gA, gB, gC, hcl⟩ := (hR _ ho).2 (hin _ (half_pos hm) l1)
    obtain ⟨i, hi⟩ := List.mem_iff_getElem?.1 ht
    obtain ⟨A', B', C', gA', gB', gC', hc, -⟩ := hr t ht
    rw [gA] at gA'; cases gA'
    rw [gB] at gB'; cases gB'
    rw [gC] at gC'; cases gC'
    have mA := List.mem_of_getElem? gA
    have mB := List.mem_of_getElem? gB
    have mC := List.mem_of_getElem? gC
    refine ⟨i, by rw [List.getElem?_eq_some_iff] at hi; exact hi.1, t, A, B, C, hi, gA, gB, gC, hc, ?_⟩
    exact ⟨(he _ (half_pos hm) l2 A mA B mB).1 (lt_of_le_of_ne hcl.1 (ho A mA B mB (cw_ne hc))),
      (he _ (half_pos hm) l2 B mB C mC).1 (lt_of_le_of_ne hcl.2.1 (ho B mB C mC (cw_ne (cw_rot hc)))),
      (he _ (half_pos hm) l2 C mC A mA).1 (lt_of_le_of_ne hcl.2.2 (ho C mC A mA (cw_ne (cw_rot (cw_rot hc)))))⟩
  choose f hf hrf using fwd
  have := Finset.card_bij (s := Finset.range out.length) (t := Spec.ways R vs d) (fun i hi => f i (Finset.mem_range.1 hi))
    (fun i hi => hf i _)
    (fun i hi j hj e => inj (hrf i (Finset.mem_range.1 hi)) (by rw [e]; exact hrf j _))
    (fun x hx => by
      obtain ⟨i, hi, hrx⟩ := sur x hx
      exact ⟨i, Finset.mem_range.2 hi, uniq (hrf i hi) hrx (mem_ways.1 (hf i hi)).1 (mem_ways.1 hx).1⟩)
  rwa [Finset.card_range] at this

/-- There are directions that are not the one of a line through two positions. -/
theorem exists_oblique (vs : List (Vtx K)) : ∃ d, Spec.Oblique vs d := by
  have bound : ∀ l : List K, ∃ M, ∀ x ∈ l, x < M := by
    intro l
    induction l with
    | nil => exact ⟨0, by simp⟩
    | cons y l ih =>
      obtain ⟨M, hM⟩ := ih
      refine ⟨max M (y + 1), fun x hx => ?_⟩
      rcases List.mem_cons.1 hx with rfl | hx
      · exact (lt_add_one x).trans_le (le_max_right _ _)
      · exact (hM x hx).trans_le (le_max_left _ _)
  obtain ⟨M, hM⟩ := bound ((vs ×ˢ vs).map fun x => (x.2.y - x.1.y) / (x.2.x - x.1.x))
  refine ⟨⟨1, M⟩, fun p hp q hq hne => ?_⟩
  by_cases hx : q.x - p.x = 0
  · simp only [hx, zero_mul, one_mul, zero_sub, neg_ne_zero]
    intro hy
    apply hne
    obtain ⟨px, py⟩ := p
    obtain ⟨qx, qy⟩ := q
    simp only at hx hy
    rw [sub_eq_zero.1 hx, sub_eq_zero.1 hy]
  · have := (hM ((q.y - p.y) / (q.x - p.x)) (List.mem_map.2 ⟨(p, q), List.mem_product.2 ⟨hp, hq⟩, rfl⟩))
    intro h0
    have e : M = (q.y - p.y) / (q.x - p.x) := by
      rw [eq_div_iff hx]; simp only at h0; linarith
    rw [← e] at this
    exact lt_irrefl _ this

/-- Two triangulations of a region with the same positions have the same number of triangles. -/
theorem same_length {vs vs' : List (Vtx K)} {out out' : List (Nat × Nat × Nat)} (hp : ∀ p, p ∈ vs' ↔ p ∈ vs) (hr : Spec.Rival vs out)
    (ha : Spec.Apart vs out) (hr' : Spec.Rival vs' out') (ha' : Spec.Apart vs' out')
    (hc : ∀ q, Spec.OffLines vs q → (Spec.Covered vs' out' q ↔ Spec.Covered vs out q)) : out'.length = out.length := by
  obtain ⟨d, hd⟩ := exists_oblique vs
  have e : Spec.ways (Spec.Covered vs out) vs' d = Spec.ways (Spec.Covered vs out) vs d := by
    ext x; rw [mem_ways, mem_ways, hp]
  rw [length_ways hr ha hd (R := Spec.Covered vs out) fun _ _ => Iff.rfl, ← e]
  exact length_ways hr' ha' (fun p h q h' => hd p ((hp p).1 h) q ((hp q).1 h')) fun q hq =>
    hc q fun X hX Y hY => hq X ((hp X).2 hX) Y ((hp Y).2 hY)

theorem segments_ends {vs : List (Vtx K)} {es : List Edge} {s : Vtx K × Vtx K} (h : s ∈ Spec.segments vs es) : s.1 ∈ vs ∧ s.2 ∈ vs := by
  unfold Spec.segments at h
  obtain ⟨e, -, he⟩ := List.mem_filterMap.1 h
  split at he
  · rename_i a b h1 h2
    cases he
    exact ⟨List.mem_of_getElem? h1, List.mem_of_getElem? h2⟩
  · cases he

theorem onSegment_area {a b q : Vtx K} (h : OnSegment a b q) : area2 a b q = 0 := by
  obtain ⟨s, -, -, hx, hy⟩ := h
  unfold area2; rw [hx, hy]; ring

theorem offLines_offEdges {vs : List (Vtx K)} {es : List Edge} (hne : ∀ s ∈ Spec.segments vs es, s.1 ≠ s.2) {q : Vtx K} (h : Spec.OffLines vs q) :
    OffEdges (Spec.segments vs es) q := fun s hs hq =>
  h s.1 (segments_ends hs).1 s.2 (segments_ends hs).2 (hne s hs) (onSegment_area hq)

theorem onSegment_of_area {a b q : Vtx K} (h : area2 a b q = 0) (h1 : b.y ≤ q.y) (h2 : q.y < a.y) : OnSegment a b q := by
  have hd : a.y - b.y > 0 := by linarith
  refine ⟨(a.y - q.y) / (a.y - b.y), div_nonneg (by linarith) hd.le, (div_le_one hd).2 (by linarith), ?_, ?_⟩
  · unfold area2 at h
    field_simp
    linarith
  · field_simp
    ring

theorem crossing_near {a b p q : Vtx K} (hy : q.y = p.y) (hp : ¬ OnSegment a b p) (h1 : area2 a b p < 0 → area2 a b q < 0)
    (h2 : 0 < area2 a b p → 0 < area2 a b q) : crossing a b q = crossing a b p := by
  have hne : (b.y ≤ p.y ∧ p.y < a.y) ∨ (a.y ≤ p.y ∧ p.y < b.y) → area2 a b p ≠ 0 := by
    rintro (h | h) h0
    · exact hp (onSegment_of_area h0 h.1 h.2)
    · have h0' : area2 b a p = 0 := by rw [area2_swap, h0, neg_zero]
      obtain ⟨s, s0, s1, hx, hy⟩ := onSegment_of_area h0' h.1 h.2
      exact hp ⟨1 - s, by linarith, by linarith, by rw [hx]; ring, by rw [hy]; ring⟩
  have e1 : (b.y ≤ p.y ∧ p.y < a.y ∧ area2 a b q < 0) ↔ (b.y ≤ p.y ∧ p.y < a.y ∧ area2 a b p < 0) := by
    constructor
    · rintro ⟨c1, c2, c3⟩
      refine ⟨c1, c2, lt_of_le_of_ne (not_lt.1 fun h => ?_) (hne (.inl ⟨c1, c2⟩))⟩
      linarith [h2 h]
    · exact fun ⟨c1, c2, c3⟩ => ⟨c1, c2, h1 c3⟩
  have e2 : (a.y ≤ p.y ∧ p.y < b.y ∧ 0 < area2 a b q) ↔ (a.y ≤ p.y ∧ p.y < b.y ∧ 0 < area2 a b p) := by
    constructor
    · rintro ⟨c1, c2, c3⟩
      refine ⟨c1, c2, lt_of_le_of_ne (not_lt.1 fun h => ?_) (hne (.inr ⟨c1, c2⟩)).symm⟩
      linarith [h1 h]
    · exact fun ⟨c1, c2, c3⟩ => ⟨c1, c2, h2 c3⟩
  unfold crossing
  rw [hy]
  simp only [e1, e2]

/-- Close to a point on no edge the winding number does not change. -/
theorem winding_near {vs : List (Vtx K)} {es : List Edge} (hb : Spec.Border vs es) {d p : Vtx K} (hd : Spec.Oblique vs d)
    (hp : OffEdges (Spec.segments vs es) p) (s : Bool) :
    ∃ e, 0 < e ∧ ∀ t, 0 < t → t < e → winding (Spec.segments vs es) (Spec.ahead p (Spec.sense d s) t) = winding (Spec.segments vs es) p := by
  obtain ⟨e, e0, he⟩ := exists_first vs p (Spec.sense d s)
  have off : ∀ t, 0 < t → t < e → OffEdges (Spec.segments vs es) (Spec.ahead p (Spec.sense d s) t) := by
    intro t t0 ht
    refine offLines_offEdges hb.ne fun X hX Y hY hne => ?_
    rcases first_either (p := p) (oblique_slope hd hX hY hne s) with h | h
    · exact ((he t t0 ht X hX Y hY).2 h).ne
    · have := (he t t0 ht Y hY X hX).2 h
      rw [area2_swap] at this
      exact (neg_lt_zero.1 this).ne'
  refine ⟨e, e0, fun t t0 ht => ?_⟩
  by_cases hy : p.y = (Spec.ahead p (Spec.sense d s) t).y
  · unfold winding
    congr 1
    refine List.map_congr_left fun x hx => ?_
    obtain ⟨m1, m2⟩ := segments_ends hx
    refine crossing_near hy.symm (hp x hx) (fun h => (he t t0 ht _ m1 _ m2).2 (.inl h)) fun h => ?_
    have := (he t t0 ht _ m2 _ m1).2 (.inl (by rw [area2_swap]; linarith))
    rw [area2_swap] at this
    linarith
  · refine (winding_const hb.bal hy fun x hx hm => ?_).symm
    obtain ⟨m, ⟨z, z0, z1, mx, my⟩, hon⟩ := hm
    rcases z0.eq_or_lt with h | h
    · subst h
      have : m = p := by
        obtain ⟨m1, m2⟩ := m
        obtain ⟨p1, p2⟩ := p
        simp only [zero_mul, add_zero] at mx my
        rw [mx, my]
      rw [this] at hon
      exact hp x hx hon
    · have : m = Spec.ahead p (Spec.sense d s) (z * t) := by
        obtain ⟨m1, m2⟩ := m
        simp only [Spec.ahead] at mx my ⊢
        rw [mx, my, Vtx.mk.injEq]
        constructor <;> ring
      rw [this] at hon
      exact off (z * t) (mul_pos h t0) (by nlinarith) x hx hon

/-- The positions inside of the border. -/
noncomputable def Spec.inner (vs : List (Vtx K)) (es : List Edge) : Finset (Vtx K) := by
  classical
  exact (Spec.positions vs).filter fun p => OffEdges (Spec.segments vs es) p ∧ winding (Spec.segments vs es) p = 1

/-- The ways from positions on the border to its inside. -/
noncomputable def Spec.borderWays (vs : List (Vtx K)) (es : List Edge) (d : Vtx K) : Finset (Vtx K × Bool) := by
  classical
  exact (Spec.ways (fun q => winding (Spec.segments vs es) q = 1) vs d).filter fun x => ¬ OffEdges (Spec.segments vs es) x.1

theorem ways_split {vs : List (Vtx K)} {es : List Edge} (hb : Spec.Border vs es) {d : Vtx K} (hd : Spec.Oblique vs d) :
    (Spec.ways (fun q => winding (Spec.segments vs es) q = 1) vs d).card = 2 * (Spec.inner vs es).card + (Spec.borderWays vs es d).card := by
  classical
  have e : (Spec.ways (fun q => winding (Spec.segments vs es) q = 1) vs d).filter (fun x => OffEdges (Spec.segments vs es) x.1) =
      Spec.inner vs es ×ˢ Finset.univ := by
    ext x
    simp only [Finset.mem_filter, mem_ways, Finset.mem_product, Finset.mem_univ, and_true, Spec.inner, Spec.positions, List.mem_toFinset]
    constructor
    · rintro ⟨⟨hx, e1, h1, hin⟩, ho⟩
      refine ⟨hx, ho, ?_⟩
      obtain ⟨e, e0, he⟩ := winding_near hb hd ho x.2
      have hm : 0 < min e1 e := lt_min h1 e0
      rw [← he _ (half_pos hm) (by have := min_le_right e1 e; linarith)]
      exact hin _ (half_pos hm) (by have := min_le_left e1 e; linarith)
    · rintro ⟨hx, ho, hw⟩
      obtain ⟨e, e0, he⟩ := winding_near hb hd ho x.2
      exact ⟨⟨hx, e, e0, fun t t0 ht => (he t t0 ht).trans hw⟩, ho⟩
  have := Finset.card_filter_add_card_filter_not (s := Spec.ways (fun q => winding (Spec.segments vs es) q = 1) vs d)
    (fun x => OffEdges (Spec.segments vs es) x.1)
  rw [e, Finset.card_product, Finset.card_univ, Fintype.card_bool] at this
  unfold Spec.borderWays
  rw [← this]
  ring

end Plain

variable {K : Type} [Field K] [LinearOrder K] [IsStrictOrderedRing K] [ExactParams K] [IdCfg]

theorem constrained_apart (fuel : Nat) (bins : Nat → Nat) (vs : List (Vtx K)) (h : Good fuel bins vs) (es : List Edge) (out : List Out)
    (ho : constrained2d fuel bins vs es = .ok out) : Spec.Rival vs out ∧ Spec.Apart vs out := by
  refine ⟨fun t ht => ?_, fun i j t u hij hi hj A B C A' B' C' gA gB gC gA' gB' gC' q =>
    C30_output_disjoint fuel bins vs h es out ho i j hij _ _ _ _ _ _ hi hj A B C A' B' C' gA gB gC gA' gB' gC' q⟩
  obtain ⟨A, B, C, gA, gB, gC, hc⟩ := C30_output_clockwise fuel bins vs h es out ho _ _ _ (show (t.1, t.2.1, t.2.2) ∈ out from ht)
  exact ⟨A, B, C, gA, gB, gC, hc, fun P hP hin => h.output_empty ho t ht _ _ _ A B C P (.inl rfl) gA gB gC hP hin⟩

/-- **C97**. The number of triangles inside of a border is the number of ways into it, for any direction that is not the one of a line
through two positions: two for every position inside, and those at the positions on the border. -/
theorem C97_polygon (fuel : Nat) (bins : Nat → Nat) (vs : List (Vtx K)) (h : Good fuel bins vs)
    (hf : fuelFor vs.length ≤ fuel) (es : List Edge) (hx : Spec.NonCrossing vs es) (hb : Spec.Border vs es) (out : List Out)
    (ho : constrained2d fuel bins vs es = .ok out) (d : Vtx K) (hd : Spec.Oblique vs d) :
    out.length = (Spec.ways (fun q => winding (Spec.segments vs es) q = 1) vs d).card ∧
    out.length = 2 * (Spec.inner vs es).card + (Spec.borderWays vs es d).card := by
  obtain ⟨hr, ha⟩ := constrained_apart fuel bins vs h es out ho
  have := length_ways hr ha hd (R := fun q => winding (Spec.segments vs es) q = 1) fun q hq =>
    C57_polygon fuel bins vs h hf es hx hb out ho q (offLines_offEdges hb.ne hq)
  exact ⟨this, this.trans (ways_split hb hd)⟩

/-- **C97**. Any other triangulation of the region of a result, with the same positions, has as many triangles. -/
theorem C97_any (fuel : Nat) (bins : Nat → Nat) (vs : List (Vtx K)) (h : Good fuel bins vs) (es : List Edge) (out : List Out)
    (ho : constrained2d fuel bins vs es = .ok out) (vs' : List (Vtx K)) (hp : ∀ p, p ∈ vs' ↔ p ∈ vs) (out' : List (Nat × Nat × Nat))
    (hr' : Spec.Rival vs' out') (ha' : Spec.Apart vs' out')
    (hc : ∀ q, Spec.OffLines vs q → (Spec.Covered vs' out' q ↔ Spec.Covered vs out q)) : out'.length = out.length := by
  obtain ⟨hr, ha⟩ := constrained_apart fuel bins vs h es out ho
  exact same_length hp hr ha hr' ha' hc

theorem unconstrained_apart (fuel : Nat) (bins : Nat → Nat) (vs : List (Vtx K)) (h : Good fuel bins vs) (out : List Out)
    (ho : triangulation2d fuel bins vs = .ok out) : Spec.Rival vs out ∧ Spec.Apart vs out := by
  refine ⟨fun t ht => ?_, fun i j t u hij hi hj A B C A' B' C' gA gB gC gA' gB' gC' q =>
    C04_disjoint_partial fuel bins vs h out ho i j hij _ _ _ _ _ _ hi hj A B C A' B' C' gA gB gC gA' gB' gC' q⟩
  obtain ⟨A, B, C, gA, gB, gC, hc⟩ := C03_clockwise fuel bins vs h out ho _ _ _ (show (t.1, t.2.1, t.2.2) ∈ out from ht)
  exact ⟨A, B, C, gA, gB, gC, hc, fun P hP hin => (h.tris ho).2.2 t ht _ _ _ A B C P (.inl rfl) gA gB gC hP hin⟩

/-- **C97** without constraints: any other triangulation of the region of a result, with the same positions, has as many triangles. -/
theorem C97_any_dt (fuel : Nat) (bins : Nat → Nat) (vs : List (Vtx K)) (h : Good fuel bins vs) (out : List Out)
    (ho : triangulation2d fuel bins vs = .ok out) (vs' : List (Vtx K)) (hp : ∀ p, p ∈ vs' ↔ p ∈ vs) (out' : List (Nat × Nat × Nat))
    (hr' : Spec.Rival vs' out') (ha' : Spec.Apart vs' out')
    (hc : ∀ q, Spec.OffLines vs q → (Spec.Covered vs' out' q ↔ Spec.Covered vs out q)) : out'.length = out.length := by
  obtain ⟨hr, ha⟩ := unconstrained_apart fuel bins vs h out ho
  exact same_length hp hr ha hr' ha' hc

/-- **C97**. Two runs with the same positions and borders of the same region, in any order, with any bins, give as many triangles. -/
theorem C97_same (fuel fuel' : Nat) (bins bins' : Nat → Nat) (vs vs' : List (Vtx K)) (h : Good fuel bins vs) (h' : Good fuel' bins' vs')
    (hf : fuelFor vs.length ≤ fuel) (hf' : fuelFor vs'.length ≤ fuel') (hp : ∀ p, p ∈ vs' ↔ p ∈ vs) (es es' : List Edge)
    (hx : Spec.NonCrossing vs es) (hx' : Spec.NonCrossing vs' es') (hb : Spec.Border vs es) (hb' : Spec.Border vs' es')
    (hw : ∀ q, Spec.OffLines vs q → winding (Spec.segments vs' es') q = winding (Spec.segments vs es) q) (out out' : List Out)
    (ho : constrained2d fuel bins vs es = .ok out) (ho' : constrained2d fuel' bins' vs' es' = .ok out') : out'.length = out.length := by
  obtain ⟨hr, ha⟩ := constrained_apart fuel' bins' vs' h' es' out' ho'
  refine C97_any fuel bins vs h es out ho vs' hp out' hr ha fun q hq => ?_
  have hq' : Spec.OffLines vs' q := fun X hX Y hY => hq X ((hp X).1 hX) Y ((hp Y).1 hY)
  have e1 := C57_polygon fuel bins vs h hf es hx hb out ho q (offLines_offEdges hb.ne hq)
  have e2 := C57_polygon fuel' bins' vs' h' hf' es' hx' hb' out' ho' q (offLines_offEdges hb'.ne hq')
  rw [hw q hq] at e2
  exact e2.trans e1.symm

theorem C97_polygon_rounded {F : Type} [FloatOps F] [Rounded F] (fuel : Nat) (bins : Nat → Nat) (vs : List (Vtx F)) (V : List (Vtx ℚ)) (W : ℚ)
    (h : Rounded.RGoodC fuel bins vs V W) (es : List Edge) (hx : Spec.NonCrossing V es) (hb : Spec.Border V es) (out : List Out)
    (ho : constrained2d fuel bins vs es = .ok out) (d : Vtx ℚ) (hd : Spec.Oblique V d) :
    out.length = (Spec.ways (fun q => winding (Spec.segments V es) q = 1) V d).card ∧
    out.length = 2 * (Spec.inner V es).card + (Spec.borderWays V es d).card := by
  let P := Rounded.params F (bins vs.length) W (Rounded.scaleVal vs)
  rw [h.run] at ho
  exact C97_polygon fuel bins V h.good (by rw [h.len]; exact h.fuelC) es hx hb out ho d hd

theorem C97_any_rounded {F : Type} [FloatOps F] [Rounded F] (fuel : Nat) (bins : Nat → Nat) (vs : List (Vtx F)) (V : List (Vtx ℚ)) (W : ℚ)
    (h : Rounded.RGoodC fuel bins vs V W) (es : List Edge) (out : List Out)
    (ho : constrained2d fuel bins vs es = .ok out) (V' : List (Vtx ℚ)) (hp : ∀ p, p ∈ V' ↔ p ∈ V) (out' : List (Nat × Nat × Nat))
    (hr' : Spec.Rival V' out') (ha' : Spec.Apart V' out')
    (hc : ∀ q, Spec.OffLines V q → (Spec.Covered V' out' q ↔ Spec.Covered V out q)) : out'.length = out.length := by
  let P := Rounded.params F (bins vs.length) W (Rounded.scaleVal vs)
  rw [h.run] at ho
  exact C97_any fuel bins V h.good es out ho V' hp out' hr' ha' hc

end Main

section Examples
open Rounded
attribute [local instance] polygonCfg

/-- A square with a square hole and a point in between: ten triangles, two of them for the point, and eight ways at the corners. The direction
is not parallel to a line through two positions. -/
example : Good 462 (fun _ => 1) (intPts holeGrid) ∧ fuelFor (intPts holeGrid).length ≤ 462 ∧
    Spec.NonCrossing (intPts holeGrid) holeEdges ∧ Spec.Border (intPts holeGrid) holeEdges ∧ Spec.Oblique (intPts holeGrid) ⟨100, 1⟩ ∧
    (do let out ← constrained2d 462 (fun _ => 1) (intPts holeGrid) holeEdges; Res.ok out.length) = .ok 10 :=
  ⟨hole_good, by decide, nonCrossing_of_check (by decide +kernel), hole_border, by unfold Spec.Oblique; decide +kernel, by decide +kernel⟩

end Examples
end CDT

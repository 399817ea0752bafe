import Mathlib.Logic.Relation
import Verif.Props.CertUnique
import Verif.Props.Corner

/-! # C92: which vertices the edges of a Delaunay result join -/

set_option linter.unusedSectionVars false

namespace CDT
open Plane

section Main

section Plain
variable {K : Type} [Field K] [LinearOrder K] [IsStrictOrderedRing K]

/-- An edge of a triangle of the result joins the positions `P` and `Q`. -/
def Spec.Joined (vs : List (Vtx K)) (out : List (Nat × Nat × Nat)) (P Q : Vtx K) : Prop :=
  ∃ t ∈ out, ∃ a b c, Spec.CornersOf t a b c ∧ ((vs[a]? = some P ∧ vs[b]? = some Q) ∨ (vs[a]? = some Q ∧ vs[b]? = some P))

/-- The circle around `m` goes through `P` and `Q`, and no other vertex is in or on it. -/
def Spec.OnlyTwo (vs : List (Vtx K)) (m P Q : Vtx K) : Prop :=
  dist2 m P = dist2 m Q ∧ ∀ r ∈ vs, r = P ∨ r = Q ∨ dist2 m P < dist2 m r

/-- The middle of two points. -/
def Spec.middle (P Q : Vtx K) : Vtx K := ⟨(P.x + Q.x) / 2, (P.y + Q.y) / 2⟩

/-- The disc with diameter `P Q` contains no other vertex. -/
def Spec.Gabriel (vs : List (Vtx K)) (P Q : Vtx K) : Prop :=
  ∀ r ∈ vs, r = P ∨ r = Q ∨ dist2 (Spec.middle P Q) P < dist2 (Spec.middle P Q) r

theorem middle_inHull {vs : List (Vtx K)} {P Q : Vtx K} (hP : P ∈ vs) (hQ : Q ∈ vs) : Spec.InHull vs (Spec.middle P Q) := by
  intro Y Z hall
  have e : area2 Y Z (Spec.middle P Q) = (area2 Y Z P + area2 Y Z Q) / 2 := by
    simp only [area2, Spec.middle]; ring
  have := hall P hP; have := hall Q hQ
  rw [e]; linarith

theorem vtx_ext {P Q : Vtx K} (hx : P.x = Q.x) (hy : P.y = Q.y) : P = Q := by
  cases P; cases Q; simp only [Vtx.mk.injEq]; exact ⟨hx, hy⟩

/-- The difference of the powers with respect to two circles is an affine function, which is nonnegative at the middle of `P Q` and
nonpositive on the triangle. -/
theorem edge_of_disc {vs : List (Vtx K)} {out : List Out} (hd : Spec.Delaunay vs out) (hcov : Spec.CoversConvex vs out)
    {P Q m : Vtx K} (hP : P ∈ vs) (hQ : Q ∈ vs) (hne : P ≠ Q) (he : Spec.OnlyTwo vs m P Q) : Spec.Joined vs out P Q := by
  obtain ⟨t, ht, A, B, C, gA, gB, gC, t1, t2, t3⟩ := hcov _ (middle_inHull hP hQ)
  obtain ⟨A', B', C', gA', gB', gC', hcw, hemp⟩ := hd t ht
  obtain rfl : A = A' := by rw [gA] at gA'; exact Option.some.inj gA'
  obtain rfl : B = B' := by rw [gB] at gB'; exact Option.some.inj gB'
  obtain rfl : C = C' := by rw [gC] at gC'; exact Option.some.inj gC'
  obtain ⟨O, hO⟩ := exists_circumcenter A B C hcw.ne
  have hp : dist2 O A ≤ dist2 O P := not_lt.1 fun hl => hemp P hP ⟨O, hO, hl⟩
  have hq : dist2 O A ≤ dist2 O Q := not_lt.1 fun hl => hemp Q hQ ⟨O, hO, hl⟩
  obtain ⟨hO1, hO2⟩ := hO
  obtain ⟨hm, hall⟩ := he
  set M := Spec.middle P Q with hM
  have g : ∀ r ∈ vs, dist2 m P ≤ dist2 m r := by
    intro r hr
    rcases hall r hr with rfl | rfl | h
    · exact le_rfl
    · exact hm.le
    · exact h.le
  have mA := List.mem_of_getElem? gA; have mB := List.mem_of_getElem? gB; have mC := List.mem_of_getElem? gC
  have sum : area2 A B C = area2 B C M + area2 C A M + area2 A B M := by unfold area2; ring
  -- the affine function at the middle
  have key : area2 A B C * ((dist2 O P - dist2 O A) + (dist2 O Q - dist2 O A)) = - 2 * (area2 B C M * (dist2 m A - dist2 m P) +
      area2 C A M * (dist2 m B - dist2 m P) + area2 A B M * (dist2 m C - dist2 m P)) := by
    have e1 : dist2 O P + dist2 O Q - dist2 m P - dist2 m Q = 2 * ((dist2 O M - dist2 m M)) := by
      simp only [hM, dist2, Spec.middle]; ring
    have e2 : area2 A B C * (dist2 O M - dist2 m M) = area2 B C M * (dist2 O A - dist2 m A) + area2 C A M * (dist2 O B - dist2 m B) +
        area2 A B M * (dist2 O C - dist2 m C) := by unfold dist2 area2; ring
    rw [← hO1, ← hO2] at e2
    linear_combination area2 A B C * e1 + 2 * e2 - area2 A B C * hm + (2 * dist2 m P - 2 * dist2 O A) * sum
  have k1 : area2 A B C * ((dist2 O P - dist2 O A) + (dist2 O Q - dist2 O A)) ≤ 0 :=
    mul_nonpos_of_nonpos_of_nonneg hcw.le (by linarith)
  have n1 : area2 B C M * (dist2 m A - dist2 m P) ≤ 0 := mul_nonpos_of_nonpos_of_nonneg t2 (by linarith [g A mA])
  have n2 : area2 C A M * (dist2 m B - dist2 m P) ≤ 0 := mul_nonpos_of_nonpos_of_nonneg t3 (by linarith [g B mB])
  have n3 : area2 A B M * (dist2 m C - dist2 m P) ≤ 0 := mul_nonpos_of_nonpos_of_nonneg t1 (by linarith [g C mC])
  have z1 : area2 B C M * (dist2 m A - dist2 m P) = 0 := by linarith
  have z2 : area2 C A M * (dist2 m B - dist2 m P) = 0 := by linarith
  have z3 : area2 A B M * (dist2 m C - dist2 m P) = 0 := by linarith
  have w : ∀ (x : K) (R : Vtx K), R ∈ vs → x * (dist2 m R - dist2 m P) = 0 → x = 0 ∨ R = P ∨ R = Q := by
    intro x R hR hz
    rcases mul_eq_zero.1 hz with h | h
    · exact .inl h
    · rcases hall R hR with h' | h' | h'
      · exact .inr (.inl h')
      · exact .inr (.inr h')
      · exact absurd h (by linarith)
  have w1 := w _ A mA z1; have w2 := w _ B mB z2; have w3 := w _ C mC z3
  -- both ends are corners of the triangle
  have bx : area2 A B C * M.x = area2 B C M * A.x + area2 C A M * B.x + area2 A B M * C.x := by unfold area2; ring
  have bY : area2 A B C * M.y = area2 B C M * A.y + area2 C A M * B.y + area2 A B M * C.y := by unfold area2; ring
  have both : ∀ R : Vtx K, (area2 B C M = 0 ∨ A = R) → (area2 C A M = 0 ∨ B = R) → (area2 A B M = 0 ∨ C = R) → M = R := by
    intro R r1 r2 r3
    have c : ∀ (f : Vtx K → K), area2 A B C * f M = area2 B C M * f A + area2 C A M * f B + area2 A B M * f C → f M = f R := by
      intro f hf
      have f1 : area2 B C M * f A = area2 B C M * f R := by rcases r1 with h | h <;> rw [h]; simp
      have f2 : area2 C A M * f B = area2 C A M * f R := by rcases r2 with h | h <;> rw [h]; simp
      have f3 : area2 A B M * f C = area2 A B M * f R := by rcases r3 with h | h <;> rw [h]; simp
      apply mul_left_cancel₀ (ne_of_lt hcw : area2 A B C ≠ 0)
      rw [hf, f1, f2, f3, sum]; ring
    exact vtx_ext (c (·.x) bx) (c (·.y) bY)
  have notP : ¬ ((area2 B C M = 0 ∨ A = Q) ∧ (area2 C A M = 0 ∨ B = Q) ∧ (area2 A B M = 0 ∨ C = Q)) := by
    rintro ⟨r1, r2, r3⟩
    have := both Q r1 r2 r3
    apply hne
    rw [hM] at this
    have hx := congrArg Vtx.x this; have hy := congrArg Vtx.y this
    simp only [Spec.middle] at hx hy
    cases P; cases Q; simp only [Vtx.mk.injEq]; constructor <;> simp only at hx hy <;> linarith
  have notQ : ¬ ((area2 B C M = 0 ∨ A = P) ∧ (area2 C A M = 0 ∨ B = P) ∧ (area2 A B M = 0 ∨ C = P)) := by
    rintro ⟨r1, r2, r3⟩
    have := both P r1 r2 r3
    apply hne
    rw [hM] at this
    have hx := congrArg Vtx.x this; have hy := congrArg Vtx.y this
    simp only [Spec.middle] at hx hy
    cases P; cases Q; simp only [Vtx.mk.injEq]; constructor <;> simp only at hx hy <;> linarith
  have hasP : A = P ∨ B = P ∨ C = P := by
    by_contra hn
    push Not at hn
    exact notP ⟨w1.imp_right (·.resolve_left hn.1), w2.imp_right (·.resolve_left hn.2.1), w3.imp_right (·.resolve_left hn.2.2)⟩
  have hasQ : A = Q ∨ B = Q ∨ C = Q := by
    by_contra hn
    push Not at hn
    exact notQ ⟨w1.imp_right (·.resolve_right hn.1), w2.imp_right (·.resolve_right hn.2.1), w3.imp_right (·.resolve_right hn.2.2)⟩
  obtain ⟨a, b, c⟩ := t
  have c1 : Spec.CornersOf (a, b, c) a b c := .inl rfl
  have c2 : Spec.CornersOf (a, b, c) b c a := .inr (.inr rfl)
  have c3 : Spec.CornersOf (a, b, c) c a b := .inr (.inl rfl)
  rcases hasP with rfl | rfl | rfl <;> rcases hasQ with h | h | h <;> subst h
  · exact absurd rfl hne
  · exact ⟨_, ht, a, b, c, c1, .inl ⟨gA, gB⟩⟩
  · exact ⟨_, ht, c, a, b, c3, .inr ⟨gC, gA⟩⟩
  · exact ⟨_, ht, a, b, c, c1, .inr ⟨gA, gB⟩⟩
  · exact absurd rfl hne
  · exact ⟨_, ht, b, c, a, c2, .inl ⟨gB, gC⟩⟩
  · exact ⟨_, ht, c, a, b, c3, .inl ⟨gC, gA⟩⟩
  · exact ⟨_, ht, b, c, a, c2, .inr ⟨gB, gC⟩⟩
  · exact absurd rfl hne

theorem gabriel_onlyTwo {vs : List (Vtx K)} {P Q : Vtx K} (h : Spec.Gabriel vs P Q) : Spec.OnlyTwo vs (Spec.middle P Q) P Q :=
  ⟨by simp only [dist2, Spec.middle]; ring, h⟩

/-- Between a set of vertices and the others, a shortest connection has an empty disc. -/
theorem gabriel_of_shortest {vs : List (Vtx K)} {S : Vtx K → Prop} {P Q : Vtx K} (hP : P ∈ vs) (hQ : Q ∈ vs) (sP : S P) (sQ : ¬ S Q)
    (hmin : ∀ X ∈ vs, ∀ Y ∈ vs, S X → ¬ S Y → dist2 P Q ≤ dist2 X Y) : Spec.Gabriel vs P Q := by
  intro r hr
  by_contra hn
  push Not at hn
  obtain ⟨n1, n2, n3⟩ := hn
  have pos : ∀ X : Vtx K, r ≠ X → 0 < dist2 r X := by
    intro X hX
    have h0 : 0 ≤ dist2 r X := by unfold dist2; positivity
    refine lt_of_le_of_ne h0 fun h => hX ?_
    unfold dist2 at h
    have a1 : (r.x - X.x) ^ 2 = 0 := by nlinarith [sq_nonneg (r.x - X.x), sq_nonneg (r.y - X.y)]
    have a2 : (r.y - X.y) ^ 2 = 0 := by nlinarith [sq_nonneg (r.x - X.x), sq_nonneg (r.y - X.y)]
    have b1 := pow_eq_zero_iff (two_ne_zero) |>.1 a1
    have b2 := pow_eq_zero_iff (two_ne_zero) |>.1 a2
    cases r; cases X; simp only [Vtx.mk.injEq]; simp only at b1 b2
    exact ⟨by linarith, by linarith⟩
  have q1 := pos P n1; have q2 := pos Q n2
  have e : 2 * (dist2 (Spec.middle P Q) r - dist2 (Spec.middle P Q) P) = dist2 r P + dist2 r Q - dist2 P Q := by
    simp only [dist2, Spec.middle]; ring
  by_cases hs : S r
  · have := hmin r hr Q hQ hs sQ
    linarith
  · have := hmin P hP r hr sP hs
    have s : dist2 P r = dist2 r P := by unfold dist2; ring
    linarith

/-- A pair of least value. -/
theorem exists_least {α : Type} (f : α → K) (l : List α) (h : l ≠ []) : ∃ x ∈ l, ∀ y ∈ l, f x ≤ f y := by
  induction l with
  | nil => exact absurd rfl h
  | cons a l ih =>
    by_cases hl : l = []
    · subst hl; exact ⟨a, by simp, by simp⟩
    · obtain ⟨x, hx, hm⟩ := ih hl
      rcases le_total (f a) (f x) with h1 | h1
      · exact ⟨a, by simp, fun y hy => by rcases List.mem_cons.1 hy with rfl | hy; exacts [le_rfl, h1.trans (hm y hy)]⟩
      · exact ⟨x, by simp [hx], fun y hy => by rcases List.mem_cons.1 hy with rfl | hy; exacts [h1, hm y hy]⟩

theorem joined_symm {vs : List (Vtx K)} {out : List Out} {P Q : Vtx K} (h : Spec.Joined vs out P Q) : Spec.Joined vs out Q P := by
  obtain ⟨t, ht, a, b, c, hc, h⟩ := h
  exact ⟨t, ht, a, b, c, hc, h.symm⟩

/-- What the edges of a Delaunay triangulation of the convex hull join: the vertices on a circle with no other vertex in or on it;
the vertices with an empty disc between them; every vertex and each of its nearest neighbors; the two ends of every shortest connection
between a set of vertices and the other ones (so the edges contain a shortest spanning tree); and they lead from every vertex to every
other one. -/
def Spec.GoodEdges (vs : List (Vtx K)) (out : List (Nat × Nat × Nat)) : Prop :=
  (∀ P ∈ vs, ∀ Q ∈ vs, P ≠ Q → ∀ m, Spec.OnlyTwo vs m P Q → Spec.Joined vs out P Q) ∧
  (∀ P ∈ vs, ∀ Q ∈ vs, P ≠ Q → Spec.Gabriel vs P Q → Spec.Joined vs out P Q) ∧
  (∀ P ∈ vs, ∀ Q ∈ vs, P ≠ Q → (∀ r ∈ vs, r ≠ P → dist2 P Q ≤ dist2 P r) → Spec.Joined vs out P Q) ∧
  (∀ S : Vtx K → Prop, ∀ P ∈ vs, ∀ Q ∈ vs, S P → ¬ S Q → (∀ X ∈ vs, ∀ Y ∈ vs, S X → ¬ S Y → dist2 P Q ≤ dist2 X Y) →
    Spec.Joined vs out P Q) ∧
  (∀ P ∈ vs, ∀ Q ∈ vs, Relation.ReflTransGen (Spec.Joined vs out) P Q)

theorem goodEdges_of_delaunay {vs : List (Vtx K)} {out : List Out} (hd : Spec.Delaunay vs out) (hcov : Spec.CoversConvex vs out) :
    Spec.GoodEdges vs out := by
  have gab : ∀ P ∈ vs, ∀ Q ∈ vs, P ≠ Q → Spec.Gabriel vs P Q → Spec.Joined vs out P Q :=
    fun P hP Q hQ hne h => edge_of_disc hd hcov hP hQ hne (gabriel_onlyTwo h)
  have cut : ∀ S : Vtx K → Prop, ∀ P ∈ vs, ∀ Q ∈ vs, S P → ¬ S Q → (∀ X ∈ vs, ∀ Y ∈ vs, S X → ¬ S Y → dist2 P Q ≤ dist2 X Y) →
      Spec.Joined vs out P Q :=
    fun S P hP Q hQ sP sQ hmin => gab P hP Q hQ (fun h => sQ (h ▸ sP)) (gabriel_of_shortest hP hQ sP sQ hmin)
  refine ⟨fun P hP Q hQ hne m h => edge_of_disc hd hcov hP hQ hne h, gab, fun P hP Q hQ hne hn => ?_, cut, fun P hP Q hQ => ?_⟩
  · exact cut (· = P) P hP Q hQ rfl (fun h => hne h.symm) fun X hX Y hY hXP hYP => by subst hXP; exact hn Y hY hYP
  · classical
    by_contra hcon
    let S : Vtx K → Prop := Relation.ReflTransGen (Spec.Joined vs out) P
    obtain ⟨⟨X, Y⟩, hXY, hmin⟩ := exists_least (fun p : Vtx K × Vtx K => dist2 p.1 p.2) ((vs ×ˢ vs).filter fun p => S p.1 ∧ ¬ S p.2)
      (List.ne_nil_of_mem (a := (P, Q)) (List.mem_filter.2 ⟨List.mem_product.2 ⟨hP, hQ⟩, by
        simp only [decide_eq_true_eq]; exact ⟨Relation.ReflTransGen.refl, hcon⟩⟩))
    obtain ⟨hXY, hs⟩ := List.mem_filter.1 hXY
    obtain ⟨hX, hY⟩ := List.mem_product.1 hXY
    simp only [decide_eq_true_eq] at hs
    obtain ⟨sX, sY⟩ := hs
    refine sY (sX.tail (cut S X hX Y hY sX sY fun X' hX' Y' hY' sX' sY' => hmin (X', Y') ?_))
    exact List.mem_filter.2 ⟨List.mem_product.2 ⟨hX', hY'⟩, by simp only [decide_eq_true_eq]; exact ⟨sX', sY'⟩⟩

/-- Conversely an edge of a Delaunay triangulation has a circle through its ends with no vertex in it. -/
theorem disc_of_edge {vs : List (Vtx K)} {out : List Out} (hd : Spec.Delaunay vs out) {P Q : Vtx K} (h : Spec.Joined vs out P Q) :
    ∃ m, dist2 m P = dist2 m Q ∧ ∀ r ∈ vs, dist2 m P ≤ dist2 m r := by
  obtain ⟨t, ht, a, b, c, hc, h⟩ := h
  obtain ⟨A, B, C, gA, gB, gC, hcw, hemp⟩ := hd t ht
  obtain ⟨O, hO⟩ := exists_circumcenter A B C hcw.ne
  have hall : ∀ r ∈ vs, dist2 O A ≤ dist2 O r := fun r hr => not_lt.1 fun hl => hemp r hr ⟨O, hO, hl⟩
  obtain ⟨hO1, hO2⟩ := hO
  have on : ∀ {i : Nat} {R : Vtx K}, (i = t.1 ∨ i = t.2.1 ∨ i = t.2.2) → vs[i]? = some R → dist2 O A = dist2 O R := by
    rintro i R (rfl | rfl | rfl) hi
    · rw [gA] at hi; rw [Option.some.inj hi]
    · rw [gB] at hi; rw [← Option.some.inj hi]; exact hO1
    · rw [gC] at hi; rw [← Option.some.inj hi]; exact hO2
  have ia : a = t.1 ∨ a = t.2.1 ∨ a = t.2.2 := by rcases hc with rfl | rfl | rfl <;> simp
  have ib : b = t.1 ∨ b = t.2.1 ∨ b = t.2.2 := by rcases hc with rfl | rfl | rfl <;> simp
  rcases h with ⟨h1, h2⟩ | ⟨h1, h2⟩
  · exact ⟨O, by rw [← on ia h1, ← on ib h2], fun r hr => by rw [← on ia h1]; exact hall r hr⟩
  · exact ⟨O, by rw [← on ia h1, ← on ib h2], fun r hr => by rw [← on ib h2]; exact hall r hr⟩

theorem Spec.Framed.boxed {vs : List (Vtx K)} {x0 x1 y0 y1 : K} (hf : Spec.Framed vs x0 x1 y0 y1) : Spec.Boxed vs x0 x1 y0 y1 := by
  have hr := framed_range hf
  obtain ⟨hx, hy, pts, corners, rfl, hperm, hp⟩ := hf
  have : ∀ q ∈ [(⟨x0, y0⟩ : Vtx K), ⟨x0, y1⟩, ⟨x1, y0⟩, ⟨x1, y1⟩], q ∈ pts ++ corners :=
    fun q hq => List.mem_append.2 (.inr (hperm.symm.subset hq))
  exact ⟨hx, hy, this _ (by simp), this _ (by simp), this _ (by simp), this _ (by simp), hr⟩

end Plain

variable {K : Type} [Field K] [LinearOrder K] [IsStrictOrderedRing K] [ExactParams K] [IdCfg]

/-- **C92**. The edges of a result that passes the test of C74. -/
theorem C92_edges (fuel : Nat) (bins : Nat → Nat) (vs : List (Vtx K)) (h : Good fuel bins vs) (out : List Out)
    (ho : triangulation2d fuel bins vs = .ok out) (hne : out ≠ []) (hs : Spec.HullSides vs out) (hl : Spec.LocallyDelaunay vs [] out) :
    Spec.GoodEdges vs out :=
  have ⟨hcov, hd⟩ := (C74_certificate fuel bins vs h out ho hne).1 ⟨hs, hl⟩
  goodEdges_of_delaunay hd hcov

/-- **C92** for framed points and one bin: no condition on the result. -/
theorem C92_framed (hcfg : RealCfg) (fuel : Nat) (bins : Nat → Nat) (vs : List (Vtx K)) (h : Good fuel bins vs) (h1 : bins vs.length = 1)
    (x0 x1 y0 y1 : K) (hf : Spec.Framed vs x0 x1 y0 y1) : ∃ out, triangulation2d fuel bins vs = .ok out ∧ Spec.GoodEdges vs out := by
  obtain ⟨out, ho, hd, -⟩ := C53_framed hcfg fuel bins vs h h1 x0 x1 y0 y1 hf

  obtain ⟨hx, hy, m00, m01, m10, -, -⟩ := hf.boxed
  have hl : Spec.NotOnLine vs := ⟨_, m00, _, m01, _, m10, by
    simp only [area2]
    have : (x1 - x0) * (y1 - y0) ≠ 0 := mul_ne_zero (sub_ne_zero.2 hx.ne') (sub_ne_zero.2 hy.ne')
    intro h0; apply this; linear_combination -h0⟩
  exact ⟨out, ho, goodEdges_of_delaunay hd (C79_covers fuel bins vs h hf.boxed.cornersExtreme hl out ho)⟩

/-- **C92**, the other direction: an edge of a result that passes the test has a circle through its ends with no vertex in it. -/
theorem C92_disc (fuel : Nat) (bins : Nat → Nat) (vs : List (Vtx K)) (h : Good fuel bins vs) (out : List Out)
    (ho : triangulation2d fuel bins vs = .ok out) (hs : Spec.HullSides vs out) (hl : Spec.LocallyDelaunay vs [] out)
    (P Q : Vtx K) (hj : Spec.Joined vs out P Q) : ∃ m, dist2 m P = dist2 m Q ∧ ∀ r ∈ vs, dist2 m P ≤ dist2 m r :=
  disc_of_edge (C74_delaunay fuel bins vs h out ho hs hl) hj

/-- **C92** in rounded arithmetic (`f32`, `f64`) on robust inputs and on grids; `V` are the exact positions. -/
theorem C92_edges_rounded {F : Type} [FloatOps F] [Rounded F] (fuel : Nat) (bins : Nat → Nat) (vs : List (Vtx F))
    (V : List (Vtx ℚ)) (W : ℚ) (h : Rounded.RGood fuel bins vs V W) (out : List Out)
    (ho : triangulation2d fuel bins vs = .ok out) (hne : out ≠ []) (hs : Spec.HullSides V out) (hl : Spec.LocallyDelaunay V [] out) :
    Spec.GoodEdges V out :=
  have ⟨hcov, hd⟩ := (C74_certificate_rounded fuel bins vs V W h out ho hne).1 ⟨hs, hl⟩
  goodEdges_of_delaunay hd hcov

theorem C92_framed_rounded {F : Type} [FloatOps F] [Rounded F] (hcfg : RealCfg) (fuel : Nat) (bins : Nat → Nat) (vs : List (Vtx F))
    (V : List (Vtx ℚ)) (W : ℚ) (h : Rounded.RGood fuel bins vs V W) (h1 : bins vs.length = 1) (x0 x1 y0 y1 : ℚ)
    (hf : Spec.Framed V x0 x1 y0 y1) : ∃ out, triangulation2d fuel bins vs = .ok out ∧ Spec.GoodEdges V out := by
  let P := Rounded.params F (bins vs.length) W (Rounded.scaleVal vs)
  rw [h.run]
  exact C92_framed hcfg fuel bins V h.good (by rw [h.len]; exact h1) x0 x1 y0 y1 hf

end Main

section Example
open Rounded
local instance gabrielCfg : IdCfg := u32Cfg

/-- The run of `Props/Certificate`, in `f64` with the default bins. -/
theorem gabriel_edges : Spec.GoodEdges (intPts certGrid) certOut :=
  C92_edges_rounded 506 _ _ _ _ cert_good certOut cert_run (by decide) cert_sides (local_of_check (by decide +kernel))

/-- The nearest vertex to `(11,12)` is `(8,15)`; they are joined. -/
example : Spec.Joined (intPts certGrid) certOut ⟨11, 12⟩ ⟨8, 15⟩ :=
  gabriel_edges.2.2.1 _ (by decide +kernel) _ (by decide +kernel) (by decide +kernel) (by
    intro r hr
    simp only [intPts, certGrid, List.map, List.mem_cons, List.not_mem_nil, or_false] at hr
    rcases hr with rfl | rfl | rfl | rfl | rfl | rfl | rfl | rfl | rfl | rfl <;> norm_num [Plane.dist2])

/-- The disc between `(5,9)` and `(11,12)` is empty, though neither is nearest to the other. -/
example : Spec.Joined (intPts certGrid) certOut ⟨5, 9⟩ ⟨11, 12⟩ :=
  gabriel_edges.2.1 _ (by decide +kernel) _ (by decide +kernel) (by decide +kernel) (by
    intro r hr
    simp only [intPts, certGrid, List.map, List.mem_cons, List.not_mem_nil, or_false] at hr
    rcases hr with rfl | rfl | rfl | rfl | rfl | rfl | rfl | rfl | rfl | rfl <;> norm_num [Plane.dist2, Spec.middle])

/-- Not all pairs are joined: `(2,3)` and `(16,6)` are not. -/
example : ¬ Spec.Joined (intPts certGrid) certOut ⟨2, 3⟩ ⟨16, 6⟩ := by
  rintro ⟨t, ht, a, b, c, hc, h⟩
  have key : ∀ t ∈ certOut, ∀ a b : Nat, ((t.1 = a ∧ t.2.1 = b) ∨ (t.2.1 = a ∧ t.2.2 = b) ∨ (t.2.2 = a ∧ t.1 = b)) →
      ¬ ((a = 0 ∧ b = 2) ∨ (a = 2 ∧ b = 0)) := by
    intro t ht a b h
    have := (by decide +kernel : ∀ t ∈ certOut, ¬ ((t.1 = 0 ∧ t.2.1 = 2) ∨ (t.1 = 2 ∧ t.2.1 = 0)) ∧
      ¬ ((t.2.1 = 0 ∧ t.2.2 = 2) ∨ (t.2.1 = 2 ∧ t.2.2 = 0)) ∧ ¬ ((t.2.2 = 0 ∧ t.1 = 2) ∨ (t.2.2 = 2 ∧ t.1 = 0))) t ht
    rcases h with ⟨rfl, rfl⟩ | ⟨rfl, rfl⟩ | ⟨rfl, rfl⟩
    exacts [this.1, this.2.1, this.2.2]
  have idx : ∀ (i : Nat) (R : Vtx ℚ) (k : Nat), (intPts certGrid)[k]? = some R → (intPts certGrid)[i]? = some R → i = k := by
    intro i R k hk hi
    have nd : (intPts certGrid).Nodup := by decide +kernel
    have h1 := lt_of_getElem? hi; have h2 := lt_of_getElem? hk
    exact (List.Nodup.getElem_inj_iff nd (hi := h1) (hj := h2)).1 (by
      rw [List.getElem?_eq_getElem h1] at hi; rw [List.getElem?_eq_getElem h2] at hk
      exact (Option.some.inj hi).trans (Option.some.inj hk).symm)
  refine key t ht a b (by rcases hc with rfl | rfl | rfl <;> simp) ?_
  rcases h with ⟨h1, h2⟩ | ⟨h1, h2⟩
  · exact .inl ⟨idx a _ 0 (by decide +kernel) h1, idx b _ 2 (by decide +kernel) h2⟩
  · exact .inr ⟨idx a _ 2 (by decide +kernel) h1, idx b _ 0 (by decide +kernel) h2⟩

end Example
end CDT

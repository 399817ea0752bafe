import Verif.Geo.Frame
import Verif.Props.Walk

/-! # Walks in a Delaunay mesh do not come back -/

set_option linter.unusedSectionVars false
set_option linter.unusedSimpArgs false
set_option linter.unusedVariables false

namespace CDT

section
variable {K : Type} [Field K] [LinearOrder K] [IsStrictOrderedRing K]

/-- The powers of a point with respect to the circles of two neighbours. -/
theorem HP.ic_next {a b c d q : HP K} (ha : a.w = 1) (hb : b.w = 1) (hc : c.w = 1) (hd : d.w = 1) (hq : q.w = 1) :
    HP.ic b a d q * HP.o a b c - HP.ic a b c q * HP.o b a d = HP.o a b q * HP.ic a b c d := by
  simp only [HP.ic, HP.o, HP.lift, ha, hb, hc, hd, hq]; ring

/-- A point of the circle of `b a c` on the other side of `a b` is on the inner side of the two other edges. -/
theorem HP.cap {a b c u : HP K} (ha : a.w = 1) (hb : b.w = 1) (hc : c.w = 1) (hu : u.w = 1) (pos : 0 < HP.o b a c)
    (h0 : HP.ic b a c u = 0) (h : 0 ≤ HP.o a b u) : 0 ≤ HP.o a c u ∧ 0 ≤ HP.o c b u := by
  have e1 : HP.o b a c * ((u.x - a.x) ^ 2 + (u.y - a.y) ^ 2) =
      HP.o a c u * ((b.x - a.x) ^ 2 + (b.y - a.y) ^ 2) - HP.o a b u * ((c.x - a.x) ^ 2 + (c.y - a.y) ^ 2) - HP.ic b a c u := by
    simp only [HP.ic, HP.o, HP.lift, ha, hb, hc, hu]; ring
  have e2 : HP.o b a c * ((u.x - b.x) ^ 2 + (u.y - b.y) ^ 2) =
      HP.o c b u * ((a.x - b.x) ^ 2 + (a.y - b.y) ^ 2) - HP.o a b u * ((c.x - b.x) ^ 2 + (c.y - b.y) ^ 2) - HP.ic b a c u := by
    simp only [HP.ic, HP.o, HP.lift, ha, hb, hc, hu]; ring
  have hab : 0 < (b.x - a.x) ^ 2 + (b.y - a.y) ^ 2 := by
    by_contra hcon
    have hx : b.x - a.x = 0 := by
      have := sq_nonneg (b.x - a.x); have := sq_nonneg (b.y - a.y)
      exact pow_eq_zero_iff (two_ne_zero) |>.1 (by linarith)
    have hy : b.y - a.y = 0 := by
      have := sq_nonneg (b.x - a.x); have := sq_nonneg (b.y - a.y)
      exact pow_eq_zero_iff (two_ne_zero) |>.1 (by linarith)
    have ex : b.x = a.x := by linarith
    have ey : b.y = a.y := by linarith
    have : HP.o b a c = 0 := by simp only [HP.o, ha, hb, hc, ex, ey]; ring
    linarith
  have m0 := mul_nonneg pos.le (add_nonneg (sq_nonneg (u.x - a.x)) (sq_nonneg (u.y - a.y)))
  have m1 := mul_nonneg pos.le (add_nonneg (sq_nonneg (u.x - b.x)) (sq_nonneg (u.y - b.y)))
  have m2 := mul_nonneg h (add_nonneg (sq_nonneg (c.x - a.x)) (sq_nonneg (c.y - a.y)))
  have m3 := mul_nonneg h (add_nonneg (sq_nonneg (c.x - b.x)) (sq_nonneg (c.y - b.y)))
  have hab' : 0 < (a.x - b.x) ^ 2 + (a.y - b.y) ^ 2 := by
    have : (a.x - b.x) ^ 2 + (a.y - b.y) ^ 2 = (b.x - a.x) ^ 2 + (b.y - a.y) ^ 2 := by ring
    rw [this]; exact hab
  exact ⟨nonneg_of_mul_nonneg_left (by linarith : 0 ≤ HP.o a c u * ((b.x - a.x) ^ 2 + (b.y - a.y) ^ 2)) hab,
    nonneg_of_mul_nonneg_left (by linarith : 0 ≤ HP.o c b u * ((a.x - b.x) ^ 2 + (a.y - b.y) ^ 2)) hab'⟩

theorem HP.ic_1 (a b c : HP K) : HP.ic a b c a = 0 := by simp only [HP.ic, HP.o]; ring
theorem HP.ic_2 (a b c : HP K) : HP.ic a b c b = 0 := by simp only [HP.ic, HP.o]; ring
theorem HP.ic_3 (a b c : HP K) : HP.ic a b c c = 0 := by simp only [HP.ic, HP.o]; ring

end

section
variable {K : Type} [Field K] [LinearOrder K] [IsStrictOrderedRing K] [ExactParams K] [IdCfg]
variable {vs : List (Vtx K)} {ts ts0 ts' : List Tri} {P : HP K}

/-- All vertices of the triangle are real. -/
def FinAt (ts : List Tri) (i : Nat) : Prop := ∃ t, ts[i]? = some t ∧ t.v1 < INF0 ∧ t.v2 < INF0 ∧ t.v3 < INF0

/-- The triangle `i` has the real vertices `a`, `b`, `c` in this cyclic order. -/
def TriAt (ts : List Tri) (i a b c : Nat) : Prop :=
  ∃ (T : Tri) (j1 j2 j3 : Nat), ts[i]? = some T ∧ Rot T a b c j1 j2 j3 ∧ a < INF0 ∧ b < INF0 ∧ c < INF0

theorem TriAt.next {i a b c : Nat} (h : TriAt ts i a b c) : TriAt ts i b c a := by
  obtain ⟨T, _, _, _, hT, hR, h1, h2, h3⟩ := h
  exact ⟨T, _, _, _, hT, hR.next, h2, h3, h1⟩

theorem TriAt.triIn {i a b c : Nat} (h : TriAt ts i a b c) : TriIn ts a b c := by
  obtain ⟨T, _, _, _, hT, hR, h1, h2, h3⟩ := h
  exact ⟨i, T, _, _, _, hT, hR⟩

theorem TriAt.pos {i a b c : Nat} (h : TriAt ts i a b c) (hv : Valid (hp vs) ts) : 0 < HP.o (hp vs a) (hp vs b) (hp vs c) :=
  h.triIn.pos hv

theorem TriAt.rot {i a b c a' b' c' : Nat} (h : TriAt ts i a b c) (h' : TriAt ts i a' b' c') :
    (a = a' ∧ b = b' ∧ c = c') ∨ (a = b' ∧ b = c' ∧ c = a') ∨ (a = c' ∧ b = a' ∧ c = b') := by
  obtain ⟨T, _, _, _, hT, hR, h1, h2, h3⟩ := h
  obtain ⟨T', _, _, _, hT', hR', _⟩ := h'
  rw [hT] at hT'; simp at hT'; subst hT'
  rcases hR with rfl | rfl | rfl <;> rcases hR' with e | e | e <;> simp only [Tri.mk.injEq] at e <;> tauto

theorem TriAt.finAt {i a b c : Nat} (h : TriAt ts i a b c) : FinAt ts i := by
  obtain ⟨T, _, _, _, hT, hR, h1, h2, h3⟩ := h
  refine ⟨T, hT, ?_⟩
  rcases hR with rfl | rfl | rfl <;> simp only <;> tauto

theorem TriAt.w {i a b c : Nat} (h : TriAt ts i a b c) : (hp vs a).w = 1 ∧ (hp vs b).w = 1 ∧ (hp vs c).w = 1 := by
  obtain ⟨T, _, _, _, hT, hR, h1, h2, h3⟩ := h
  exact ⟨hp_w_fin vs h1, hp_w_fin vs h2, hp_w_fin vs h3⟩

/-- Step of the walk towards `P`. -/
def HStep (vs : List (Vtx K)) (ts : List Tri) (P : HP K) (i j : Nat) : Prop :=
  ∃ a b, Ent ts i a b j ∧ j < ts.length ∧ HP.o (hp vs a) (hp vs b) P < 0

/-- Power of `P` with respect to the circle, relative to the area; the value does not depend on the first vertex. -/
def pw (vs : List (Vtx K)) (P : HP K) (a b c : Nat) : K :=
  HP.ic (hp vs a) (hp vs b) (hp vs c) P / HP.o (hp vs a) (hp vs b) (hp vs c)

theorem pw_cyc (a b c : Nat) : pw vs P b c a = pw vs P a b c := by
  unfold pw; rw [HP.ic_cyc, HP.o_cyc (hp vs a)]

theorem TriAt.pw_eq {i a b c a' b' c' : Nat} (h : TriAt ts i a b c) (h' : TriAt ts i a' b' c') :
    pw vs P a b c = pw vs P a' b' c' := by
  rcases h.rot h' with ⟨rfl, rfl, rfl⟩ | ⟨rfl, rfl, rfl⟩ | ⟨rfl, rfl, rfl⟩
  · rfl
  · rw [pw_cyc (vs := vs)]
  · exact (pw_cyc (vs := vs) _ _ _).symm

/-- A step from a finite triangle. -/
theorem HStep.fin {i j : Nat} (h : HStep vs ts P i j) (hv : Valid (hp vs) ts) (hin : Inner vs ts P) (hf : FinAt ts i) :
    ∃ a b c d, TriAt ts i a b c ∧ TriAt ts j b a d ∧ HP.o (hp vs a) (hp vs b) P < 0 := by
  obtain ⟨a, b, hE, hj, ho⟩ := h
  have hjn : j ≠ NONE := by have := hv.len; omega
  obtain ⟨T, hT, hh⟩ := hE
  obtain ⟨U, hU, hhU⟩ := hv.ent_pos ⟨T, hT, hh⟩ hjn
  obtain ⟨c, j2, j3, hR⟩ := hh.rot
  obtain ⟨d, k2, k3, hRU⟩ := hhU.rot
  obtain ⟨T', hT', f1, f2, f3⟩ := hf
  rw [hT] at hT'; simp at hT'; subst hT'
  have hfin : a < INF0 ∧ b < INF0 ∧ c < INF0 := by
    rcases hR with rfl | rfl | rfl <;> simp only at f1 f2 f3 <;> tauto
  have hd : d < INF0 := by
    by_contra hd
    have := hin.hull a b d ⟨j, U, _, _, _, hU, hRU⟩ hfin.1 hfin.2.1 hd
    linarith
  exact ⟨a, b, c, d, ⟨T, _, _, _, hT, hR, hfin⟩, ⟨U, _, _, _, hU, hRU, hfin.2.1, hfin.1, hd⟩, ho⟩

/-- The order in which a walk visits triangles: by the power of `P`, and on one circle by the edge through which the
later triangle is entered. -/
def Before (vs : List (Vtx K)) (ts : List Tri) (P : HP K) (i j : Nat) : Prop :=
  ∃ a b c x y z, TriAt ts i x y z ∧ TriAt ts j b a c ∧ (pw vs P x y z < pw vs P b a c ∨
    (pw vs P x y z = pw vs P b a c ∧ HP.o (hp vs a) (hp vs b) P < 0 ∧ ∀ u, u = x ∨ u = y ∨ u = z →
      HP.ic (hp vs b) (hp vs a) (hp vs c) (hp vs u) = 0 ∧ 0 ≤ HP.o (hp vs a) (hp vs b) (hp vs u)))

theorem Before.ne {i j : Nat} (hv : Valid (hp vs) ts) (h : Before vs ts P i j) : i ≠ j := by
  rintro rfl
  obtain ⟨a, b, c, x, y, z, h1, h2, h3⟩ := h
  have e := h1.pw_eq (vs := vs) (P := P) h2
  rcases h3 with h3 | ⟨_, _, h3⟩
  · rw [e] at h3; exact lt_irrefl _ h3
  · have hc : c = x ∨ c = y ∨ c = z := by
      rcases h1.rot h2 with h | h | h <;> tauto
    have := (h3 c hc).2
    have pos := h2.pos hv
    rw [HP.o_swap] at this
    linarith

/-- The power does not decrease along a step; it stays equal only on the same circle. -/
theorem pw_step {i j a b c d : Nat} (hv : Valid (hp vs) ts) (hE : Emp vs ts) (hP : P.w = 1)
    (h1 : TriAt ts i a b c) (h2 : TriAt ts j b a d) (ho : HP.o (hp vs a) (hp vs b) P < 0) :
    pw vs P a b c < pw vs P b a d ∨ (pw vs P a b c = pw vs P b a d ∧ HP.ic (hp vs a) (hp vs b) (hp vs c) (hp vs d) = 0) := by
  have p1 := h1.pos hv
  have p2 := h2.pos hv
  obtain ⟨wa, wb, wc⟩ := h1.w (vs := vs)
  obtain ⟨-, -, wd⟩ := h2.w (vs := vs)
  have e := HP.ic_next wa wb wc wd hP
  have hf1 := h1
  obtain ⟨_, _, _, _, _, _, fa, fb, fc⟩ := hf1
  have hd := h2
  obtain ⟨_, _, _, _, _, _, _, _, fd⟩ := hd
  have hcirc := hE.circ a b c d h1.triIn fa fb fc h2.next.next.triIn.occ fd
  unfold pw
  rw [div_lt_div_iff₀ p1 p2, div_eq_div_iff p1.ne' p2.ne']
  rcases hcirc.lt_or_eq with h | h
  · left
    have := mul_pos_of_neg_of_neg ho h
    linarith
  · right
    rw [h, mul_zero] at e
    exact ⟨by linarith, h⟩

/-- On one circle. -/
theorem ic_same {i j a b c d u : Nat} (hv : Valid (hp vs) ts) (h1 : TriAt ts i a b c) (h2 : TriAt ts j b a d) (hu : (hp vs u).w = 1)
    (h0 : HP.ic (hp vs a) (hp vs b) (hp vs c) (hp vs d) = 0) (h : HP.ic (hp vs a) (hp vs b) (hp vs c) (hp vs u) = 0) :
    HP.ic (hp vs b) (hp vs a) (hp vs d) (hp vs u) = 0 := by
  obtain ⟨wa, wb, wc⟩ := h1.w (vs := vs)
  obtain ⟨-, -, wd⟩ := h2.w (vs := vs)
  have e := HP.ic_next wa wb wc wd hu
  rw [h0, h, mul_zero, zero_mul, sub_zero] at e
  exact (mul_eq_zero.1 e).resolve_right (h1.pos hv).ne'

/-- A step between finite triangles. -/
theorem TriAt.before {i j a b c d : Nat} (h1 : TriAt ts i a b c) (h2 : TriAt ts j b a d) (ho : HP.o (hp vs a) (hp vs b) P < 0)
    (hv : Valid (hp vs) ts) (hE : Emp vs ts) (hP : P.w = 1) : Before vs ts P i j := by
  refine ⟨a, b, d, a, b, c, h1, h2, ?_⟩
  rcases pw_step hv hE hP h1 h2 ho with h | ⟨h, h0⟩
  · exact .inl h
  · refine .inr ⟨h, ho, ?_⟩
    obtain ⟨wa, wb, wc⟩ := h1.w (vs := vs)
    rintro u (rfl | rfl | rfl)
    · exact ⟨HP.ic_2 _ _ _, by rw [HP.o_same'']⟩
    · exact ⟨HP.ic_1 _ _ _, by rw [HP.o_same']⟩
    · exact ⟨ic_same hv h1 h2 wc h0 (HP.ic_3 _ _ _), (h1.pos hv).le⟩

theorem HStep.before {i j : Nat} (h : HStep vs ts P i j) (hv : Valid (hp vs) ts) (hE : Emp vs ts) (hP : P.w = 1)
    (hin : Inner vs ts P) (hf : FinAt ts i) : Before vs ts P i j := by
  obtain ⟨a, b, c, d, h1, h2, ho⟩ := h.fin hv hin hf
  exact h1.before h2 ho hv hE hP

theorem Before.extend {i j k p q r d : Nat} (hb : Before vs ts P i j) (h1 : TriAt ts j p q r) (h2 : TriAt ts k q p d)
    (ho : HP.o (hp vs p) (hp vs q) P < 0) (hv : Valid (hp vs) ts) (hE : Emp vs ts) (hP : P.w = 1) : Before vs ts P i k := by
  obtain ⟨a, b, c, x, y, z, g1, g2, g3⟩ := hb
  refine ⟨p, q, d, x, y, z, g1, h2, ?_⟩
  have e := g2.pw_eq (vs := vs) (P := P) h1
  rcases pw_step hv hE hP h1 h2 ho with hlt | ⟨heq, h0⟩
  · left
    rcases g3 with g3 | ⟨g3, -⟩
    · rw [e] at g3; exact g3.trans hlt
    · rw [g3, e]; exact hlt
  · rcases g3 with g3 | ⟨g3, g4, g5⟩
    · left; rw [e, heq] at g3; exact g3
    right
    refine ⟨by rw [g3, e, heq], ho, ?_⟩
    intro u hu
    obtain ⟨c0, c1⟩ := g5 u hu
    obtain ⟨wb, wa, wc⟩ := g2.w (vs := vs)
    have wu : (hp vs u).w = 1 := by
      obtain ⟨w1, w2, w3⟩ := g1.w (vs := vs)
      rcases hu with rfl | rfl | rfl <;> assumption
    obtain ⟨k1, k2⟩ := HP.cap wa wb wc wu (g2.pos hv) c0 c1
    rcases g2.rot h1 with ⟨rfl, rfl, rfl⟩ | ⟨rfl, rfl, rfl⟩ | ⟨rfl, rfl, rfl⟩
    · rw [HP.o_swap] at ho; linarith
    · refine ⟨ic_same hv h1 h2 wu h0 ?_, k2⟩
      rw [← HP.ic_cyc] at c0 ⊢; rw [← HP.ic_cyc]; exact c0
    · refine ⟨ic_same hv h1 h2 wu h0 ?_, k1⟩
      rw [← HP.ic_cyc] at c0; exact c0

theorem Before.step {i j k : Nat} (hb : Before vs ts P i j) (h : HStep vs ts P j k) (hv : Valid (hp vs) ts) (hE : Emp vs ts) (hP : P.w = 1)
    (hin : Inner vs ts P) : Before vs ts P i k := by
  obtain ⟨a, b, c, x, y, z, g1, g2, g3⟩ := id hb
  obtain ⟨p, q, r, d, h1, h2, ho⟩ := h.fin hv hin g2.finAt
  exact hb.extend h1 h2 ho hv hE hP

theorem HStep.finAt {i j : Nat} (h : HStep vs ts P i j) (hv : Valid (hp vs) ts) (hin : Inner vs ts P) (hf : FinAt ts i) : FinAt ts j := by
  obtain ⟨a, b, c, d, h1, h2, ho⟩ := h.fin hv hin hf
  exact h2.finAt

theorem before_of_steps {i j : Nat} (hv : Valid (hp vs) ts) (hE : Emp vs ts) (hP : P.w = 1) (hin : Inner vs ts P) (hf : FinAt ts i)
    (h : Relation.TransGen (HStep vs ts P) i j) : Before vs ts P i j := by
  induction h with
  | single h => exact h.before hv hE hP hin hf
  | tail _ h ih => exact ih.step h hv hE hP hin

/-- A walk that starts in a finite triangle visits no triangle twice, and only finite ones. -/
theorem walk_fin (hv : Valid (hp vs) ts) (hE : Emp vs ts) (hP : P.w = 1) (hin : Inner vs ts P) (l : List Nat) : ∀ i,
    FinAt ts i → (i :: l).IsChain (HStep vs ts P) → (i :: l).Nodup ∧ ∀ j ∈ i :: l, FinAt ts j := by
  induction l with
  | nil => intro i hf _; simpa using hf
  | cons j l ih =>
    intro i hf hc
    have hc' := hc
    rw [List.isChain_cons_cons] at hc
    obtain ⟨h1, h2⟩ := ih j (hc.1.finAt hv hin hf) hc.2
    refine ⟨List.nodup_cons.2 ⟨fun hm => ?_, h1⟩, ?_⟩
    · have : Relation.TransGen (HStep vs ts P) i i := by
        have hp := (hc'.imp (fun _ _ h => Relation.TransGen.single h)).pairwise
        exact (List.pairwise_cons.1 hp).1 i hm
      exact (before_of_steps hv hE hP hin hf this).ne hv rfl
    · intro k hk
      rcases List.mem_cons.1 hk with rfl | hk
      · exact hf
      · exact h2 k hk

/-- The steps of an unsuccessful search. -/
theorem findLoop_steps {p : Vtx K} (hn : vs.length ≤ INF0) (hv : Valid (hp vs) ts)
    (hok : VertsIn (VOk vs.length) ts) (n : Nat) : ∀ prev cur, cur < ts.length →
      findLoop vs p ts n prev cur = .ok .notFound →
      ∃ l : List Nat, l.length = n ∧ (cur :: l).IsChain (HStep vs ts (HP.ofVtx p)) ∧ ∀ i ∈ cur :: l, i < ts.length := by
  induction n with
  | zero => intro prev cur hc _; exact ⟨[], rfl, .singleton _, by simpa using hc⟩
  | succ n ih =>
    intro prev cur hc hf
    have hcn : cur ≠ NONE := by have := hv.len; omega
    obtain ⟨t, ht, _⟩ := getI_lt hc
    obtain ⟨w, h1, h2⟩ := findStep_total (p := p) (prev := prev) hn hv hok ht
    unfold findLoop at hf
    rw [if_neg hcn, h1] at hf
    simp only [Res.ok_bind] at hf
    cases w with
    | found pl =>
      simp at hf
      subst hf
      exact h2.elim
    | go p' c' =>
      obtain ⟨rfl, k, rfl, hk', hneg⟩ := h2
      have hb := behind_lt hv ht hneg
      obtain ⟨l, l1, l3, l4⟩ := ih _ _ hb hf
      refine ⟨_ :: l, by simp [l1], .cons_cons ⟨_, _, ⟨t, ht, has_k t k⟩, hb, hneg⟩ l3, ?_⟩
      intro i hi
      rcases List.mem_cons.1 hi with rfl | hi
      · exact hc
      · exact l4 i hi

/-- A search all of whose walks are free of repetitions finds the triangle. -/
theorem search_ok {p : Vtx K} {start : Nat} (hn : vs.length ≤ INF0) (hv : Valid (hp vs) ts)
    (hok : VertsIn (VOk vs.length) ts) (hs : start < ts.length)
    (hw : ∀ l : List Nat, (start :: l).IsChain (HStep vs ts (HP.ofVtx p)) → (start :: l).Nodup) :
    findPlacement vs p start ts ≠ .ok .notFound := by
  intro hf
  obtain ⟨l, l1, l3, l4⟩ := findLoop_steps hn hv hok _ _ _ hs hf
  have : (start :: l).Subperm (List.range ts.length) := (hw l l3).subperm fun i hi => by simpa using l4 i hi
  have := this.length_le
  simp at this
  omega

/-- Triangle with one artificial vertex `c`. -/
def HullAt (ts : List Tri) (i : Nat) : Prop :=
  ∃ (T : Tri) (a b c j1 j2 j3 : Nat), ts[i]? = some T ∧ Rot T b a c j1 j2 j3 ∧ a < INF0 ∧ b < INF0 ∧ ¬ c < INF0

/-- Triangle with two artificial vertices `b` and `c`. -/
def ConeAt (ts : List Tri) (i : Nat) : Prop :=
  ∃ (T : Tri) (a b c j1 j2 j3 : Nat), ts[i]? = some T ∧ Rot T a b c j1 j2 j3 ∧ a < INF0 ∧ ¬ b < INF0 ∧ ¬ c < INF0

theorem tri_kinds (hv : Valid (hp vs) ts) {i : Nat} (hi : i < ts.length) : FinAt ts i ∨ HullAt ts i ∨ ConeAt ts i := by
  obtain ⟨T, hT, -⟩ := getI_lt hi
  have hR := rot_self T
  have hfin := (hv.pos _ _ hT).exists_fin
  by_cases h1 : T.v1 < INF0 <;> by_cases h2 : T.v2 < INF0 <;> by_cases h3 : T.v3 < INF0
  · exact .inl ⟨T, hT, h1, h2, h3⟩
  · exact .inr (.inl ⟨T, _, _, _, _, _, _, hT, hR, h2, h1, h3⟩)
  · exact .inr (.inl ⟨T, _, _, _, _, _, _, hT, hR.next.next, h1, h3, h2⟩)
  · exact .inr (.inr ⟨T, _, _, _, _, _, _, hT, hR, h1, h2, h3⟩)
  · exact .inr (.inl ⟨T, _, _, _, _, _, _, hT, hR.next, h3, h2, h1⟩)
  · exact .inr (.inr ⟨T, _, _, _, _, _, _, hT, hR.next, h2, h3, h1⟩)
  · exact .inr (.inr ⟨T, _, _, _, _, _, _, hT, hR.next.next, h3, h1, h2⟩)
  · tauto

theorem HullAt.not_fin {i : Nat} (h : HullAt ts i) : ¬ FinAt ts i := by
  obtain ⟨T, a, b, c, _, _, _, hT, hR, h1, h2, h3⟩ := h
  rintro ⟨T', hT', f1, f2, f3⟩
  rw [hT] at hT'; simp at hT'; subst hT'
  rcases hR with rfl | rfl | rfl <;> simp only at f1 f2 f3 <;> tauto

theorem ConeAt.not_fin {i : Nat} (h : ConeAt ts i) : ¬ FinAt ts i := by
  obtain ⟨T, a, b, c, _, _, _, hT, hR, h1, h2, h3⟩ := h
  rintro ⟨T', hT', f1, f2, f3⟩
  rw [hT] at hT'; simp at hT'; subst hT'
  rcases hR with rfl | rfl | rfl <;> simp only at f1 f2 f3 <;> tauto

theorem ConeAt.not_hull {i : Nat} (h : ConeAt ts i) : ¬ HullAt ts i := by
  obtain ⟨T, a, b, c, _, _, _, hT, hR, h1, h2, h3⟩ := h
  rintro ⟨T', a', b', c', _, _, _, hT', hR', f1, f2, f3⟩
  rw [hT] at hT'; simp at hT'; subst hT'
  rcases hR with rfl | rfl | rfl <;> rcases hR' with e | e | e <;> simp only [Tri.mk.injEq] at e <;> obtain ⟨rfl, rfl, rfl, -⟩ := e <;> tauto

section
variable {x y w h : K} {Q : Vtx K}

theorem RectMesh.hull_step (hR : RectMesh vs ts x y w h) (hv : Valid (hp vs) ts) (ht : Tiled vs ts) (hok : VertsIn (VOk vs.length) ts)
    (hn : vs.length ≤ INF0) (h1 : x < Q.x) (h2 : Q.x < x + w) (h3 : y < Q.y) (h4 : Q.y < y + h) {i j : Nat} (hi : HullAt ts i)
    (hs : HStep vs ts (HP.ofVtx Q) i j) : FinAt ts j := by
  obtain ⟨T, a, b, c, j1, j2, j3, hT, hRot, ha, hb, hc⟩ := hi
  obtain ⟨p, q, hE, hj, ho⟩ := hs
  obtain ⟨o1, o2, o3⟩ := (hR.hull hv ht hok hn ⟨i, T, _, _, _, hT, hRot⟩ ha hb hc).2 Q h1 h2 h3 h4
  have hjn : j ≠ NONE := by have := hv.len; omega
  obtain ⟨U, hU, hhU⟩ := hv.ent_pos hE hjn
  obtain ⟨T', hT', hh⟩ := hE
  rw [hT] at hT'; simp at hT'; subst hT'
  rw [hRot.has_iff] at hh
  rcases hh with ⟨rfl, rfl, -⟩ | ⟨rfl, rfl, -⟩ | ⟨rfl, rfl, -⟩
  · obtain ⟨d, k2, k3, hRU⟩ := hhU.rot
    have hd : d < INF0 := by
      by_contra hd
      have := ((hR.hull hv ht hok hn ⟨j, U, _, _, _, hU, hRU⟩ hb ha hd).2 Q h1 h2 h3 h4).1
      linarith
    exact TriAt.finAt (a := a) (b := b) (c := d) ⟨U, _, _, _, hU, hRU, ha, hb, hd⟩
  · linarith
  · linarith

theorem RectMesh.cone_step (hR : RectMesh vs ts x y w h) (hv : Valid (hp vs) ts) (ht : Tiled vs ts) (hok : VertsIn (VOk vs.length) ts)
    (hn : vs.length ≤ INF0) (h1 : x < Q.x) (h2 : Q.x < x + w) (h3 : y < Q.y) (h4 : Q.y < y + h) {i j : Nat} (hi : ConeAt ts i)
    (hs : HStep vs ts (HP.ofVtx Q) i j) : HullAt ts j := by
  obtain ⟨T, a, b, c, j1, j2, j3, hT, hRot, ha, hb, hc⟩ := hi
  obtain ⟨p, q, hE, hj, ho⟩ := hs
  have hjn : j ≠ NONE := by have := hv.len; omega
  obtain ⟨U, hU, hhU⟩ := hv.ent_pos hE hjn
  have pos := hRot.pos_iff.1 (hv.pos _ _ hT)
  obtain ⟨T', hT', hh⟩ := hE
  rw [hT] at hT'; simp at hT'; subst hT'
  rw [hRot.has_iff] at hh
  obtain ⟨d, k2, k3, hRU⟩ := hhU.rot
  rcases hh with ⟨rfl, rfl, -⟩ | ⟨rfl, rfl, -⟩ | ⟨rfl, rfl, -⟩
  · have hd : d < INF0 := by
      by_contra hd
      have := (hR.cone hv ht hok hn ⟨j, U, _, _, _, hU, hRU.next⟩ ha hd hb Q h1 h2 h3 h4).2
      rw [HP.o_swap] at this
      linarith
    exact ⟨U, _, _, _, _, _, _, hU, hRU.next, hd, ha, hb⟩
  · rw [HP.o_inf2 (hp_w_inf vs hb) (hp_w_inf vs hc) (p := HP.ofVtx Q) (q := hp vs a) rfl (hp_w_fin vs ha)] at ho
    have := HP.o_cyc (hp vs a) (hp vs b) (hp vs c)
    linarith
  · have hd : d < INF0 := by
      by_contra hd
      have := (hR.cone hv ht hok hn ⟨j, U, _, _, _, hU, hRU⟩ ha hc hd Q h1 h2 h3 h4).1
      rw [HP.o_swap] at this
      linarith
    exact ⟨U, _, _, _, _, _, _, hU, hRU.next.next, ha, hd, hc⟩

/-- Every walk to a point inside the rectangle, from any triangle of the mesh of its corners. -/
theorem RectMesh.walk (hR : RectMesh vs ts x y w h) (hv : Valid (hp vs) ts) (ht : Tiled vs ts) (hok : VertsIn (VOk vs.length) ts)
    (hn : vs.length ≤ INF0) (h1 : x < Q.x) (h2 : Q.x < x + w) (h3 : y < Q.y) (h4 : Q.y < y + h) {i : Nat} (hi : i < ts.length)
    (l : List Nat) (hl : (i :: l).IsChain (HStep vs ts (HP.ofVtx Q))) : (i :: l).Nodup := by
  have hE := hR.emp hv ht hok hn
  have hin := hR.inner hv ht hok hn Q h1 h2 h3 h4
  have hull : ∀ (i : Nat) (l : List Nat), HullAt ts i → (i :: l).IsChain (HStep vs ts (HP.ofVtx Q)) →
      (i :: l).Nodup ∧ ∀ j ∈ l, FinAt ts j := by
    intro i l hi hl
    cases l with
    | nil => simp
    | cons j l =>
      rw [List.isChain_cons_cons] at hl
      obtain ⟨r1, r2⟩ := walk_fin hv hE rfl hin l j (hR.hull_step hv ht hok hn h1 h2 h3 h4 hi hl.1) hl.2
      exact ⟨List.nodup_cons.2 ⟨fun hm => hi.not_fin (r2 i hm), r1⟩, r2⟩
  rcases tri_kinds hv hi with hk | hk | hk
  · exact (walk_fin hv hE rfl hin l i hk hl).1
  · exact (hull i l hk hl).1
  · cases l with
    | nil => simp
    | cons j l =>
      rw [List.isChain_cons_cons] at hl
      have hj := hR.cone_step hv ht hok hn h1 h2 h3 h4 hk hl.1
      obtain ⟨r1, r2⟩ := hull j l hj hl.2
      refine List.nodup_cons.2 ⟨fun hm => ?_, r1⟩
      rcases List.mem_cons.1 hm with rfl | hm
      · exact hk.not_hull hj
      · exact hk.not_fin (r2 i hm)

end

end

end CDT

import Verif.Geo.Delaunay

/-! # Insertions outside a convex Delaunay mesh -/

set_option linter.unusedSectionVars false
set_option linter.unusedSimpArgs false
set_option linter.unusedVariables false

namespace CDT

/-- A point between `x` and `y` is on the inner side of the other two edges of the triangle. -/
theorem HP.between {K : Type} [Field K] [LinearOrder K] [IsStrictOrderedRing K] {x y c q : HP K} (hx : x.w = 1) (hy : y.w = 1) (hq : q.w = 1)
    (h0 : HP.o x y q = 0) (hd : HP.dot x y q < 0) (hc : 0 < HP.o y x c) : 0 ≤ HP.o x c q ∧ 0 ≤ HP.o c y q := by
  have N : 0 < (y.x - x.x) ^ 2 + (y.y - x.y) ^ 2 := by
    have e : (y.x - x.x) ^ 2 + (y.y - x.y) ^ 2 = (q.x - x.x) ^ 2 + (q.y - x.y) ^ 2 + (q.x - y.x) ^ 2 + (q.y - y.y) ^ 2 - 2 * HP.dot x y q := by
      simp only [HP.dot]; ring
    rw [e]; have := sq_nonneg (q.x - x.x); have := sq_nonneg (q.y - x.y); have := sq_nonneg (q.x - y.x); have := sq_nonneg (q.y - y.y)
    linarith
  have e1 : HP.o x c q * ((y.x - x.x) ^ 2 + (y.y - x.y) ^ 2) = ((q.x - x.x) ^ 2 + (q.y - x.y) ^ 2 - HP.dot x y q) * HP.o y x c := by
    have : HP.o x c q * ((y.x - x.x) ^ 2 + (y.y - x.y) ^ 2) - ((q.x - x.x) ^ 2 + (q.y - x.y) ^ 2 - HP.dot x y q) * HP.o y x c =
        ((c.x - c.w * x.x) * (y.x - x.x) + (c.y - c.w * x.y) * (y.y - x.y)) * HP.o x y q := by
      simp only [HP.o, HP.dot, hx, hy, hq]; ring
    rw [h0] at this; linarith
  have e2 : HP.o c y q * ((y.x - x.x) ^ 2 + (y.y - x.y) ^ 2) = ((q.x - y.x) ^ 2 + (q.y - y.y) ^ 2 - HP.dot x y q) * HP.o y x c := by
    have : HP.o c y q * ((y.x - x.x) ^ 2 + (y.y - x.y) ^ 2) - ((q.x - y.x) ^ 2 + (q.y - y.y) ^ 2 - HP.dot x y q) * HP.o y x c =
        -((c.x - c.w * y.x) * (y.x - x.x) + (c.y - c.w * y.y) * (y.y - x.y)) * HP.o x y q := by
      simp only [HP.o, HP.dot, hx, hy, hq]; ring
    rw [h0] at this; linarith
  have p1 : 0 ≤ ((q.x - x.x) ^ 2 + (q.y - x.y) ^ 2 - HP.dot x y q) := by
    have := sq_nonneg (q.x - x.x); have := sq_nonneg (q.y - x.y); linarith
  have p2 : 0 ≤ ((q.x - y.x) ^ 2 + (q.y - y.y) ^ 2 - HP.dot x y q) := by
    have := sq_nonneg (q.x - y.x); have := sq_nonneg (q.y - y.y); linarith
  exact ⟨nonneg_of_mul_nonneg_left (by rw [e1]; exact mul_nonneg p1 hc.le) N, nonneg_of_mul_nonneg_left (by rw [e2]; exact mul_nonneg p2 hc.le) N⟩

section
variable {K : Type} [Field K] [LinearOrder K] [IsStrictOrderedRing K] [ExactParams K] [IdCfg]
variable {vs : List (Vtx K)} {ts ts0 ts' : List Tri}

/-- The triangles around the inserted vertex `p`, which may be outside the convex hull of the mesh `ts0` before the insertion: each of
them is over an edge of a triangle of `ts0` that has an artificial vertex or `p` in its circle. -/
def StarOut (vs : List (Vtx K)) (ts0 : List Tri) (p : Nat) (ts : List Tri) : Prop :=
  ∀ (i : Nat) (T : Tri), ts[i]? = some T → TriIn ts0 T.v1 T.v2 T.v3 ∨ (T.v1 = p ∧ ∃ z, TriIn ts0 T.v2 T.v3 z ∧
    (T.v2 < INF0 → T.v3 < INF0 → z < INF0 → 0 ≤ HP.ic (hp vs T.v2) (hp vs T.v3) (hp vs z) (hp vs p)))

/-- One step of the restoration. -/
theorem StarOut.step {p s o : Nat} {st st' : List (Nat × Nat)} (hI : RInv vs p ts ((s, o) :: st))
    (hS : StarOut vs ts0 p ts) (hfresh : ¬ Occ ts0 p) (hn : vs.length ≤ INF0) (hpl : p < vs.length)
    (hr : checkAndSwap vs p ts s o st = .ok (ts', st')) : StarOut vs ts0 p ts' := by
  have hv := hI.valid
  have hpf : p < INF0 := by omega
  obtain ⟨T, hT, hT1, hT2, ho⟩ := hI.stack (s, o) (by simp)
  obtain ⟨v1, a, b, n2, n23, n1⟩ := T
  simp only at hT hT1 hT2 ho
  subst hT1 hT2
  obtain ⟨U, c, n3, n4, hU, hRU, hcase⟩ := checkAndSwap_total (st := st) hv hn hI.ok hpl hT ho
  rcases hcase with ⟨hsw, hres⟩ | ⟨hsw, ts2, hres, hF, hs', ho', g1, g2⟩
  · rw [hres] at hr; simp at hr; rw [← hr.1]; exact hS
  rw [hres] at hr; simp at hr
  obtain ⟨rfl, _⟩ := hr
  have hR := rot_self (⟨v1, a, b, n2, n23, n1⟩ : Tri)
  simp only at hR
  have pS := hR.pos_iff.1 (hv.pos _ _ hT)
  have pU := hRU.pos_iff.1 (hv.pos _ _ hU)
  have oka : VOk vs.length a := hI.ok.get hT 1
  have okb : VOk vs.length b := hI.ok.get hT 2
  have okc : VOk vs.length c := by
    have := fun k => hI.ok.get hU k
    rw [forall_fin3] at this
    rcases hRU with rfl | rfl | rfl
    · exact this.2.2
    · exact this.1
    · exact this.2.1
  have hUp : U.v1 ≠ v1 := by
    intro h
    have hh : U.hasVert v1 = true := hasVert_iff.2 (.inl h)
    rw [hRU.hasVert] at hh
    rcases hh with rfl | rfl | rfl
    · rw [HP.o_same''] at pS; exact lt_irrefl _ pS
    · rw [HP.o_same] at pS; exact lt_irrefl _ pS
    · rw [HP.o_same] at g2; exact lt_irrefl _ g2
  have old : TriIn ts0 b a c := by
    rcases hS _ _ hU with h | ⟨h, _⟩
    · exact hRU.triIn h
    · exact absurd h hUp
  have hic : a < INF0 → b < INF0 → 0 ≤ HP.ic (hp vs b) (hp vs a) (hp vs c) (hp vs v1) := fun ha hb =>
    ((shouldSwap_ic oka okb okc hpl hpf ha hb pU pS).1 hsw).2.le
  intro i X hX
  by_cases his : i = s
  · subst his; rw [hs'] at hX; simp at hX; subst hX
    exact .inr ⟨rfl, b, old.next, fun h1 h2 h3 => by rw [HP.ic_cyc]; exact hic h1 h3⟩
  by_cases hio : i = n23
  · subst hio; rw [ho'] at hX; simp at hX; subst hX
    exact .inr ⟨rfl, a, old.next.next, fun h1 h2 h3 => by rw [HP.ic_cyc, HP.ic_cyc]; exact hic h3 h2⟩
  obtain ⟨X0, hX0, w1, w2, w3⟩ := hF.verts_other his hio hX
  have := hS _ _ hX0
  rw [w1, w2, w3]
  exact this

/-- The whole restoration. -/
theorem restore_out {p : Nat} (hfresh : ¬ Occ ts0 p) (hn : vs.length ≤ INF0) (hpl : p < vs.length) (fuel : Nat) :
    ∀ (ts : List Tri) (st : List (Nat × Nat)), RInv vs p ts st → StarOut vs ts0 p ts → ∀ ts', restore vs p fuel ts st = .ok ts' →
      StarOut vs ts0 p ts' := by
  induction fuel with
  | zero =>
    intro ts st hI hS ts' h
    cases st with
    | nil => simp [restore] at h; subst h; exact hS
    | cons e st => simp [restore] at h
  | succ n ih =>
    intro ts st hI hS ts' h
    cases st with
    | nil => simp [restore] at h; subst h; exact hS
    | cons e st =>
      obtain ⟨s, o⟩ := e
      obtain ⟨ts1, st1, h1, hI', _⟩ := hI.step hn hpl
      simp only [restore, h1, Res.ok_bind] at h
      exact ih ts1 st1 hI' (hS.step hI hfresh hn hpl h1) ts' h

theorem StarOut.old {p a b c : Nat} (hS : StarOut vs ts0 p ts) (h : TriIn ts a b c) (ha : a ≠ p) (hb : b ≠ p) (hc : c ≠ p) :
    TriIn ts0 a b c := by
  obtain ⟨i, T, _, _, _, hT, hR⟩ := h
  rcases hS i T hT with h | ⟨h1, _⟩
  · exact hR.triIn h
  · rcases hR with rfl | rfl | rfl <;> simp only at h1
    · exact absurd h1 ha
    · exact absurd h1 hc
    · exact absurd h1 hb

theorem StarOut.star {p x y : Nat} (hS : StarOut vs ts0 p ts) (hv : Valid (hp vs) ts) (hfresh : ¬ Occ ts0 p)
    (h : TriIn ts p x y) : ∃ z, TriIn ts0 x y z ∧
    (x < INF0 → y < INF0 → z < INF0 → 0 ≤ HP.ic (hp vs x) (hp vs y) (hp vs z) (hp vs p)) := by
  have hp0 := h.pos hv
  obtain ⟨i, T, _, _, _, hT, hR⟩ := h
  rcases hS i T hT with h | ⟨h1, h2⟩
  · exact absurd (hR.triIn h).occ hfresh
  · rcases hR with rfl | rfl | rfl
    · exact h2
    · simp only at h1; subst h1; rw [HP.o_same''] at hp0; exact absurd hp0 (lt_irrefl _)
    · simp only at h1; subst h1; rw [HP.o_same] at hp0; exact absurd hp0 (lt_irrefl _)

theorem StarOut.occ {p q : Nat} (hS : StarOut vs ts0 p ts) (h : Occ ts q) : q = p ∨ Occ ts0 q := by
  obtain ⟨i, T, hT, hh⟩ := h
  rw [hasVert_iff] at hh
  rcases hS i T hT with h | ⟨h1, z, h4, _⟩
  · rcases hh with rfl | rfl | rfl
    · exact .inr h.occ
    · exact .inr h.next.occ
    · exact .inr h.next.next.occ
  · rcases hh with rfl | rfl | rfl
    · exact .inl h1
    · exact .inr h4.occ
    · exact .inr h4.next.occ

/-- A triangle around `p` after the restoration and the triangle behind its edge opposite to `p`. -/
theorem star_behind_out {p x y : Nat} (hI : RInv vs p ts []) (hS : StarOut vs ts0 p ts) (hfresh : ¬ Occ ts0 p)
    (hn : vs.length ≤ INF0) (hpl : p < vs.length) (h : TriIn ts p x y) (hx : x < INF0) (hy : y < INF0) :
    ∃ c, TriIn ts y x c ∧ TriIn ts0 y x c ∧ (c < INF0 → HP.ic (hp vs y) (hp vs x) (hp vs c) (hp vs p) ≤ 0) := by
  have hv := hI.valid
  have hp0 := h.pos hv
  obtain ⟨i, T, j1, j2, j3, hT, hR⟩ := h
  have h1 := hI.first i T hT (hR.hasVert.2 (.inl rfl))
  have hT' : T = ⟨p, x, y, j1, j2, j3⟩ := by
    rcases hR with rfl | rfl | rfl
    · rfl
    · simp only at h1; subst h1; rw [HP.o_same''] at hp0; exact absurd hp0 (lt_irrefl _)
    · simp only at h1; subst h1; rw [HP.o_same] at hp0; exact absurd hp0 (lt_irrefl _)
  subst hT'
  have hN : j2 ≠ NONE := by
    rcases hv.adj _ _ _ _ ⟨_, hT, hR.has2⟩ with ⟨_, h, _⟩ | h
    · exact absurd hx h
    · exact h.1
  obtain ⟨U, hU, hh⟩ := hv.ent_pos ⟨_, hT, hR.has2⟩ hN
  obtain ⟨c, m2, m3, hRU⟩ := hh.rot
  have pU := hRU.pos_iff.1 (hv.pos _ _ hU)
  have hcp : c ≠ p := by
    rintro rfl
    have e : HP.o (hp vs y) (hp vs x) (hp vs c) = - HP.o (hp vs c) (hp vs x) (hp vs y) := by simp only [HP.o]; ring
    linarith
  have hyp : y ≠ p := by rintro rfl; rw [HP.o_same''] at hp0; exact lt_irrefl _ hp0
  have hxp : x ≠ p := by rintro rfl; rw [HP.o_same] at hp0; exact lt_irrefl _ hp0
  refine ⟨c, ⟨_, U, _, _, _, hU, hRU⟩, hS.old ⟨_, U, _, _, _, hU, hRU⟩ hyp hxp hcp, fun hcf => ?_⟩
  have hsw := (hI.settled i _ hT rfl).resolve_left (by simp) _ _ _ _ _ hT hN U c _ _ _ hU hRU
  have okc : VOk vs.length c := by
    have := fun k => hI.ok.get hU k
    rw [forall_fin3] at this
    rcases hRU with rfl | rfl | rfl
    · exact this.2.2
    · exact this.1
    · exact this.2.1
  exact (shouldSwap_ic (hI.ok.get hT 1) (hI.ok.get hT 2) okc hpl (by omega) hx hy pU hp0).2 hsw hcf

/-- A restored mesh around a vertex inserted anywhere into a convex Delaunay mesh is a Delaunay mesh if it is convex. -/
theorem Emp.insert_out {p : Nat} (hE : Emp vs ts0) (hI : RInv vs p ts []) (hS : StarOut vs ts0 p ts) (hfresh : ¬ Occ ts0 p)
    (hv0 : Valid (hp vs) ts0) (ht : Tiled vs ts) (hn : vs.length ≤ INF0) (hpl : p < vs.length) (hocc : Occ ts p)
    (hull : ∀ x y z q, TriIn ts y x z → x < INF0 → y < INF0 → ¬ z < INF0 → Occ ts q → q < INF0 →
      0 ≤ HP.o (hp vs x) (hp vs y) (hp vs q)) : Emp vs ts := by
  have hv := hI.valid
  have hpf : p < INF0 := by omega
  have wf := fun {i : Nat} (h : i < INF0) => hp_w_fin vs h
  -- triangles around `p`
  have starEmpty : ∀ x y q, TriIn ts p x y → x < INF0 → y < INF0 → Occ ts q → q < INF0 →
      HP.ic (hp vs p) (hp vs x) (hp vs y) (hp vs q) ≤ 0 := by
    intro x y q hT hx hy hq hqf
    rcases hS.occ hq with rfl | hq0
    · have : HP.ic (hp vs q) (hp vs x) (hp vs y) (hp vs q) = 0 := by simp only [HP.ic, HP.o]; ring
      rw [this]
    obtain ⟨z, hz0, hzp⟩ := hS.star hv hfresh hT
    have pp := hT.pos hv
    rw [← HP.o_cyc] at pp
    obtain ⟨c, hc, hc0, hcp⟩ := star_behind_out hI hS hfresh hn hpl hT hx hy
    have hside : HP.o (hp vs x) (hp vs y) (hp vs q) < 0 → ∃ c : HP K, c.w = 1 ∧ 0 < HP.o (hp vs y) (hp vs x) c ∧
        HP.ic (hp vs y) (hp vs x) c (hp vs p) ≤ 0 ∧ HP.ic (hp vs y) (hp vs x) c (hp vs q) ≤ 0 := by
      intro hneg
      by_cases hcf : c < INF0
      · exact ⟨hp vs c, wf hcf, hc.pos hv, hcp hcf, hE.circ _ _ _ _ hc0 hy hx hcf hq0 hqf⟩
      · exact absurd (hE.hull _ _ _ _ hc0 hx hy hcf hq0 hqf) (not_le.2 hneg)
    rw [← HP.ic_cyc]
    by_cases hz : z < INF0
    · exact HP.pencil (wf hx) (wf hy) (wf hz) (wf hpf) (wf hqf) (hz0.pos hv0) pp (hzp hx hy hz)
        (hE.circ _ _ _ _ hz0 hx hy hz hq0 hqf) hside
    · -- the edge was on the border: no vertex is on the side of `p`
      have hq1 := hE.hull _ _ _ _ hz0 hy hx hz hq0 hqf
      rw [HP.o_swap] at hq1
      rcases lt_or_eq_of_le (neg_nonneg.1 hq1) with hneg | h0
      · obtain ⟨c, cw, c1, c2, c3⟩ := hside hneg
        have e : ∀ r : HP K, HP.dot (hp vs y) (hp vs x) r = HP.dot (hp vs x) (hp vs y) r := fun r => by simp only [HP.dot]; ring
        rw [HP.ic_dot (wf hy) (wf hx) cw (wf hpf), HP.o_swap (hp vs x)] at c2
        rw [HP.ic_dot (wf hy) (wf hx) cw (wf hqf), HP.o_swap (hp vs x)] at c3
        simp only [e] at c2 c3
        rw [HP.ic_dot (wf hx) (wf hy) (wf hpf) (wf hqf)]
        have : HP.o (hp vs y) (hp vs x) c * (HP.dot (hp vs x) (hp vs y) (hp vs p) * HP.o (hp vs x) (hp vs y) (hp vs q) -
            HP.dot (hp vs x) (hp vs y) (hp vs q) * HP.o (hp vs x) (hp vs y) (hp vs p)) ≤ 0 := by
          have m1 := mul_nonneg (neg_nonneg.2 c2) (neg_nonneg.2 hneg.le)
          have m2 := mul_nonneg (neg_nonneg.2 c3) pp.le
          linarith
        exact nonpos_of_mul_nonpos_right this c1
      · -- a vertex on the line of the edge is not between its ends
        rw [HP.ic_dot (wf hx) (wf hy) (wf hpf) (wf hqf), h0, mul_zero, zero_sub, neg_nonpos]
        refine mul_nonneg ?_ pp.le
        by_contra hcon
        rw [not_le] at hcon
        obtain ⟨i, T, j1, j2, j3, hTi, hR⟩ := id hc
        have hcpos := hc.pos hv
        obtain ⟨s1, s2⟩ := HP.between (wf hx) (wf hy) (wf hqf) h0 hcon hcpos
        have := vert_of_in hv ht hqf hq hTi hR (by rw [HP.o_swap, h0, neg_zero]) s1 s2
        rcases hR.hasVert.1 this with rfl | rfl | rfl
        · simp [HP.dot] at hcon
        · simp [HP.dot] at hcon
        · rw [HP.o_swap, h0, neg_zero] at hcpos; exact lt_irrefl _ hcpos
  -- other triangles
  have oldEmpty : ∀ u v w, TriIn ts u v w → u ≠ p → v ≠ p → w ≠ p → u < INF0 → v < INF0 → w < INF0 →
      HP.ic (hp vs u) (hp vs v) (hp vs w) (hp vs p) ≤ 0 := by
    intro u v w hT hup hvp hwp hu hv' hw
    by_contra hcon
    have hcon := not_le.1 hcon
    have hT0 := hS.old hT hup hvp hwp
    have pT := hT.pos hv
    have hTc := hT
    obtain ⟨iT, T, _, _, _, gT, hRT⟩ := hT
    obtain ⟨G, y, hG, -⟩ := exists_inner pT (hp_w_nonneg vs u) (hp_w_nonneg vs v) (hp_w_nonneg vs w) (B := hp vs p)
      (by rw [wf hpf]; exact one_pos)
    have hGw := in3_w (hp_w_nonneg vs u) (hp_w_nonneg vs v) (hp_w_nonneg vs w) pT hG
    obtain ⟨d, d0, hd⟩ := (hG.nrm hGw).near
    obtain ⟨e, e0, e1, hgen⟩ := exists_generic vs ts G.nrm d0
    have hm := hd e e0 e1
    set m := G.nrm.move e with hmdef
    have hmw : m.w = 1 := rfl
    obtain ⟨i0, T0, gT0, hT0p⟩ := hocc
    obtain ⟨x0, y0, _, _, _, hR0, -⟩ := vertexIndex_rot4 hT0p (hv.pos _ _ gT0)
    have occT : ∀ {i : Nat} {T : Tri} {a b c j1 j2 j3 : Nat}, ts[i]? = some T → Rot T a b c j1 j2 j3 →
        Occ ts a ∧ Occ ts b ∧ Occ ts c := fun h hR =>
      ⟨⟨_, _, h, hR.hasVert.2 (by simp)⟩, ⟨_, _, h, hR.hasVert.2 (by simp)⟩, ⟨_, _, h, hR.hasVert.2 (by simp)⟩⟩
    have ne0 : ∀ {a b : Nat}, Occ ts a → Occ ts b → a < INF0 → (∃ c, 0 < HP.o (hp vs a) (hp vs b) c) →
        HP.o (hp vs a) (hp vs b) m ≠ 0 := by
      rintro a b ha hb haf ⟨c, hc⟩
      refine hgen a b ha hb (.inl haf) fun h => ?_
      rw [h, HP.o_same] at hc; exact lt_irrefl _ hc
    have n0 := ne0 (occT gT0 hR0).1 (occT gT0 hR0).2.1 hpf ⟨_, hR0.pos_iff.1 (hv.pos _ _ gT0)⟩
    obtain ⟨_, _, _, _, hwedge⟩ := Star.wedge hv hpf (s := i0) ⟨T0, gT0, hT0p⟩
    obtain ⟨k, _, S, a, b, _, _, _, gS, hRS, k1, k2⟩ := hwedge m (hp vs x0) (by rw [HP.o_swap']; exact neg_ne_zero.2 n0)
    have hSt : TriIn ts p a b := ⟨_, S, _, _, _, gS, hRS⟩
    have pS := hSt.pos hv
    obtain ⟨oP, oa, ob⟩ := occT gS hRS
    have k1 := lt_of_le_of_ne k1 (ne0 oP oa hpf ⟨_, pS⟩).symm
    -- the triangle contains points inside the hull only
    have mid : ∀ x y z, TriIn ts y x z → x < INF0 → y < INF0 → ¬ z < INF0 → 0 ≤ HP.o (hp vs x) (hp vs y) m := by
      intro x y z hz fx fy fz
      have e := HP.bary_o (hp vs u) (hp vs v) (hp vs w) m (hp vs x) (hp vs y)
      have hu1 := hull x y z u hz fx fy fz hTc.occ hu
      have hv1 := hull x y z v hz fx fy fz hTc.next.occ hv'
      have hw1 := hull x y z w hz fx fy fz hTc.next.next.occ hw
      by_contra hc
      rw [not_le] at hc
      rw [← HP.o_cyc'] at hu1 hv1 hw1 hc
      have m1 := mul_nonneg hm.1.le hw1
      have m2 := mul_nonneg hm.2.1.le hu1
      have m3 := mul_nonneg hm.2.2.le hv1
      have m4 := mul_neg_of_pos_of_neg pT hc
      simp only [HP.o] at m1 m2 m3 m4 e
      linarith
    have k3 : ¬ 0 < HP.o (hp vs a) (hp vs b) m := by
      intro hlt
      have i1 : In3 (hp vs p) (hp vs a) (hp vs b) m := ⟨k1, hlt, by rw [HP.o_swap]; linarith⟩
      have := ht.disjoint hmw ((inAt_rot gS hRS).2 i1) ((inAt_rot gT hRT).2 hm)
      rw [this, gT] at gS
      simp at gS; subst gS
      have : T.hasVert p = true := hRS.hasVert.2 (.inl rfl)
      rw [hRT.hasVert] at this
      rcases this with h | h | h
      · exact hup h
      · exact hvp h
      · exact hwp h
    by_cases ha : a < INF0
    swap
    · by_cases hb : b < INF0
      · have := mid p b a hSt.next.next hpf hb ha
        linarith
      · refine k3 ?_
        rw [HP.o_inf2 (hp_w_inf vs ha) (hp_w_inf vs hb) (p := m) (q := hp vs p) hmw (wf hpf), HP.o_cyc]
        exact pS
    by_cases hb : b < INF0
    swap
    · have := mid a p b hSt ha hpf hb
      rw [HP.o_swap] at this
      linarith
    have k3 : HP.o (hp vs a) (hp vs b) m < 0 :=
      lt_of_le_of_ne (not_lt.1 k3) (ne0 oa ob ha ⟨hp vs p, by rwa [HP.o_cyc]⟩)
    obtain ⟨c, hc, hc0, hcp⟩ := star_behind_out hI hS hfresh hn hpl hSt ha hb
    have oa0 := hc0.next.occ
    have ob0 := hc0.occ
    have ou0 := hT0.occ
    have ov0 := hT0.next.occ
    have ow0 := hT0.next.next.occ
    by_cases hcf : c < INF0
    · refine HP.beyond (wf hu) (wf hv') (wf hw) (wf ha) (wf hb) (wf hcf) (wf hpf) hmw pT (hc.pos hv) pS hcon
        (hE.circ _ _ _ _ hT0 hu hv' hw oa0 ha) (hE.circ _ _ _ _ hT0 hu hv' hw ob0 hb) (hcp hcf)
        (hE.circ _ _ _ _ hc0 hb ha hcf ou0 hu) (hE.circ _ _ _ _ hc0 hb ha hcf ov0 hv')
        (hE.circ _ _ _ _ hc0 hb ha hcf ow0 hw) hm.1 hm.2.1 hm.2.2 k1 k2 k3
    · have := mid a b c hc ha hb hcf
      linarith
  refine ⟨?_, hull⟩
  intro a b c q hT ha hb hc hq hqf
  by_cases hap : a = p
  · subst hap; exact starEmpty _ _ _ hT hb hc hq hqf
  by_cases hbp : b = p
  · subst hbp; rw [← HP.ic_cyc]; exact starEmpty _ _ _ hT.next hc ha hq hqf
  by_cases hcp : c = p
  · subst hcp; rw [← HP.ic_cyc, ← HP.ic_cyc]; exact starEmpty _ _ _ hT.next.next ha hb hq hqf
  rcases hS.occ hq with rfl | hq0
  · exact oldEmpty _ _ _ hT hap hbp hcp ha hb hc
  · exact hE.circ _ _ _ _ (hS.old hT hap hbp hcp) ha hb hc hq0 hqf

/-- The vertices of the mesh after a split. -/
theorem MStep.starOut {vid : Nat} (h : MStep (hp vs) ts0 ts) (hl : ts.length = ts0.length + 2) (hv : Valid (hp vs) ts0)
    (hfresh : ¬ Occ ts0 vid) (hocc : Occ ts vid) (hvf : vid < INF0) : StarOut vs ts0 vid ts := by
  have wf := fun {i : Nat} (h : i < INF0) => hp_w_fin vs h
  have inside : ∀ {a b c : Nat}, TriIn ts0 a b c → 0 ≤ HP.o (hp vs a) (hp vs b) (hp vs vid) →
      0 ≤ HP.o (hp vs b) (hp vs c) (hp vs vid) → 0 ≤ HP.o (hp vs c) (hp vs a) (hp vs vid) →
      ∃ z, TriIn ts0 a b z ∧ (a < INF0 → b < INF0 → z < INF0 → 0 ≤ HP.ic (hp vs a) (hp vs b) (hp vs z) (hp vs vid)) :=
    fun hT h1 h2 h3 => ⟨_, hT, fun ha hb hc => HP.ic_inside (wf ha) (wf hb) (wf hc) (wf hvf) (hT.pos hv) h1 h2 h3⟩
  cases h with
  | split3 ht hs hl' h =>
    rename_i t1 p t
    have hT := triIn_get ht
    have hp : vid = p := by
      obtain ⟨i, T, gT, hh⟩ := hocc
      have hil := lt_of_getElem? gT
      rw [hs.len] at hil
      rw [hasVert_iff] at hh
      by_cases h1 : i = t1
      · subst h1; rw [hs.h1] at gT; simp at gT; subst gT
        rcases hh with rfl | rfl | rfl
        · rfl
        · exact absurd hT.next.next.occ hfresh
        · exact absurd hT.occ hfresh
      by_cases h2 : i = ts0.length
      · subst h2; rw [hs.h2] at gT; simp at gT; subst gT
        rcases hh with rfl | rfl | rfl
        · rfl
        · exact absurd hT.next.occ hfresh
        · exact absurd hT.next.next.occ hfresh
      by_cases h3 : i = ts0.length + 1
      · subst h3; rw [hs.h3] at gT; simp at gT; subst gT
        rcases hh with rfl | rfl | rfl
        · rfl
        · exact absurd hT.occ hfresh
        · exact absurd hT.next.occ hfresh
      exfalso
      obtain ⟨u0, hu0, w1, w2, w3⟩ := hs.verts_other (by omega) h1 gT
      refine hfresh ⟨i, u0, hu0, ?_⟩
      rw [hasVert_iff]; rwa [w1, w2, w3] at hh
    subst hp
    have s0 := (h 0).le
    have s1 := (h 1).le
    have s2 := (h 2).le
    simp only [sideO, Tri.v_0, Tri.v_1, Tri.v_2, show (0 : Fin 3) + 1 = 1 from rfl, show (1 : Fin 3) + 1 = 2 from rfl,
      show (2 : Fin 3) + 1 = 0 from rfl] at s0 s1 s2
    intro i T gT
    have hil := lt_of_getElem? gT
    rw [hs.len] at hil
    by_cases h1 : i = t1
    · subst h1; rw [hs.h1] at gT; simp at gT; subst gT
      exact .inr ⟨rfl, inside hT.next.next s2 s0 s1⟩
    by_cases h2 : i = ts0.length
    · subst h2; rw [hs.h2] at gT; simp at gT; subst gT
      exact .inr ⟨rfl, inside hT.next s1 s2 s0⟩
    by_cases h3 : i = ts0.length + 1
    · subst h3; rw [hs.h3] at gT; simp at gT; subst gT
      exact .inr ⟨rfl, inside hT s0 s1 s2⟩
    obtain ⟨u0, hu0, w1, w2, w3⟩ := hs.verts_other (by omega) h1 gT
    rw [w1, w2, w3]
    exact .inl (triIn_get hu0)
  | split4 hs hl' h0 h1 h2 =>
    rename_i t1 t2 p x y o1 o2 n1 n2 n3 n4
    have hA : TriIn ts0 x y o1 := by obtain ⟨a, ga, hRa⟩ := hs.g1; exact ⟨_, a, _, _, _, ga, hRa⟩
    have hB : TriIn ts0 y x o2 := by obtain ⟨a, ga, hRa⟩ := hs.g2; exact ⟨_, a, _, _, _, ga, hRa⟩
    have hp : vid = p := by
      obtain ⟨i, T, gT, hh⟩ := hocc
      have hil := lt_of_getElem? gT
      rw [hs.len] at hil
      rw [hasVert_iff] at hh
      by_cases h1 : i = t1
      · subst h1; rw [hs.h1] at gT; simp at gT; subst gT
        rcases hh with rfl | rfl | rfl
        · rfl
        · exact absurd hA.next.next.occ hfresh
        · exact absurd hA.occ hfresh
      by_cases h2 : i = t2
      · subst h2; rw [hs.h2] at gT; simp at gT; subst gT
        rcases hh with rfl | rfl | rfl
        · rfl
        · exact absurd hA.occ hfresh
        · exact absurd hB.next.next.occ hfresh
      by_cases h3 : i = ts0.length
      · subst h3; rw [hs.h3] at gT; simp at gT; subst gT
        rcases hh with rfl | rfl | rfl
        · rfl
        · exact absurd hA.next.occ hfresh
        · exact absurd hA.next.next.occ hfresh
      by_cases h4 : i = ts0.length + 1
      · subst h4; rw [hs.h4] at gT; simp at gT; subst gT
        rcases hh with rfl | rfl | rfl
        · rfl
        · exact absurd hB.next.next.occ hfresh
        · exact absurd hB.occ hfresh
      exfalso
      obtain ⟨u0, hu0, w1, w2, w3⟩ := hs.verts_other (by omega) h1 h2 gT
      refine hfresh ⟨i, u0, hu0, ?_⟩
      rw [hasVert_iff]; rwa [w1, w2, w3] at hh
    subst hp
    obtain ⟨q1, q2, q3, q4⟩ := hs.pos4 hv h0 h1 h2
    have a1 : 0 ≤ HP.o (hp vs x) (hp vs y) (hp vs vid) := h0.ge
    have b1 : 0 ≤ HP.o (hp vs y) (hp vs x) (hp vs vid) := by rw [HP.o_swap, h0, neg_zero]
    have b2 : 0 ≤ HP.o (hp vs x) (hp vs o2) (hp vs vid) := by rw [HP.o_cyc]; exact q2.le
    have b3 : 0 ≤ HP.o (hp vs o2) (hp vs y) (hp vs vid) := by rw [HP.o_cyc]; exact q4.le
    intro i T gT
    have hil := lt_of_getElem? gT
    rw [hs.len] at hil
    by_cases k1 : i = t1
    · subst k1; rw [hs.h1] at gT; simp at gT; subst gT
      exact .inr ⟨rfl, inside hA.next.next h2.le a1 h1.le⟩
    by_cases k2 : i = t2
    · subst k2; rw [hs.h2] at gT; simp at gT; subst gT
      exact .inr ⟨rfl, inside hB.next b2 b3 b1⟩
    by_cases k3 : i = ts0.length
    · subst k3; rw [hs.h3] at gT; simp at gT; subst gT
      exact .inr ⟨rfl, inside hA.next h1.le h2.le a1⟩
    by_cases k4 : i = ts0.length + 1
    · subst k4; rw [hs.h4] at gT; simp at gT; subst gT
      exact .inr ⟨rfl, inside hB.next.next b3 b1 b2⟩
    obtain ⟨u0, hu0, w1, w2, w3⟩ := hs.verts_other (by omega) k1 k2 gT
    rw [w1, w2, w3]
    exact .inl (triIn_get hu0)
  | flip hs h1 h2 => rw [hs.len] at hl; omega

end

end CDT

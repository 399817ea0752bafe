import Verif.Geo.CdtReg

/-! # The chain of crossed edges under swaps -/

set_option linter.unusedSectionVars false
set_option linter.unusedSimpArgs false
set_option linter.unusedVariables false

namespace CDT

section
variable {K : Type} [Field K] [LinearOrder K] [IsStrictOrderedRing K] [IdCfg]

/-! ## Geometry of one quad

`x u v` and `v u w` are clockwise triangles; the line from `a` to `b` has `u` on its right, `v` on its left. -/

theorem HP.plucker (u v w x y : HP K) :
    HP.o u v w * HP.o u x y - HP.o u v x * HP.o u w y + HP.o u v y * HP.o u w x = 0 := by
  simp only [HP.o]; ring

theorem HP.cramer (x u v w p q : HP K) :
    HP.o x u v * HP.o w p q = HP.o w u v * HP.o x p q + HP.o x w v * HP.o u p q + HP.o x u w * HP.o v p q := by
  simp only [HP.o]; ring

variable {H : Nat → HP K} {a b x u v w : Nat}

/-- Swapping two sides: the new diagonal from right to left is crossed by the segment, not only by its line. -/
theorem ed_diag (wa : (H a).w = 1) (wb : (H b).w = 1) (hw : ∀ i, 0 ≤ (H i).w)
    (hx : HP.o (H a) (H b) (H x) < 0) (hw' : 0 < HP.o (H a) (H b) (H w))
    (h1 : Ed H a b x v) (h2 : Ed H a b u w) (c1 : 0 < HP.o (H x) (H u) (H w)) (c2 : 0 < HP.o (H x) (H w) (H v)) :
    Ed H a b x w := by
  have e := ed_w (u := x) (v := w) wa wb
  have g1 := mul_nonneg hw'.le (hw x)
  have g2 := mul_nonneg (neg_pos.2 hx).le (hw w)
  have p1 := HP.plucker (H x) (H v) (H w) (H a) (H b)
  have p2 := HP.plucker (H w) (H u) (H x) (H a) (H b)
  have s1 : HP.o (H x) (H v) (H w) < 0 := by rw [HP.o_swap']; linarith
  have s2 : HP.o (H x) (H a) (H b) < 0 := by rw [HP.o_cyc']; exact hx
  have s3 : HP.o (H w) (H u) (H x) < 0 := by rw [HP.o_swap'']; linarith
  have s4 : 0 < HP.o (H w) (H a) (H b) := by rw [HP.o_cyc']; exact hw'
  have s5 := h1.sa
  have s6 := h1.sb
  have s7 : HP.o (H w) (H u) (H a) < 0 := by rw [HP.o_swap]; linarith [h2.sa]
  have s8 : 0 < HP.o (H w) (H u) (H b) := by rw [HP.o_swap]; linarith [h2.sb]
  rw [HP.o_swap (H x) (H w)] at p2
  rw [HP.o_swap (H x) (H w)] at p2
  have m1 := mul_pos_of_neg_of_neg s1 s2
  have m2 := mul_neg_of_neg_of_pos s3 s4
  have ha : 0 < HP.o (H x) (H w) (H a) := by
    by_contra hc
    have hc := not_lt.1 hc
    have hb : HP.o (H x) (H w) (H b) ≤ 0 := by linarith
    have := mul_nonpos_of_nonneg_of_nonpos s5.le hb
    have := mul_nonneg_of_nonpos_of_nonpos s6.le hc
    linarith
  refine ⟨hx, hw', ha, ?_⟩
  by_contra hc
  have hc := not_lt.1 hc
  have := mul_nonpos_of_nonpos_of_nonneg s7.le hc
  have := mul_pos s8 ha
  linarith

theorem ed_diag' (wa : (H a).w = 1) (wb : (H b).w = 1) (hw : ∀ i, 0 ≤ (H i).w)
    (hx : 0 < HP.o (H a) (H b) (H x)) (hw' : HP.o (H a) (H b) (H w) < 0)
    (h1 : Ed H a b u x) (h2 : Ed H a b w v) (c1 : 0 < HP.o (H x) (H u) (H w)) (c2 : 0 < HP.o (H x) (H w) (H v)) :
    Ed H a b w x := by
  have e := ed_w (u := w) (v := x) wa wb
  have g1 := mul_nonneg hx.le (hw w)
  have g2 := mul_nonneg (neg_pos.2 hw').le (hw x)
  have p1 := HP.plucker (H w) (H v) (H x) (H a) (H b)
  have p2 := HP.plucker (H x) (H u) (H w) (H a) (H b)
  have s1 : 0 < HP.o (H w) (H v) (H x) := by rw [HP.o_cyc]; exact c2
  have s2 : HP.o (H w) (H a) (H b) < 0 := by rw [HP.o_cyc']; exact hw'
  have s4 : 0 < HP.o (H x) (H a) (H b) := by rw [HP.o_cyc']; exact hx
  have s5 := h2.sa
  have s6 := h2.sb
  have s7 : HP.o (H x) (H u) (H a) < 0 := by rw [HP.o_swap]; linarith [h1.sa]
  have s8 : 0 < HP.o (H x) (H u) (H b) := by rw [HP.o_swap]; linarith [h1.sb]
  rw [HP.o_swap (H w) (H x) (H a), HP.o_swap (H w) (H x) (H b)] at p2
  have m1 := mul_neg_of_pos_of_neg s1 s2
  have m2 := mul_pos c1 s4
  have ha : 0 < HP.o (H w) (H x) (H a) := by
    by_contra hc
    have hc := not_lt.1 hc
    have hb : HP.o (H w) (H x) (H b) ≤ 0 := by linarith
    have := mul_nonneg_of_nonpos_of_nonpos s7.le hb
    have := mul_nonpos_of_nonneg_of_nonpos s8.le hc
    linarith
  refine ⟨hw', hx, ha, ?_⟩
  by_contra hc
  have hc := not_lt.1 hc
  have := mul_nonneg s5.le hc
  have := mul_neg_of_neg_of_pos s6 ha
  linarith

/-- `b` is seen from `x` through the edge `u v`. -/
def Sees (H : Nat → HP K) (b x u v : Nat) : Prop := 0 < HP.o (H x) (H u) (H b) ∧ 0 < HP.o (H x) (H b) (H v)

/-- No reflex corner at `u` if the segment leaves through `u w`. -/
theorem Sees.left (hs : Sees H b x u v) (h1 : Ed H a b u v) (h2 : Ed H a b u w)
    (c1 : 0 < HP.o (H x) (H u) (H v)) (c2 : 0 < HP.o (H v) (H u) (H w)) : 0 < HP.o (H x) (H u) (H w) := by
  by_contra hc
  have hc := not_lt.1 hc
  have p := HP.plucker (H u) (H v) (H w) (H x) (H b)
  have s1 : HP.o (H u) (H v) (H w) < 0 := by rw [HP.o_swap]; linarith
  have s2 : HP.o (H u) (H x) (H b) < 0 := by rw [HP.o_swap]; linarith [hs.1]
  have s3 : 0 < HP.o (H u) (H v) (H x) := by rw [HP.o_cyc]; exact c1
  have s4 := h2.sb
  have s5 := h1.sb
  have s6 : HP.o (H u) (H w) (H x) ≤ 0 := by rw [HP.o_cyc]; exact hc
  have m1 := mul_pos_of_neg_of_neg s1 s2
  have m2 := mul_neg_of_pos_of_neg s3 s4
  have m3 := mul_nonneg_of_nonpos_of_nonpos s5.le s6
  linarith

theorem Sees.right (hs : Sees H b x u v) (h1 : Ed H a b u v) (h2 : Ed H a b w v)
    (c1 : 0 < HP.o (H x) (H u) (H v)) (c2 : 0 < HP.o (H v) (H u) (H w)) : 0 < HP.o (H x) (H w) (H v) := by
  by_contra hc
  have hc := not_lt.1 hc
  have p := HP.plucker (H v) (H u) (H w) (H x) (H b)
  have s1 := c2
  have s2 : 0 < HP.o (H v) (H x) (H b) := by rw [HP.o_cyc']; exact hs.2
  have s3 : HP.o (H v) (H u) (H x) < 0 := by rw [HP.o_swap'']; linarith
  have s4 : 0 < HP.o (H v) (H w) (H b) := by rw [HP.o_swap]; linarith [h2.sb]
  have s5 : 0 < HP.o (H v) (H u) (H b) := by rw [HP.o_swap]; linarith [h1.sb]
  have s6 : 0 ≤ HP.o (H v) (H w) (H x) := by rw [HP.o_swap'']; linarith
  have m1 := mul_pos s1 s2
  have m2 := mul_neg_of_neg_of_pos s3 s4
  have m3 := mul_nonneg s5.le s6
  linarith

/-- Past a non-convex quad left through `u w`, `b` is seen from `v` through `u w`. -/
theorem Sees.next_left (hs : Sees H b x u v) (h1 : Ed H a b u v) (h2 : Ed H a b u w)
    (c1 : 0 < HP.o (H x) (H u) (H v)) (c2 : 0 < HP.o (H v) (H u) (H w))
    (hn : ¬ (0 < HP.o (H x) (H u) (H w) ∧ 0 < HP.o (H x) (H w) (H v))) : Sees H b v u w := by
  have hl := hs.left h1 h2 c1 c2
  have hr : HP.o (H x) (H w) (H v) ≤ 0 := not_lt.1 fun h => hn ⟨hl, h⟩
  refine ⟨by rw [HP.o_swap]; linarith [h1.sb], ?_⟩
  by_contra hc
  have hc := not_lt.1 hc
  have p := HP.cramer (H x) (H u) (H v) (H w) (H v) (H b)
  rw [HP.o_cyc' (H v) (H b) (H w), HP.o_same, mul_zero, add_zero] at p
  have s1 : HP.o (H w) (H u) (H v) < 0 := by rw [HP.o_swap'']; linarith
  have s2 : HP.o (H x) (H v) (H b) < 0 := by rw [HP.o_swap']; linarith [hs.2]
  have s3 := h1.sb
  have m0 := mul_nonpos_of_nonneg_of_nonpos c1.le hc
  have m1 := mul_pos_of_neg_of_neg s1 s2
  have m2 := mul_nonneg_of_nonpos_of_nonpos hr s3.le
  linarith

theorem Sees.next_right (hs : Sees H b x u v) (h1 : Ed H a b u v) (h2 : Ed H a b w v)
    (c1 : 0 < HP.o (H x) (H u) (H v)) (c2 : 0 < HP.o (H v) (H u) (H w))
    (hn : ¬ (0 < HP.o (H x) (H u) (H w) ∧ 0 < HP.o (H x) (H w) (H v))) : Sees H b u w v := by
  have hl := hs.right h1 h2 c1 c2
  have hr : HP.o (H x) (H u) (H w) ≤ 0 := not_lt.1 fun h => hn ⟨h, hl⟩
  refine ⟨?_, by rw [HP.o_swap']; linarith [h1.sb]⟩
  by_contra hc
  have hc := not_lt.1 hc
  have p := HP.cramer (H x) (H u) (H v) (H w) (H u) (H b)
  rw [HP.o_same, mul_zero, add_zero, HP.o_swap (H u) (H w)] at p
  have s1 : HP.o (H w) (H u) (H v) < 0 := by rw [HP.o_swap'']; linarith
  have s2 := hs.1
  have s3 : 0 < HP.o (H v) (H u) (H b) := by rw [HP.o_swap]; linarith [h1.sb]
  have m0 := mul_nonpos_of_nonneg_of_nonpos c1.le hc
  have m1 := mul_neg_of_neg_of_pos s1 s2
  have m2 := mul_nonpos_of_nonpos_of_nonneg hr s3.le
  linarith

end

/-! ## Chains of crossed edges -/

section
variable {K : Type} [Field K] [LinearOrder K] [IsStrictOrderedRing K] [ExactParams K] [IdCfg]
variable {H : Nat → HP K} {ts ts' : List Tri} {a b : Nat}

/-- The edges properly crossed by the segment from `a` to `b`, in order. -/
structure Chain (H : Nat → HP K) (ts : List Tri) (a b : Nat) (N : List EdgeData) : Prop where
  ok : ∀ e ∈ N, EOk ts e
  ed : ∀ e ∈ N, Ed H a b e.edge.src e.edge.dst
  link : List.IsChain (fun e e' => e.t = e'.f) N
  head : ∀ e, N.head? = some e → ∃ T, ts[e.f]? = some T ∧ T.hasVert a = true
  last : ∀ e, N.getLast? = some e → ∃ T, ts[e.t]? = some T ∧ T.hasVert b = true

theorem Has.rot_of_vert {T : Tri} {u v x j : Nat} (h : Has T u v j) (hx : T.hasVert x = true) (h1 : x ≠ u) (h2 : x ≠ v) :
    ∃ j1 j3, Rot T x u v j1 j j3 := by
  obtain ⟨y, j2, j3, hR⟩ := h.rot
  rcases hR.hasVert.1 hx with e | e | e
  · exact absurd e.symm h1
  · exact absurd e.symm h2
  · subst e; exact ⟨_, _, hR.next.next⟩

theorem Chain.dis (hv : Valid H ts) {N : List EdgeData} (h : Chain H ts a b N) : N.Pairwise Dis ∧ N.length ≤ ts.length := by
  cases N with
  | nil => simp
  | cons d l =>
    obtain ⟨T, hT, hTa⟩ := h.head d rfl
    obtain ⟨T', hT', hh⟩ := (h.ok d (by simp)).1
    rw [hT] at hT'; simp at hT'; subst hT'
    have ne := (h.ed d (by simp)).ne
    obtain ⟨j1, j3, hR⟩ := hh.rot_of_vert hTa (Ne.symm ne.1) (Ne.symm ne.2.2.1)
    have := chain_dis hv h.ok (fun e he => ⟨(h.ed e he).su, (h.ed e he).sv⟩) h.link ⟨T, _, _, _, hT, hR⟩
    exact ⟨this.1, by simp; omega⟩

/-- Entries of a chain are determined by one of their triangles. -/
theorem Chain.ne (hv : Valid H ts) {N : List EdgeData} (h : Chain H ts a b N) {e e' : EdgeData} (he : e ∈ N) (he' : e' ∈ N)
    (hd : Dis e e') : e.f ≠ e'.f ∧ e.t ≠ e'.t := by
  have o1 := h.ok e he
  have o2 := h.ok e' he'
  have d1 := h.ed e he
  have d2 := h.ed e' he'
  constructor
  · intro hf
    have x := o2.1
    rw [← hf] at x
    exact hd (.inl ⟨hf, (hv.side_unique o1.1 x d1.su d1.sv d2.su d2.sv).2.2⟩)
  · intro ht
    have x := hv.ent_pos o1.1 o1.2
    have y := hv.ent_pos o2.1 o2.2
    rw [← ht] at y
    have s1 := d1.symm
    have s2 := d2.symm
    exact hd (.inl ⟨(hv.side_unique x y s1.su s1.sv s2.su s2.sv).2.2, ht⟩)

variable {d : EdgeData} {P S : List EdgeData} {x w n1 n2 n3 n4 : Nat}

/-- What lies before an edge of the chain. -/
theorem Chain.before (hv : Valid H ts) (h : Chain H ts a b (P ++ d :: S))
    (hs : ∃ t, ts[d.f]? = some t ∧ Rot t x d.edge.src d.edge.dst n2 d.t n1) :
    (P = [] ∧ x = a) ∨ (∃ P0 e, P = P0 ++ [e] ∧
      ((HP.o (H a) (H b) (H x) < 0 ∧ e = ⟨n1, d.f, ⟨x, d.edge.dst⟩⟩ ∧ Ed H a b x d.edge.dst) ∨
       (0 < HP.o (H a) (H b) (H x) ∧ e = ⟨n2, d.f, ⟨d.edge.src, x⟩⟩ ∧ Ed H a b d.edge.src x))) := by
  obtain ⟨t, ht, hR⟩ := hs
  have hd := h.ed d (by simp)
  rcases List.eq_nil_or_concat P with rfl | ⟨P0, e, rfl⟩
  · left
    refine ⟨rfl, ?_⟩
    obtain ⟨T, hT, hTa⟩ := h.head d rfl
    rw [ht] at hT; simp at hT; subst hT
    rcases hR.hasVert.1 hTa with e | e | e
    · exact e
    · exact absurd e hd.ne.1
    · exact absurd e hd.ne.2.2.1
  · right
    rw [List.concat_eq_append] at *
    refine ⟨P0, e, rfl, ?_⟩
    have he := h.ok e (by simp)
    have hed := h.ed e (by simp)
    have hl : e.t = d.f := (List.isChain_append.1 h.link).2.2 e (by simp) d (by simp)
    obtain ⟨t', ht', hh⟩ := hv.ent_pos he.1 he.2
    rw [hl, ht] at ht'; simp at ht'; subst ht'
    obtain ⟨ef, et, ⟨es, ed⟩⟩ := e
    simp only at hl hh hed
    subst hl
    rcases hR.has_iff.1 hh with ⟨rfl, rfl, rfl⟩ | ⟨e1, e2, _⟩ | ⟨rfl, rfl, rfl⟩
    · exact .inr ⟨hed.sv, rfl, hed⟩
    · exfalso
      have := hd.sv; have := hed.su; rw [e2] at *; linarith
    · exact .inl ⟨hed.su, rfl, hed⟩

/-- What lies after an edge of the chain. -/
theorem Chain.after (hv : Valid H ts) (h : Chain H ts a b (P ++ d :: S))
    (ho : ∃ t, ts[d.t]? = some t ∧ Rot t d.edge.dst d.edge.src w d.f n3 n4) :
    (S = [] ∧ w = b) ∨ (∃ e S0, S = e :: S0 ∧
      ((0 < HP.o (H a) (H b) (H w) ∧ e = ⟨d.t, n3, ⟨d.edge.src, w⟩⟩ ∧ Ed H a b d.edge.src w) ∨
       (HP.o (H a) (H b) (H w) < 0 ∧ e = ⟨d.t, n4, ⟨w, d.edge.dst⟩⟩ ∧ Ed H a b w d.edge.dst))) := by
  obtain ⟨t, ht, hR⟩ := ho
  have hd := h.ed d (by simp)
  cases S with
  | nil =>
    left
    refine ⟨rfl, ?_⟩
    obtain ⟨T, hT, hTa⟩ := h.last d (by simp)
    rw [ht] at hT; simp at hT; subst hT
    rcases hR.hasVert.1 hTa with e | e | e
    · exact absurd e hd.ne.2.2.2.1
    · exact absurd e hd.ne.2.1
    · exact e
  | cons e S0 =>
    right
    refine ⟨e, S0, rfl, ?_⟩
    have he := h.ok e (by simp)
    have hed := h.ed e (by simp)
    have hl : d.t = e.f := (List.isChain_cons_cons.1 (List.isChain_append.1 h.link).2.1).1
    obtain ⟨t', ht', hh⟩ := he.1
    rw [← hl, ht] at ht'; simp at ht'; subst ht'
    obtain ⟨ef, et, ⟨es, ed⟩⟩ := e
    simp only at hl hh hed
    subst hl
    rcases hR.has_iff.1 hh with ⟨e1, e2, _⟩ | ⟨rfl, rfl, rfl⟩ | ⟨rfl, rfl, rfl⟩
    · exfalso
      have := hd.sv; have := hed.su; rw [e1] at *; linarith
    · exact .inl ⟨hed.sv, rfl, hed⟩
    · exact .inr ⟨hed.su, rfl, hed⟩

theorem FlipSpec.hasV_other {s o p a b c n1 n2 n3 n4 : Nat} (hf : FlipSpec ts ts' s o p a b c n1 n2 n3 n4) {i z : Nat}
    (h1 : i ≠ s) (h2 : i ≠ o) (h : ∃ T, ts[i]? = some T ∧ T.hasVert z = true) : ∃ T, ts'[i]? = some T ∧ T.hasVert z = true := by
  obtain ⟨T, hT, hz⟩ := h
  have hlt : i < ts'.length := by rw [hf.len]; exact lt_of_getElem? hT
  obtain ⟨t', ht', -⟩ := getI_lt hlt
  obtain ⟨t0, ht0, e1, e2, e3⟩ := hf.verts_other h1 h2 ht'
  rw [hT] at ht0; simp at ht0; subst ht0
  refine ⟨t', ht', ?_⟩
  rw [hasVert_iff] at hz ⊢
  rw [e1, e2, e3]; exact hz

/-- A convex swap of an edge of the chain: the new diagonal takes its place if it is crossed, otherwise the chain
gets shorter. -/
theorem Chain.flip (wa : (H a).w = 1) (wb : (H b).w = 1) (hw : ∀ i, 0 ≤ (H i).w) (hv : Valid H ts)
    (h : Chain H ts a b (P ++ d :: S)) (hf : FlipSpec ts ts' d.f d.t x d.edge.src d.edge.dst w n1 n2 n3 n4)
    (hc : Convex4 H d x w) :
    (Ed H a b x w ∧ Chain H ts' a b (P.map (·.upd n3 n1 d.f d.t) ++ ⟨d.t, d.f, ⟨x, w⟩⟩ :: S.map (·.upd n3 n1 d.f d.t))) ∨
    (Ed H a b w x ∧ Chain H ts' a b (P.map (·.upd n3 n1 d.f d.t) ++ ⟨d.f, d.t, ⟨w, x⟩⟩ :: S.map (·.upd n3 n1 d.f d.t))) ∨
    (¬ HP.Cross (H a) (H b) (H w) (H x) ∧
      Chain H ts' a b (P.map (·.upd n3 n1 d.f d.t) ++ S.map (·.upd n3 n1 d.f d.t))) := by
  have hpc := hc.ne
  have hdis := (h.dis hv).1
  rw [List.pairwise_append] at hdis
  obtain ⟨disP, disS, disPS⟩ := hdis
  rw [List.pairwise_cons] at disS
  have hB := h.before hv hf.hs
  have hA := h.after hv hf.ho
  have hed := h.ed d (by simp)
  obtain ⟨⟨a1, a2, a3, a4⟩, ⟨b1, b2, b3, b4⟩, c12, c34, c13⟩ := hf.outer_ne hv hpc
  have hso := hf.s_ne_o hv
  obtain ⟨ls, lo⟩ := hf.lt_none hv
  have okd := h.ok d (by simp)
  -- entries before
  have PD : ∀ e ∈ P, Dis e d := fun e he => disPS e he d (by simp)
  have SD : ∀ e ∈ S, Dis d e := fun e he => disS.1 e he
  have Pf : ∀ e ∈ P, e.f ≠ d.f ∧ e.f ≠ d.t ∧ e.t ≠ d.t := by
    intro e he
    have n1 := h.ne hv (by simp [he]) (by simp) (PD e he)
    refine ⟨n1.1, ?_, n1.2⟩
    intro hh
    have x1 := (h.ok e (by simp [he])).1
    have x2 := h.ed e (by simp [he])
    rw [hh] at x1
    rcases hA with ⟨rfl, rfl⟩ | ⟨e2, S0, rfl, hA⟩
    · rcases hf.ent_o.1 x1 with ⟨e1, e2, _⟩ | ⟨e1, e2, _⟩ | ⟨e1, e2, _⟩
      · have := x2.su; rw [← e1] at this; linarith [hed.sv]
      · exact x2.ne.2.2.2.1 e2.symm
      · exact x2.ne.2.1 e1.symm
    · refine (h.ne hv (e := e) (e' := e2) (by simp [he]) (by simp) (disPS e he e2 (by simp))).1 ?_
      rcases hA with ⟨_, rfl, _⟩ | ⟨_, rfl, _⟩ <;> exact hh
  have Sf : ∀ e ∈ S, e.t ≠ d.f ∧ e.t ≠ d.t ∧ e.f ≠ d.f := by
    intro e he
    have n1 := h.ne hv (by simp) (by simp [he]) (SD e he)
    refine ⟨?_, Ne.symm n1.2, Ne.symm n1.1⟩
    intro hh
    have x0 := h.ok e (by simp [he])
    have x1 := hv.ent_pos x0.1 x0.2
    have x2 := h.ed e (by simp [he])
    rw [hh] at x1
    rcases hB with ⟨rfl, rfl⟩ | ⟨P0, e2, rfl, hB⟩
    · rcases hf.ent_s.1 x1 with ⟨e1, e2, _⟩ | ⟨e1, e2, _⟩ | ⟨e1, e2, _⟩
      · exact x2.ne.2.2.1 e1.symm
      · have := x2.su; rw [← e2] at this; linarith [hed.sv]
      · exact x2.ne.1 e2.symm
    · refine (h.ne hv (e := e) (e' := e2) (by simp [he]) (by simp) (disPS e2 (by simp) e (by simp [he])).symm).2 ?_
      rcases hB with ⟨_, rfl, _⟩ | ⟨_, rfl, _⟩ <;> exact hh
  have UPf : ∀ e ∈ P, (e.upd n3 n1 d.f d.t).f = e.f ∧ (e.t ≠ d.f → (e.upd n3 n1 d.f d.t).t = e.t) := by
    intro e he
    obtain ⟨p1, p2, p3⟩ := Pf e he
    clear * - p1 p2 p3 hso a1 a2 a3 a4 b1 b2 b3 b4
    grind [EdgeData.upd]
  have USf : ∀ e ∈ S, (e.upd n3 n1 d.f d.t).t = e.t ∧ (e.f ≠ d.t → (e.upd n3 n1 d.f d.t).f = e.f) := by
    intro e he
    obtain ⟨p1, p2, p3⟩ := Sf e he
    clear * - p1 p2 p3 hso a1 a2 a3 a4 b1 b2 b3 b4
    grind [EdgeData.upd]
  have okP : ∀ e ∈ P.map (·.upd n3 n1 d.f d.t), EOk ts' e ∧ Ed H a b e.edge.src e.edge.dst := by
    intro e he
    obtain ⟨e0, h0, rfl⟩ := List.mem_map.1 he
    refine ⟨(hf.eok_upd hv hpc (h.ok e0 (by simp [h0])) (PD e0 h0).symm).1, ?_⟩
    rw [upd_fields]; exact h.ed e0 (by simp [h0])
  have okS : ∀ e ∈ S.map (·.upd n3 n1 d.f d.t), EOk ts' e ∧ Ed H a b e.edge.src e.edge.dst := by
    intro e he
    obtain ⟨e0, h0, rfl⟩ := List.mem_map.1 he
    refine ⟨(hf.eok_upd hv hpc (h.ok e0 (by simp [h0])) (SD e0 h0)).1, ?_⟩
    rw [upd_fields]; exact h.ed e0 (by simp [h0])
  have lk := List.isChain_append.1 h.link
  have linkP : List.IsChain (fun e e' => e.t = e'.f) (P.map (·.upd n3 n1 d.f d.t)) := by
    rw [List.isChain_map]
    have := lk.1
    rw [List.isChain_iff_getElem] at this ⊢
    intro i hi
    have := this i hi
    have m1 : P[i] ∈ P := List.getElem_mem _
    have m2 : P[i+1] ∈ P := List.getElem_mem _
    have := Pf _ m2
    rw [(UPf _ m2).1, (UPf _ m1).2 (by omega)]
    omega
  have linkS : List.IsChain (fun e e' => e.t = e'.f) (S.map (·.upd n3 n1 d.f d.t)) := by
    rw [List.isChain_map]
    have : List.IsChain (fun e e' : EdgeData => e.t = e'.f) S := lk.2.1.tail
    rw [List.isChain_iff_getElem] at this ⊢
    intro i hi
    have := this i hi
    have m1 : S[i] ∈ S := List.getElem_mem _
    have m2 : S[i+1] ∈ S := List.getElem_mem _
    have := Sf _ m1
    rw [(USf _ m1).1, (USf _ m2).2 (by omega)]
    omega
  -- junctions
  have jP : ∀ e, (P.map (·.upd n3 n1 d.f d.t)).getLast? = some e →
      (HP.o (H a) (H b) (H x) < 0 ∧ e.t = d.t ∧ Ed H a b x d.edge.dst) ∨
      (0 < HP.o (H a) (H b) (H x) ∧ e.t = d.f ∧ Ed H a b d.edge.src x) := by
    intro e he
    rcases hB with ⟨rfl, rfl⟩ | ⟨P0, e2, rfl, hB⟩
    · simp at he
    · simp at he
      have nn := (h.ok e2 (by simp)).1.lt
      have := hv.len
      have hne : e2.f ≠ NONE := by omega
      clear this nn
      subst he
      rcases hB with ⟨s, rfl, g⟩ | ⟨s, rfl, g⟩
      · refine .inl ⟨s, ?_, g⟩
        clear * - hso a1 a2 a3 a4 b1 b2 b3 b4 c12 c34 c13 hne
        grind [EdgeData.upd]
      · refine .inr ⟨s, ?_, g⟩
        clear * - hso a1 a2 a3 a4 b1 b2 b3 b4 c12 c34 c13 hne
        grind [EdgeData.upd]
  have jS : ∀ e, (S.map (·.upd n3 n1 d.f d.t)).head? = some e →
      (0 < HP.o (H a) (H b) (H w) ∧ e.f = d.f ∧ Ed H a b d.edge.src w) ∨
      (HP.o (H a) (H b) (H w) < 0 ∧ e.f = d.t ∧ Ed H a b w d.edge.dst) := by
    intro e he
    rcases hA with ⟨rfl, rfl⟩ | ⟨e2, S0, rfl, hA⟩
    · simp at he
    · simp at he
      have hne := (h.ok e2 (by simp)).2
      subst he
      rcases hA with ⟨s, rfl, g⟩ | ⟨s, rfl, g⟩
      · refine .inl ⟨s, ?_, g⟩
        clear * - hso a1 a2 a3 a4 b1 b2 b3 b4 c12 c34 c13 hne
        grind [EdgeData.upd]
      · refine .inr ⟨s, ?_, g⟩
        clear * - hso a1 a2 a3 a4 b1 b2 b3 b4 c12 c34 c13 hne
        grind [EdgeData.upd]
  -- ends
  have endP : ∀ e, (P.map (·.upd n3 n1 d.f d.t)).head? = some e → ∃ T, ts'[e.f]? = some T ∧ T.hasVert a = true := by
    intro e he
    cases P with
    | nil => simp at he
    | cons e0 P0 =>
      simp at he
      subst he
      rw [(UPf e0 (by simp)).1]
      exact hf.hasV_other (Pf e0 (by simp)).1 (Pf e0 (by simp)).2.1 (h.head e0 (by simp))
  have endS : ∀ e, (S.map (·.upd n3 n1 d.f d.t)).getLast? = some e → ∃ T, ts'[e.t]? = some T ∧ T.hasVert b = true := by
    intro e he
    rcases List.eq_nil_or_concat S with rfl | ⟨S0, e0, rfl⟩
    · simp at he
    · rw [List.concat_eq_append] at *
      simp at he
      subst he
      rw [(USf e0 (by simp)).1]
      exact hf.hasV_other (Sf e0 (by simp)).1 (Sf e0 (by simp)).2.1 (h.last e0 (by
        rw [← List.cons_append, ← List.append_assoc]; exact List.getLast?_append_of_ne_nil _ (by simp)))
  obtain ⟨t1, ht1, hR1⟩ := hf.hs'
  obtain ⟨t2, ht2, hR2⟩ := hf.ho'
  have xl : ∃ T, ts'[d.f]? = some T ∧ T.hasVert x = true := ⟨t1, ht1, hR1.hasVert.2 (by simp)⟩
  have xr : ∃ T, ts'[d.t]? = some T ∧ T.hasVert x = true := ⟨t2, ht2, hR2.hasVert.2 (by simp)⟩
  have wl : ∃ T, ts'[d.f]? = some T ∧ T.hasVert w = true := ⟨t1, ht1, hR1.hasVert.2 (by simp)⟩
  have wr : ∃ T, ts'[d.t]? = some T ∧ T.hasVert w = true := ⟨t2, ht2, hR2.hasVert.2 (by simp)⟩
  have hx0 : P = [] → x = a := by
    intro hP
    rcases hB with ⟨_, h⟩ | ⟨P0, e2, rfl, _⟩
    · exact h
    · simp at hP
  have hw0 : S = [] → w = b := by
    intro hP
    rcases hA with ⟨_, h⟩ | ⟨P0, e2, rfl, _⟩
    · exact h
    · simp at hP
  -- the chain with a new entry
  have mid : ∀ m : EdgeData, EOk ts' m → Ed H a b m.edge.src m.edge.dst →
      (∀ e, (P.map (·.upd n3 n1 d.f d.t)).getLast? = some e → e.t = m.f) →
      (∀ e, (S.map (·.upd n3 n1 d.f d.t)).head? = some e → m.t = e.f) → P ≠ [] → S ≠ [] →
      Chain H ts' a b (P.map (·.upd n3 n1 d.f d.t) ++ m :: S.map (·.upd n3 n1 d.f d.t)) := by
    intro m m1 m2 m3 m4 hP hS
    refine ⟨?_, ?_, ?_, ?_, ?_⟩
    · intro e he
      rcases List.mem_append.1 he with he | he
      · exact (okP e he).1
      · rcases List.mem_cons.1 he with rfl | he
        · exact m1
        · exact (okS e he).1
    · intro e he
      rcases List.mem_append.1 he with he | he
      · exact (okP e he).2
      · rcases List.mem_cons.1 he with rfl | he
        · exact m2
        · exact (okS e he).2
    · refine List.isChain_append.2 ⟨linkP, List.isChain_cons.2 ⟨fun y hy => m4 y hy, linkS⟩, fun e he y hy => ?_⟩
      simp at hy; subst hy
      exact m3 e he
    · intro e he
      rw [List.head?_append_of_ne_nil _ (by simpa using hP)] at he
      exact endP e he
    · intro e he
      rw [List.getLast?_append_of_ne_nil _ (by simp), List.getLast?_cons] at he
      simp at he
      refine endS e ?_
      rcases List.eq_nil_or_concat S with h | ⟨S0, e0, h⟩
      · exact absurd h hS
      · rw [List.concat_eq_append] at h; subst h
        simpa using he
  have e0 := HP.o_same'' (H a) (H b)
  have e0' := HP.o_same' (H a) (H b)
  have sgx : P ≠ [] → ∃ e, (P.map (·.upd n3 n1 d.f d.t)).getLast? = some e := by
    intro hP
    exact ⟨_, List.getLast?_eq_some_getLast (by simpa using hP)⟩
  have sgw : S ≠ [] → ∃ e, (S.map (·.upd n3 n1 d.f d.t)).head? = some e := by
    intro hP
    exact ⟨_, List.head?_eq_some_head (by simpa using hP)⟩
  by_cases c1 : HP.o (H a) (H b) (H x) < 0 ∧ 0 < HP.o (H a) (H b) (H w)
  · left
    have hP : P ≠ [] := by intro hP; rw [hx0 hP, e0] at c1; exact lt_irrefl _ c1.1
    have hS : S ≠ [] := by intro hS; rw [hw0 hS, e0'] at c1; exact lt_irrefl _ c1.2
    obtain ⟨e1, he1⟩ := sgx hP
    obtain ⟨e2, he2⟩ := sgw hS
    have k1 : Ed H a b x d.edge.dst := by
      rcases jP e1 he1 with ⟨_, _, g⟩ | ⟨g, _⟩
      · exact g
      · linarith [c1.1]
    have k2 : Ed H a b d.edge.src w := by
      rcases jS e2 he2 with ⟨_, _, g⟩ | ⟨g, _⟩
      · exact g
      · linarith [c1.2]
    have K := ed_diag wa wb hw c1.1 c1.2 k1 k2 hc.1 hc.2
    refine ⟨K, mid ⟨d.t, d.f, ⟨x, w⟩⟩ ⟨hf.ent_o'.2 (by simp), ?_⟩ K ?_ ?_ hP hS⟩
    · show d.f ≠ NONE; omega
    · intro e he
      rcases jP e he with ⟨_, g, _⟩ | ⟨g, _⟩
      · exact g
      · linarith [c1.1]
    · intro e he
      rcases jS e he with ⟨_, g, _⟩ | ⟨g, _⟩
      · exact g.symm
      · linarith [c1.2]
  by_cases c2 : 0 < HP.o (H a) (H b) (H x) ∧ HP.o (H a) (H b) (H w) < 0
  · right; left
    have hP : P ≠ [] := by intro hP; rw [hx0 hP, e0] at c2; exact lt_irrefl _ c2.1
    have hS : S ≠ [] := by intro hS; rw [hw0 hS, e0'] at c2; exact lt_irrefl _ c2.2
    obtain ⟨e1, he1⟩ := sgx hP
    obtain ⟨e2, he2⟩ := sgw hS
    have k1 : Ed H a b d.edge.src x := by
      rcases jP e1 he1 with ⟨g, _⟩ | ⟨_, _, g⟩
      · linarith [c2.1]
      · exact g
    have k2 : Ed H a b w d.edge.dst := by
      rcases jS e2 he2 with ⟨g, _⟩ | ⟨_, _, g⟩
      · linarith [c2.2]
      · exact g
    have K := ed_diag' wa wb hw c2.1 c2.2 k1 k2 hc.1 hc.2
    refine ⟨K, mid ⟨d.f, d.t, ⟨w, x⟩⟩ ⟨hf.ent_s'.2 (by simp), ?_⟩ K ?_ ?_ hP hS⟩
    · show d.t ≠ NONE; omega
    · intro e he
      rcases jP e he with ⟨g, _⟩ | ⟨_, g, _⟩
      · linarith [c2.1]
      · exact g
    · intro e he
      rcases jS e he with ⟨g, _⟩ | ⟨_, g, _⟩
      · linarith [c2.2]
      · exact g.symm
  right; right
  constructor
  · rintro ⟨g, _⟩
    rcases mul_neg_iff.1 g with ⟨g1, g2⟩ | ⟨g1, g2⟩
    · exact c1 ⟨g2, g1⟩
    · exact c2 ⟨g2, g1⟩
  refine ⟨?_, ?_, ?_, ?_, ?_⟩
  · intro e he
    rcases List.mem_append.1 he with he | he
    · exact (okP e he).1
    · exact (okS e he).1
  · intro e he
    rcases List.mem_append.1 he with he | he
    · exact (okP e he).2
    · exact (okS e he).2
  · refine List.isChain_append.2 ⟨linkP, linkS, fun e he y hy => ?_⟩
    rcases jP e he with ⟨s1, g1, _⟩ | ⟨s1, g1, _⟩ <;> rcases jS y hy with ⟨s2, g2, _⟩ | ⟨s2, g2, _⟩
    · exact absurd ⟨s1, s2⟩ c1
    · rw [g1, g2]
    · rw [g1, g2]
    · exact absurd ⟨s1, s2⟩ c2
  · intro e he
    by_cases hP : P = []
    · have := hx0 hP
      rw [this] at xl xr
      rw [hP] at he
      simp only [List.map_nil, List.nil_append] at he
      rcases jS e he with ⟨_, g, _⟩ | ⟨_, g, _⟩ <;> rw [g] <;> assumption
    · rw [List.head?_append_of_ne_nil _ (by simpa using hP)] at he
      exact endP e he
  · intro e he
    by_cases hS : S = []
    · have := hw0 hS
      rw [this] at wl wr
      rw [hS] at he
      simp only [List.map_nil, List.append_nil] at he
      rcases jP e he with ⟨_, g, _⟩ | ⟨_, g, _⟩ <;> rw [g] <;> assumption
    · rw [List.getLast?_append_of_ne_nil _ (by simpa using hS)] at he
      exact endS e he

/-! ## The sweep -/

/-- `b` is seen from the triangle behind an entry, through its edge. -/
def Seen (H : Nat → HP K) (ts : List Tri) (b : Nat) (d : EdgeData) : Prop :=
  ∃ x T j1 j2 j3, ts[d.f]? = some T ∧ Rot T x d.edge.src d.edge.dst j1 j2 j3 ∧ Sees H b x d.edge.src d.edge.dst

theorem Valid.rot_unique (hv : Valid H ts) {i : Nat} {T : Tri} (hT : ts[i]? = some T) {x x' u v j1 j2 j3 j1' j2' j3' : Nat}
    (h : Rot T x u v j1 j2 j3) (h' : Rot T x' u v j1' j2' j3') : x = x' := by
  have e1 := (hv.pos _ _ hT).has_ne h'.has1
  have e3 := (hv.pos _ _ hT).has_ne h'.has3
  rcases h.hasVert.1 (h'.hasVert.2 (.inl rfl)) with e | e | e
  · exact e
  · exact absurd e.symm e1
  · exact absurd e e3

theorem Chain.seen_first (h : Chain H ts a b (d :: S)) : Seen H ts b d := by
  obtain ⟨T, hT, hTa⟩ := h.head d rfl
  obtain ⟨T', hT', hh⟩ := (h.ok d (by simp)).1
  rw [hT] at hT'; simp at hT'; subst hT'
  have he := h.ed d (by simp)
  obtain ⟨j1, j3, hR⟩ := hh.rot_of_vert hTa (Ne.symm he.ne.1) (Ne.symm he.ne.2.2.1)
  refine ⟨a, T, _, _, _, hT, hR, ?_, he.sv⟩
  rw [HP.o_swap']; linarith [he.su]

/-- Past a non-convex quad the sweep goes on. -/
theorem Chain.seen_next (hv : Valid H ts) (h : Chain H ts a b (P ++ d :: S)) (hs : Seen H ts b d)
    (hq : QuadAt H ts d x w n1 n2 n3 n4) (hn : ¬ Convex4 H d x w) : ∃ e S0, S = e :: S0 ∧ Seen H ts b e := by
  obtain ⟨x', T, j1, j2, j3, hT, hR, hs⟩ := hs
  obtain ⟨T', hT', hR'⟩ := hq.s
  rw [hT] at hT'; simp at hT'; subst hT'
  obtain rfl := hv.rot_unique hT hR hR'
  have hed := h.ed d (by simp)
  obtain ⟨U, hU, hRU⟩ := hq.o
  rcases h.after hv ⟨U, hU, hRU⟩ with ⟨rfl, rfl⟩ | ⟨e, S0, rfl, hA⟩
  · exact absurd ⟨hs.1, hs.2⟩ hn
  · refine ⟨e, S0, rfl, ?_⟩
    rcases hA with ⟨_, rfl, g⟩ | ⟨_, rfl, g⟩
    · exact ⟨d.edge.dst, U, _, _, _, hU, hRU, hs.next_left hed g hq.p2 hq.p1 hn⟩
    · refine ⟨d.edge.src, U, _, _, _, hU, hRU.next, hs.next_right hed g hq.p2 hq.p1 hn⟩

/-- Some quad of the chain is convex. -/
theorem Chain.exists_convex' (hv : Valid H ts) (h : Chain H ts a b (P ++ d :: S)) (hs : Seen H ts b d) :
    ∃ e ∈ d :: S, ∃ x w n1 n2 n3 n4, QuadAt H ts e x w n1 n2 n3 n4 ∧ Convex4 H e x w := by
  induction S generalizing P d with
  | nil =>
    obtain ⟨x, w, n1, n2, n3, n4, hq⟩ := (h.ok d (by simp)).quadAt hv
    refine ⟨d, by simp, x, w, n1, n2, n3, n4, hq, ?_⟩
    by_contra hn
    obtain ⟨e, S0, h, _⟩ := h.seen_next hv hs hq hn
    simp at h
  | cons e S ih =>
    obtain ⟨x, w, n1, n2, n3, n4, hq⟩ := (h.ok d (by simp)).quadAt hv
    by_cases hn : Convex4 H d x w
    · exact ⟨d, by simp, x, w, n1, n2, n3, n4, hq, hn⟩
    · obtain ⟨e', S0, h', hs'⟩ := h.seen_next hv hs hq hn
      simp at h'
      obtain ⟨rfl, rfl⟩ := h'
      obtain ⟨y, hy, hh⟩ := ih (P := P ++ [d]) (d := e) (by simpa using h) hs'
      exact ⟨y, by simp at hy ⊢; tauto, hh⟩

theorem Chain.exists_convex (hv : Valid H ts) {N : List EdgeData} (h : Chain H ts a b N) (hN : N ≠ []) :
    ∃ e ∈ N, ∃ x w n1 n2 n3 n4, QuadAt H ts e x w n1 n2 n3 n4 ∧ Convex4 H e x w := by
  cases N with
  | nil => exact absurd rfl hN
  | cons d S => exact Chain.exists_convex' (P := []) hv h h.seen_first

/-- After a swap that keeps the chain's length the sweep goes on. -/
theorem Chain.flip_seen (hv : Valid H ts) (h : Chain H ts a b (P ++ d :: S)) (hs : Seen H ts b d)
    (hf : FlipSpec ts ts' d.f d.t x d.edge.src d.edge.dst w n1 n2 n3 n4) (hpc : x ≠ w)
    (hE : Ed H a b x w ∨ Ed H a b w x) :
    ∃ e S0, S.map (·.upd n3 n1 d.f d.t) = e :: S0 ∧ Seen H ts' b e := by
  obtain ⟨x', T, j1, j2, j3, hT, hR, hs⟩ := hs
  obtain ⟨T', hT', hR'⟩ := hf.hs
  rw [hT] at hT'; simp at hT'; subst hT'
  obtain rfl := hv.rot_unique hT hR hR'
  obtain ⟨⟨a1, a2, a3, a4⟩, ⟨b1, b2, b3, b4⟩, c12, c34, c13⟩ := hf.outer_ne hv hpc
  have hso := hf.s_ne_o hv
  obtain ⟨t1, ht1, hR1⟩ := hf.hs'
  obtain ⟨t2, ht2, hR2⟩ := hf.ho'
  rcases h.after hv hf.ho with ⟨rfl, rfl⟩ | ⟨e, S0, rfl, hA⟩
  · rcases hE with hE | hE
    · exact absurd rfl hE.ne.2.2.2.1
    · exact absurd rfl hE.ne.2.1
  · refine ⟨_, _, List.map_cons, ?_⟩
    have hne := (h.ok e (by simp)).2
    rcases hA with ⟨g1, rfl, g⟩ | ⟨g1, rfl, g⟩
    · have e1 : (⟨d.t, n3, ⟨d.edge.src, w⟩⟩ : EdgeData).upd n3 n1 d.f d.t = ⟨d.f, n3, ⟨d.edge.src, w⟩⟩ := by
        clear * - hso a1 a2 a3 a4 b1 b2 b3 b4 c12 c34 c13 hne
        grind [EdgeData.upd]
      rw [e1]
      refine ⟨x', t1, _, _, _, ht1, hR1, hs.1, ?_⟩
      rcases hE with hE | hE
      · rw [HP.o_swap']; linarith [hE.sb]
      · linarith [hE.su]
    · have e1 : (⟨d.t, n4, ⟨w, d.edge.dst⟩⟩ : EdgeData).upd n3 n1 d.f d.t = ⟨d.t, n4, ⟨w, d.edge.dst⟩⟩ := by
        clear * - hso a1 a2 a3 a4 b1 b2 b3 b4 c12 c34 c13 hne
        grind [EdgeData.upd]
      rw [e1]
      refine ⟨x', t2, _, _, _, ht2, hR2, ?_, hs.2⟩
      rcases hE with hE | hE
      · linarith [hE.sv]
      · rw [HP.o_swap]; linarith [hE.sb]

/-! ## Both orientations of a queue entry -/

/-- The entry seen from the other triangle. -/
def rev (e : EdgeData) : EdgeData := ⟨e.t, e.f, ⟨e.edge.dst, e.edge.src⟩⟩

/-- The entry oriented from the right of the constraint to its left. -/
def can (H : Nat → HP K) (a b : Nat) (e : EdgeData) : EdgeData :=
  if HP.o (H a) (H b) (H e.edge.src) < 0 then e else rev e

theorem FlipSpec.symm {s o p a b c n1 n2 n3 n4 : Nat} (hf : FlipSpec ts ts' s o p a b c n1 n2 n3 n4)
    (hv : Valid H ts) (hpc : p ≠ c) : FlipSpec ts ts' o s c b a p n3 n4 n1 n2 := by
  obtain ⟨t1, ht1, hR1⟩ := hf.hs
  obtain ⟨t2, ht2, hR2⟩ := hf.ho
  obtain ⟨t3, ht3, hR3⟩ := hf.hs'
  obtain ⟨t4, ht4, hR4⟩ := hf.ho'
  refine ⟨⟨t2, ht2, hR2.next.next⟩, ⟨t1, ht1, hR1.next⟩, ⟨t4, ht4, hR4.next⟩, ⟨t3, ht3, hR3.next.next⟩, hf.len, ?_⟩
  intro i h1 h2
  rw [hf.other i h2 h1]
  have := (hf.outer_ne hv hpc).2.2.2.2
  by_cases e1 : n1 ≠ NONE ∧ i = n1
  · rw [if_pos e1, if_neg, if_pos e1]
    rintro ⟨_, h⟩
    exact this e1.1 (e1.2.symm.trans h)
  · rw [if_neg e1, if_neg e1]

theorem upd_symm (e : EdgeData) {s o n1 n3 : Nat} (hso : o ≠ s) (a1 : n1 ≠ s) (a3 : n3 ≠ s) (b1 : n1 ≠ o) (b3 : n3 ≠ o)
    (c13 : n1 ≠ NONE → n1 ≠ n3) : e.upd n3 n1 s o = e.upd n1 n3 o s := by
  grind [EdgeData.upd]

theorem upd_rev (e : EdgeData) {s o n1 n3 : Nat} (hso : o ≠ s) (a1 : n1 ≠ s) (a3 : n3 ≠ s) (b1 : n1 ≠ o) (b3 : n3 ≠ o)
    (c13 : n1 ≠ NONE → n1 ≠ n3) : (rev e).upd n3 n1 s o = rev (e.upd n3 n1 s o) := by
  grind [EdgeData.upd, rev]

theorem can_upd (e : EdgeData) {s o n1 n3 : Nat} (hso : o ≠ s) (a1 : n1 ≠ s) (a3 : n3 ≠ s) (b1 : n1 ≠ o) (b3 : n3 ≠ o)
    (c13 : n1 ≠ NONE → n1 ≠ n3) : can H a b (e.upd n3 n1 s o) = (can H a b e).upd n3 n1 s o := by
  unfold can
  rw [upd_fields]
  split
  · rfl
  · rw [upd_rev e hso a1 a3 b1 b3 c13]

theorem QuadAt.mk' (hv : Valid H ts) {d : EdgeData} {p c n1 n2 n3 n4 : Nat}
    (hs : ∃ S, ts[d.f]? = some S ∧ Rot S p d.edge.src d.edge.dst n2 d.t n1)
    (ho : ∃ U, ts[d.t]? = some U ∧ Rot U d.edge.dst d.edge.src c d.f n3 n4) : QuadAt H ts d p c n1 n2 n3 n4 := by
  obtain ⟨S, hS, hRS⟩ := hs
  obtain ⟨U, hU, hRU⟩ := ho
  refine ⟨⟨S, hS, hRS⟩, ⟨U, hU, hRU⟩, ?_, hRU.pos_iff.1 (hv.pos _ _ hU), hRS.pos_iff.1 (hv.pos _ _ hS)⟩
  have e1 := (hv.pos _ _ hS).has_ne hRS.has1
  have e2 := (hv.pos _ _ hS).has_ne hRS.has3
  have f1 := (hv.pos _ _ hU).has_ne hRU.has2
  have f2 := (hv.pos _ _ hU).has_ne hRU.has3
  unfold EdgeData.toQuad
  simp only [getI_of hS, getI_of hU, Res.ok_bind]
  have q1 := (oppVertexId_rot2 hRS.next (Ne.symm e1) e2).1
  have q2 := (oppVertexId_rot2 hRU (Ne.symm f2) f1).2
  rw [show d.edge = ⟨d.edge.src, d.edge.dst⟩ from rfl, q1, q2]

theorem QuadAt.rev (hv : Valid H ts) {d : EdgeData} {p c n1 n2 n3 n4 : Nat} (h : QuadAt H ts d p c n1 n2 n3 n4) :
    QuadAt H ts (rev d) c p n3 n4 n1 n2 := by
  obtain ⟨S, hS, hRS⟩ := h.s
  obtain ⟨U, hU, hRU⟩ := h.o
  exact .mk' hv ⟨U, hU, hRU.next.next⟩ ⟨S, hS, hRS.next⟩

theorem convex4_rev {d : EdgeData} {p c : Nat} : Convex4 H (rev d) c p ↔ Convex4 H d p c := by
  unfold Convex4 rev
  simp only
  rw [HP.o_cyc (H p) (H c) (H d.edge.dst), HP.o_cyc' (H p) (H d.edge.src) (H c)]
  exact and_comm

theorem QuadAt.unique (hv : Valid H ts) {d : EdgeData} {p c n1 n2 n3 n4 p' c' n1' n2' n3' n4' : Nat}
    (h : QuadAt H ts d p c n1 n2 n3 n4) (h' : QuadAt H ts d p' c' n1' n2' n3' n4') : p = p' ∧ c = c' := by
  obtain ⟨S, hS, hRS⟩ := h.s
  obtain ⟨U, hU, hRU⟩ := h.o
  obtain ⟨S', hS', hRS'⟩ := h'.s
  obtain ⟨U', hU', hRU'⟩ := h'.o
  rw [hS] at hS'; simp at hS'; subst hS'
  rw [hU] at hU'; simp at hU'; subst hU'
  exact ⟨hv.rot_unique hS hRS hRS', hv.rot_unique hU hRU.next.next hRU'.next.next⟩

/-- All about a popped entry, in its canonical orientation. -/
theorem can_quad (hv : Valid H ts) {d0 : EdgeData} {p c n1 n2 n3 n4 : Nat} (hq : QuadAt H ts d0 p c n1 n2 n3 n4) :
    ∃ x w m1 m2 m3 m4, QuadAt H ts (can H a b d0) x w m1 m2 m3 m4 ∧ (Convex4 H d0 p c ↔ Convex4 H (can H a b d0) x w) ∧
      (∀ ts', FlipSpec ts ts' d0.f d0.t p d0.edge.src d0.edge.dst c n1 n2 n3 n4 → p ≠ c →
        FlipSpec ts ts' (can H a b d0).f (can H a b d0).t x (can H a b d0).edge.src (can H a b d0).edge.dst w m1 m2 m3 m4 ∧
        (∀ e, can H a b (e.upd n3 n1 d0.f d0.t) = (can H a b e).upd m3 m1 (can H a b d0).f (can H a b d0).t)) ∧
      ((x = p ∧ w = c ∧ can H a b d0 = d0) ∨ (x = c ∧ w = p ∧ can H a b d0 = rev d0)) := by
  have key : ∀ ts', FlipSpec ts ts' d0.f d0.t p d0.edge.src d0.edge.dst c n1 n2 n3 n4 → p ≠ c →
      (∀ e, can H a b (e.upd n3 n1 d0.f d0.t) = (can H a b e).upd n3 n1 d0.f d0.t) ∧
      (∀ e : EdgeData, e.upd n3 n1 d0.f d0.t = e.upd n1 n3 d0.t d0.f) := by
    intro ts' hf hpc
    obtain ⟨⟨a1, a2, a3, a4⟩, ⟨b1, b2, b3, b4⟩, c12, c34, c13⟩ := hf.outer_ne hv hpc
    have hso := hf.s_ne_o hv
    exact ⟨fun e => can_upd e hso a1 a3 b1 b3 c13, fun e => upd_symm e hso a1 a3 b1 b3 c13⟩
  by_cases hs : HP.o (H a) (H b) (H d0.edge.src) < 0
  · have e : can H a b d0 = d0 := if_pos hs
    rw [e]
    exact ⟨p, c, n1, n2, n3, n4, hq, Iff.rfl, fun ts' hf hpc => ⟨hf, (key ts' hf hpc).1⟩, .inl ⟨rfl, rfl, rfl⟩⟩
  · have e : can H a b d0 = rev d0 := if_neg hs
    rw [e]
    refine ⟨c, p, n3, n4, n1, n2, hq.rev hv, convex4_rev.symm, fun ts' hf hpc => ⟨hf.symm hv hpc, fun e => ?_⟩, .inr ⟨rfl, rfl, rfl⟩⟩
    rw [(key ts' hf hpc).1, (key ts' hf hpc).2]
    rfl

/-- An entry whose quad is not convex. -/
def NonConv (H : Nat → HP K) (ts : List Tri) (d : EdgeData) : Prop :=
  ∃ p c n1 n2 n3 n4, QuadAt H ts d p c n1 n2 n3 n4 ∧ ¬ Convex4 H d p c

theorem NonConv.can (hv : Valid H ts) {d : EdgeData} (h : NonConv H ts d) : NonConv H ts (can H a b d) := by
  obtain ⟨p, c, n1, n2, n3, n4, hq, hn⟩ := h
  obtain ⟨x, w, m1, m2, m3, m4, h1, h2, -⟩ := can_quad (a := a) (b := b) hv hq
  exact ⟨x, w, m1, m2, m3, m4, h1, fun h => hn (h2.2 h)⟩

end

/-! ## The loop -/

section
variable {K : Type} [Field K] [LinearOrder K] [IsStrictOrderedRing K] [ExactParams K] [IdCfg]
variable {vs : List (Vtx K)} {a b : Nat}
open Plane

/-- Invariant of `remove_crossed_edges` with `f` iterations left; `F`: no unbounded edge is crossed. -/
structure XInv (vs : List (Vtx K)) (a b : Nat) (U : Nat → Nat → Prop) (m0 : Nat) (F : Prop) (s : RC) (f : Nat) : Prop where
  m : MInv vs s.ts s.v2t
  ex : ∃ P S, s.isects.map (can (hp vs) a b) = S ++ P ∧ Chain (hp vs) s.ts a b (P ++ S) ∧
    (F → ∀ e ∈ P ++ S, e.edge.src < INF0 ∧ e.edge.dst < INF0) ∧
    (S.length + (P ++ S).length ^ 2 ≤ f ∨
      ((∃ d S0, S = d :: S0 ∧ Seen (hp vs) s.ts b d) ∧ S.length + (P ++ S).length * ((P ++ S).length - 1) ≤ f))
  nc : ∃ Q1 Q2, s.isects = Q1 ++ Q2 ∧ Q2.length = s.nonConvex ∧ ∀ e ∈ Q2, NonConv (hp vs) s.ts e
  done : s.isects ≠ [] ∨ ∃ d ∈ s.diags, d.edge.undirEq ⟨a, b⟩ = true
  unb : F → Unb U s.ts
  cnt : s.isects.length + s.diags.length = m0

theorem sq_sub (N : Nat) (h : 1 ≤ N) : N ^ 2 = N + N * (N - 1) := by
  obtain ⟨k, rfl⟩ : ∃ k, N = k + 1 := ⟨N - 1, by omega⟩
  simp only [Nat.add_sub_cancel]; ring

theorem sq_sub' (N : Nat) (h : 1 ≤ N) : (N - 1) ^ 2 ≤ N * (N - 1) := by
  obtain ⟨k, rfl⟩ : ∃ k, N = k + 1 := ⟨N - 1, by omega⟩
  simp only [Nat.add_sub_cancel]; nlinarith

/-- One iteration: panics only on an unbounded edge, otherwise gets closer to the end. -/
theorem XInv.step (hu : ∀ v ∈ vs, InUnit v) (hn : vs.length ≤ INF0) {A B : Vtx K} (ha : vs[a]? = some A) (hb : vs[b]? = some B)
    {U : Nat → Nat → Prop} {m0 : Nat} {F : Prop} {s : RC} {f : Nat} (h : XInv vs a b U m0 F s f) {d0 : EdgeData} {rest : List EdgeData} (he : s.isects = d0 :: rest) :
    (¬ F ∧ removeStep vs (A, B) d0 { s with isects := rest } = .panic) ∨
    ∃ s', removeStep vs (A, B) d0 { s with isects := rest } = .ok s' ∧ 1 ≤ f ∧ XInv vs a b U m0 F s' (f - 1) := by
  have la := lt_of_getElem? ha
  have lb := lt_of_getElem? hb
  have wa := hp_w_fin vs (i := a) (by omega)
  have wb := hp_w_fin vs (i := b) (by omega)
  have hw := fun i => hp_w_nonneg vs i
  have hv := h.m.valid
  -- normalize the sweep
  obtain ⟨P, d, S, hmap, hch, hfin, hpot⟩ : ∃ P d S, s.isects.map (can (hp vs) a b) = d :: S ++ P ∧
      Chain (hp vs) s.ts a b (P ++ d :: S) ∧ (F → ∀ e ∈ P ++ d :: S, e.edge.src < INF0 ∧ e.edge.dst < INF0) ∧
      ((d :: S).length + (P ++ d :: S).length ^ 2 ≤ f ∨ (Seen (hp vs) s.ts b d ∧
        (d :: S).length + (P ++ d :: S).length * ((P ++ d :: S).length - 1) ≤ f)) := by
    obtain ⟨P, S, hmap, hch, hfin, hpot⟩ := h.ex
    cases S with
    | cons d S =>
      refine ⟨P, d, S, hmap, hch, hfin, hpot.imp id ?_⟩
      rintro ⟨⟨d', S0, e, hs⟩, hp⟩
      simp at e
      rw [e.1]
      exact ⟨hs, by rw [← e.1]; exact hp⟩
    | nil =>
      cases P with
      | nil => rw [he] at hmap; simp at hmap
      | cons d P =>
        refine ⟨[], d, P, by simpa using hmap, by simpa using hch, by simpa using hfin, .inr ⟨?_, ?_⟩⟩
        · rw [List.append_nil] at hch; exact hch.seen_first
        · rcases hpot with hp | ⟨⟨_, _, e, _⟩, _⟩
          · have := sq_sub (d :: P).length (by simp)
            simp only [List.append_nil, List.nil_append, List.length_nil, Nat.zero_add] at hp ⊢
            omega
          · simp at e
  have hf1 : 1 ≤ f := by
    rcases hpot with hp | ⟨_, hp⟩ <;> simp only [List.length_cons] at hp <;> omega
  rw [he, List.map_cons, List.cons_append, List.cons.injEq] at hmap
  obtain ⟨hd, hmap⟩ := hmap
  obtain ⟨Q1, Q2, hQ, hQl, hQn⟩ := h.nc
  -- not all quads are reflex
  obtain ⟨Q1, rfl⟩ : ∃ Q, Q1 = d0 :: Q := by
    cases Q1 with
    | nil =>
      exfalso
      obtain ⟨e, hem, x, w, n1, n2, n3, n4, hq, hc⟩ := hch.exists_convex hv (by simp)
      have : e ∈ s.isects.map (can (hp vs) a b) := by
        rw [he, List.map_cons, hd, hmap]
        simp at hem ⊢; tauto
      obtain ⟨e0, h0, rfl⟩ := List.mem_map.1 this
      rw [hQ, List.nil_append] at h0
      obtain ⟨p', c', _, _, _, _, hq', hc'⟩ := (hQn e0 h0).can (a := a) (b := b) hv
      obtain ⟨rfl, rfl⟩ := hq.unique hv hq'
      exact hc' hc
    | cons e Q =>
      rw [he] at hQ; simp at hQ
      exact ⟨Q, by rw [hQ.1]⟩
  have hrest : rest = Q1 ++ Q2 := by rw [he] at hQ; simpa using hQ
  have hnc : s.nonConvex ≤ rest.length := by rw [hrest, ← hQl]; simp
  have hd0 : EOk s.ts d0 := by
    have := hch.ok d (by simp)
    rw [← hd] at this
    unfold can at this
    split at this
    · exact this
    · refine ⟨hv.ent_pos this.1 this.2, ?_⟩
      have l1 : d0.t < s.ts.length := this.1.lt
      have := hv.len
      omega
  obtain ⟨p, c, n1, n2, n3, n4, hq⟩ := hd0.quadAt hv
  obtain ⟨x, w, m1, m2, m3, m4, hq', hcv, hfl, hxw⟩ := can_quad (a := a) (b := b) hv hq
  rw [hd] at hq' hcv hfl hxw
  have hB := hch.before hv hq'.s
  have hA := hch.after hv hq'.o
  have fx : F → x < INF0 := by
    intro hF
    rcases hB with ⟨_, rfl⟩ | ⟨P0, e, rfl, ⟨_, rfl, _⟩ | ⟨_, rfl, _⟩⟩
    · omega
    · exact (hfin hF ⟨m1, d.f, ⟨x, d.edge.dst⟩⟩ (by simp)).1
    · exact (hfin hF ⟨m2, d.f, ⟨d.edge.src, x⟩⟩ (by simp)).2
  have fw : F → w < INF0 := by
    intro hF
    rcases hA with ⟨_, rfl⟩ | ⟨e, S0, rfl, ⟨_, rfl, _⟩ | ⟨_, rfl, _⟩⟩
    · omega
    · exact (hfin hF ⟨d.t, m3, ⟨d.edge.src, w⟩⟩ (by simp)).2
    · exact (hfin hF ⟨d.t, m4, ⟨w, d.edge.dst⟩⟩ (by simp)).1
  rcases removeStep_geo hu hn ha hb (s := { s with isects := rest }) h.m hq hnc with
    ⟨hp, e⟩ | ⟨_, hnc', e⟩ | ⟨_, hc, ts', v2t', hf, hm, hcase⟩
  · left
    refine ⟨fun hF => hp ?_, e⟩
    rcases hxw with ⟨rfl, _, _⟩ | ⟨_, rfl, _⟩
    · exact fx hF
    · exact fw hF
  · right
    refine ⟨_, e, hf1, h.m, ?_, ?_, .inl (by simp), h.unb, by have := h.cnt; rw [he] at this; simpa using this⟩
    · refine ⟨P ++ [d], S, by simp [hmap, hd], by simpa using hch, by simpa using hfin, ?_⟩
      rw [hcv] at hnc'
      have el : (P ++ [d] ++ S).length = (P ++ d :: S).length := by simp
      rw [el]
      rcases hpot with hp | ⟨hs, hp⟩
      · left; rw [List.length_cons] at hp; omega
      · right
        obtain ⟨e, S0, rfl, hs'⟩ := hch.seen_next hv hs hq' hnc'
        exact ⟨⟨e, S0, rfl, hs'⟩, by rw [List.length_cons] at hp; omega⟩
    · refine ⟨Q1, Q2 ++ [d0], by simp [hrest], by simp [hQl], ?_⟩
      intro e he
      rcases List.mem_append.1 he with he | he
      · exact hQn e he
      · simp at he; subst he
        exact ⟨p, c, n1, n2, n3, n4, hq, hnc'⟩
  · right
    have hc' := hcv.1 hc
    obtain ⟨hf', hup⟩ := hfl ts' hf hc.ne
    have hmapU : (rest.map (·.upd n3 n1 d0.f d0.t)).map (can (hp vs) a b) =
        S.map (·.upd m3 m1 d.f d.t) ++ P.map (·.upd m3 m1 d.f d.t) := by
      rw [List.map_map, ← List.map_append, ← hmap, List.map_map]
      refine List.map_congr_left fun e _ => ?_
      exact hup e
    have finU : F → ∀ e ∈ P.map (·.upd m3 m1 d.f d.t) ++ S.map (·.upd m3 m1 d.f d.t), e.edge.src < INF0 ∧ e.edge.dst < INF0 := by
      intro hF e he
      rw [← List.map_append] at he
      obtain ⟨e0, h0, rfl⟩ := List.mem_map.1 he
      rw [upd_fields]
      refine hfin hF e0 ?_
      rcases List.mem_append.1 h0 with h0 | h0 <;> simp only [List.mem_append, List.mem_cons, h0, true_or, or_true]
    have xwpc : (x = p ∧ w = c) ∨ (x = c ∧ w = p) := by
      rcases hxw with ⟨h1, h2, _⟩ | ⟨h1, h2, _⟩
      · exact .inl ⟨h1, h2⟩
      · exact .inr ⟨h1, h2⟩
    have unb' : F → Unb U ts' := fun hF => hf'.unb hv (h.unb hF) (fx hF) (fw hF)
    have cnt' := h.cnt
    rw [he, List.length_cons] at cnt'
    have nocross : ¬ HP.Cross (hp vs a) (hp vs b) (hp vs w) (hp vs x) → ¬ HP.Cross (hp vs a) (hp vs b) (hp vs c) (hp vs p) := by
      rcases xwpc with ⟨rfl, rfl⟩ | ⟨rfl, rfl⟩
      · exact id
      · exact fun h1 h2 => h1 h2.flip
    have canNew : ∀ e : EdgeData, Ed (hp vs) a b e.edge.src e.edge.dst → can (hp vs) a b e = e ∧ can (hp vs) a b (rev e) = e := by
      intro e hE
      refine ⟨if_pos hE.su, ?_⟩
      unfold can
      rw [if_neg (by show ¬ HP.o _ _ (hp vs e.edge.dst) < 0; linarith [hE.sv])]
      rfl
    -- the new entry
    have cross : ∀ m : EdgeData, m = ⟨d.t, d.f, ⟨x, w⟩⟩ ∨ m = ⟨d.f, d.t, ⟨w, x⟩⟩ → Ed (hp vs) a b m.edge.src m.edge.dst →
        Chain (hp vs) ts' a b (P.map (·.upd m3 m1 d.f d.t) ++ m :: S.map (·.upd m3 m1 d.f d.t)) →
        ∃ s', removeStep vs (A, B) d0 { s with isects := rest } = .ok s' ∧ 1 ≤ f ∧ XInv vs a b U m0 F s' (f - 1) := by
      intro m hmm hE hCh
      have hcr : HP.Cross (hp vs a) (hp vs b) (hp vs c) (hp vs p) := by
        have := hE.cross
        rcases hmm with rfl | rfl <;> rcases xwpc with ⟨rfl, rfl⟩ | ⟨rfl, rfl⟩
        · exact this.flip
        · exact this
        · exact this
        · exact this.flip
      rcases hcase with ⟨_, e⟩ | ⟨hnot, _⟩
      swap; · exact absurd hcr hnot
      have hcan : can (hp vs) a b ⟨d0.f, d0.t, ⟨c, p⟩⟩ = m := by
        obtain ⟨k1, k2⟩ := canNew m hE
        rcases hmm with rfl | rfl <;> rcases hxw with ⟨rfl, rfl, hdd⟩ | ⟨rfl, rfl, hdd⟩ <;> subst hdd
        · exact k2
        · exact k1
        · exact k1
        · exact k2
      refine ⟨_, e, hf1, hm, ?_, ⟨_, [], by simp; rfl, rfl, by simp⟩, .inl (by simp), unb', by simpa using cnt'⟩
      refine ⟨P.map (·.upd m3 m1 d.f d.t) ++ [m], S.map (·.upd m3 m1 d.f d.t), ?_, by simpa using hCh, ?_, ?_⟩
      · rw [List.map_append, hmapU]
        simp [hcan]
      · intro hF e he
        simp only [List.append_assoc, List.mem_append, List.mem_singleton] at he
        rcases he with he | he | he
        · exact finU hF e (by simp only [List.mem_append]; exact .inl he)
        · subst he
          rcases hmm with rfl | rfl
          · exact ⟨fx hF, fw hF⟩
          · exact ⟨fw hF, fx hF⟩
        · exact finU hF e (by simp only [List.mem_append]; exact .inr he)
      · have el : (P.map (·.upd m3 m1 d.f d.t) ++ [m] ++ S.map (·.upd m3 m1 d.f d.t)).length = (P ++ d :: S).length := by simp
        rw [el, List.length_map]
        rcases hpot with hp | ⟨hs, hp⟩
        · left; rw [List.length_cons] at hp; omega
        · right
          refine ⟨hch.flip_seen hv hs hf' hc'.ne ?_, by rw [List.length_cons] at hp; omega⟩
          rcases hmm with rfl | rfl
          · exact .inl hE
          · exact .inr hE
    rcases hch.flip wa wb hw hv hf' hc' with ⟨hE, hCh⟩ | ⟨hE, hCh⟩ | ⟨hno, hCh⟩
    · exact cross _ (.inl rfl) hE hCh
    · exact cross _ (.inr rfl) hE hCh
    · rcases hcase with ⟨hcr, _⟩ | ⟨_, e⟩
      · exact absurd hcr (nocross hno)
      refine ⟨_, e, hf1, hm, ?_, ⟨_, [], by simp; rfl, rfl, by simp⟩, ?_, unb', by simp; omega⟩
      · refine ⟨_, _, hmapU, hCh, finU, .inl ?_⟩
        have el : (P.map (·.upd m3 m1 d.f d.t) ++ S.map (·.upd m3 m1 d.f d.t)).length = (P ++ d :: S).length - 1 := by simp
        rw [el, List.length_map]
        have k1 := sq_sub' (P ++ d :: S).length (by rw [List.length_append, List.length_cons]; omega)
        have k2 := sq_sub (P ++ d :: S).length (by rw [List.length_append, List.length_cons]; omega)
        rcases hpot with hp | ⟨hs, hp⟩ <;> rw [List.length_cons] at hp <;> omega
      · by_cases hr : rest = []
        · right
          refine ⟨⟨d0.f, d0.t, ⟨c, p⟩⟩, by simp, ?_⟩
          rw [hr] at hmap
          simp at hmap
          have hx : x = a := by
            rcases hB with ⟨_, h⟩ | ⟨_, _, h, _⟩
            · exact h
            · simp [hmap.2] at h
          have hw' : w = b := by
            rcases hA with ⟨_, h⟩ | ⟨_, _, h, _⟩
            · exact h
            · simp [hmap.1] at h
          rw [undirEq_iff]
          rcases xwpc with ⟨rfl, rfl⟩ | ⟨rfl, rfl⟩
          · right; exact ⟨hw', hx⟩
          · left; rw [hx, hw']
        · left; simpa using hr

/-- `remove_crossed_edges` from a chain: it ends, with the constraint among the new diagonals, unless an
unbounded edge is crossed. -/
theorem XInv.run (hu : ∀ v ∈ vs, InUnit v) (hn : vs.length ≤ INF0) {A B : Vtx K} (ha : vs[a]? = some A) (hb : vs[b]? = some B)
    {U : Nat → Nat → Prop} {m0 : Nat} {F : Prop} {s : RC} {f : Nat} (h : XInv vs a b U m0 F s f) {fuel : Nat} (hfu : f ≤ fuel) :
    (¬ F ∧ removeCrossed vs (A, B) fuel s = .panic) ∨
    ∃ s', removeCrossed vs (A, B) fuel s = .ok s' ∧ (∃ d ∈ s'.diags, d.edge.undirEq ⟨a, b⟩ = true) ∧
      (F → Unb U s'.ts) ∧ s'.diags.length = m0 := by
  induction fuel generalizing s f with
  | zero =>
    cases he : s.isects with
    | nil =>
      right
      refine ⟨s, by simp [removeCrossed, he], ?_, h.unb, by have := h.cnt; rw [he] at this; simpa using this⟩
      rcases h.done with h | h
      · exact absurd he h
      · exact h
    | cons d rest =>
      obtain ⟨P, S, hmap, -, -, hp⟩ := h.ex
      exfalso
      have hl : (P ++ S).length = (d :: rest).length := by
        rw [he] at hmap
        have := congrArg List.length hmap
        simp at this ⊢; omega
      rw [hl] at hp
      rw [List.length_cons] at hp
      rcases hp with hp | ⟨⟨d', S0, e, _⟩, hp⟩
      · have : 0 < (rest.length + 1) ^ 2 := by positivity
        omega
      · rw [e, List.length_cons] at hp; omega
  | succ fuel ih =>
    cases he : s.isects with
    | nil =>
      right
      refine ⟨s, by simp [removeCrossed, he], ?_, h.unb, by have := h.cnt; rw [he] at this; simpa using this⟩
      rcases h.done with h | h
      · exact absurd he h
      · exact h
    | cons d rest =>
      simp only [removeCrossed, he]
      rcases h.step hu hn ha hb he with ⟨h1, h2⟩ | ⟨s', h1, h2, h3⟩
      · left; rw [h2]; exact ⟨h1, rfl⟩
      · rw [h1, Res.ok_bind]
        exact ih h3 (by omega)

end

end CDT

import Verif.Geo.CdtLoop

/-! # Registration of the crossed edges: a strip of triangles from one end to the other -/

set_option linter.unusedSectionVars false
set_option linter.unusedSimpArgs false
set_option linter.unusedVariables false

namespace CDT

section
variable {K : Type} [Field K] [LinearOrder K] [IsStrictOrderedRing K] [IdCfg]
variable {H : Nat → HP K} {ts : List Tri} {a b : Nat}

/-- The directed edge `u v` is properly crossed by the segment from `a` to `b`, from its right to its left. -/
structure Ed (H : Nat → HP K) (a b u v : Nat) : Prop where
  su : HP.o (H a) (H b) (H u) < 0
  sv : 0 < HP.o (H a) (H b) (H v)
  sa : 0 < HP.o (H u) (H v) (H a)
  sb : HP.o (H u) (H v) (H b) < 0

theorem Ed.symm {u v : Nat} (h : Ed H a b u v) : Ed H b a v u := by
  obtain ⟨h1, h2, h3, h4⟩ := h
  refine ⟨?_, ?_, ?_, ?_⟩ <;> rw [HP.o_swap] <;> linarith

theorem Ed.cross {u v : Nat} (h : Ed H a b u v) : HP.Cross (H a) (H b) (H u) (H v) :=
  ⟨mul_neg_of_neg_of_pos h.su h.sv, mul_neg_of_pos_of_neg h.sa h.sb⟩

theorem ed_w {u v : Nat} (wa : (H a).w = 1) (wb : (H b).w = 1) :
    HP.o (H u) (H v) (H a) - HP.o (H u) (H v) (H b) =
      HP.o (H a) (H b) (H v) * (H u).w - HP.o (H a) (H b) (H u) * (H v).w := by
  have e := HP.bary_w (H u) (H v) (H a) (H b)
  rw [wa, wb, HP.o_cyc' (H a) (H b) (H v), HP.o_swap (H u) (H a) (H b), HP.o_cyc' (H a) (H b) (H u)] at e
  linarith

theorem Ed.of_cross {u v : Nat} (wa : (H a).w = 1) (wb : (H b).w = 1) (wu : 0 ≤ (H u).w) (wv : 0 ≤ (H v).w)
    (hc : HP.Cross (H a) (H b) (H u) (H v))
    (h : 0 < HP.o (H u) (H v) (H a) ∨ HP.o (H a) (H b) (H u) < 0 ∨ 0 < HP.o (H a) (H b) (H v)) : Ed H a b u v := by
  have e := ed_w (u := u) (v := v) wa wb
  obtain ⟨h1, h2⟩ := hc
  rcases mul_neg_iff.1 h1 with ⟨x1, x2⟩ | ⟨x1, x2⟩ <;> rcases mul_neg_iff.1 h2 with ⟨y1, y2⟩ | ⟨y1, y2⟩
  · exfalso
    have := mul_nonpos_of_nonpos_of_nonneg x2.le wu
    have := mul_nonneg x1.le wv
    linarith
  · exfalso
    rcases h with h | h | h <;> linarith
  · exact ⟨x1, x2, y1, y2⟩
  · exfalso
    have := mul_nonneg x2.le wu
    have := mul_nonpos_of_nonpos_of_nonneg x1.le wv
    linarith

theorem Ed.ne {u v : Nat} (h : Ed H a b u v) : u ≠ a ∧ u ≠ b ∧ v ≠ a ∧ v ≠ b ∧ u ≠ v := by
  refine ⟨?_, ?_, ?_, ?_, ?_⟩ <;> rintro rfl
  · have := h.su; rw [HP.o_same''] at this; exact lt_irrefl _ this
  · have := h.su; rw [HP.o_same'] at this; exact lt_irrefl _ this
  · have := h.sv; rw [HP.o_same''] at this; exact lt_irrefl _ this
  · have := h.sv; rw [HP.o_same'] at this; exact lt_irrefl _ this
  · have := h.su; have := h.sv; linarith

/-! ## Entries of a chain are different -/

/-- A chain of an injective relation whose first element has no predecessor has no repetition. -/
theorem chain_nodup {α : Type} {R : α → α → Prop} (inj : ∀ x y z, R x z → R y z → x = y) {x : α} {l : List α}
    (hc : List.IsChain R (x :: l)) (h0 : ∀ y, ¬ R y x) : (x :: l).Nodup := by
  rw [List.nodup_iff_getElem?_ne_getElem?]
  have hR : ∀ i u v, (x :: l)[i]? = some u → (x :: l)[i + 1]? = some v → R u v := by
    intro i u v hu hv
    rw [List.isChain_iff_getElem] at hc
    obtain ⟨h1, rfl⟩ := List.getElem?_eq_some_iff.1 hu
    obtain ⟨h2, rfl⟩ := List.getElem?_eq_some_iff.1 hv
    exact hc i h2
  intro i
  induction i with
  | zero =>
    intro j hij hj he
    obtain ⟨j, rfl⟩ : ∃ k, j = k + 1 := ⟨j - 1, by omega⟩
    have h1 := List.getElem?_eq_getElem hj
    have h2 := List.getElem?_eq_getElem (show j < (x :: l).length by omega)
    refine h0 _ (hR j _ x h2 ?_)
    rw [← he]; rfl
  | succ i ih =>
    intro j hij hj he
    obtain ⟨j, rfl⟩ : ∃ k, j = k + 1 := ⟨j - 1, by omega⟩
    have h1 := List.getElem?_eq_getElem hj
    have h2 := List.getElem?_eq_getElem (show j < (x :: l).length by omega)
    have h3 := List.getElem?_eq_getElem (show i < (x :: l).length by omega)
    have e := inj _ _ _ (hR i _ _ h3 (he.trans h1)) (hR j _ _ h2 h1)
    exact ih j (by omega) (by omega) (by rw [h2, h3, e])

/-- A triangle has at most one edge going from the right side of a line to its left side. -/
theorem Valid.side_unique (hv : Valid H ts) {x y : HP K} {i u v j u' v' j' : Nat} (h : Ent ts i u v j) (h' : Ent ts i u' v' j')
    (hu : HP.o x y (H u) < 0) (hv1 : 0 < HP.o x y (H v)) (hu' : HP.o x y (H u') < 0) (hv' : 0 < HP.o x y (H v')) :
    u = u' ∧ v = v' ∧ j = j' := by
  obtain ⟨t, ht, hh⟩ := h
  obtain ⟨t', ht', hh'⟩ := h'
  rw [ht] at ht'; simp at ht'; subst ht'
  rcases hh with ⟨rfl, rfl, rfl⟩ | ⟨rfl, rfl, rfl⟩ | ⟨rfl, rfl, rfl⟩ <;>
    rcases hh' with ⟨rfl, rfl, rfl⟩ | ⟨rfl, rfl, rfl⟩ | ⟨rfl, rfl, rfl⟩ <;>
    first
    | exact ⟨rfl, rfl, rfl⟩
    | (exfalso; linarith)

/-- All entries are crossed in the same direction, each leads to the next, the first starts at a triangle with
vertex `a`: the entries are different edges, and few. -/
theorem chain_dis (hv : Valid H ts) {d : EdgeData} {l : List EdgeData} (hok : ∀ e ∈ d :: l, EOk ts e)
    (hed : ∀ e ∈ d :: l, HP.o (H a) (H b) (H e.edge.src) < 0 ∧ 0 < HP.o (H a) (H b) (H e.edge.dst))
    (hc : List.IsChain (fun e e' => e.t = e'.f) (d :: l))
    (h0 : ∃ T j1 j2 j3, ts[d.f]? = some T ∧ Rot T a d.edge.src d.edge.dst j1 j2 j3) :
    (d :: l).Pairwise Dis ∧ l.length < ts.length := by
  let R : EdgeData → EdgeData → Prop := fun e e' => EOk ts e ∧ EOk ts e' ∧ e.t = e'.f ∧
    HP.o (H a) (H b) (H e.edge.src) < 0 ∧ 0 < HP.o (H a) (H b) (H e.edge.dst) ∧
    HP.o (H a) (H b) (H e'.edge.src) < 0 ∧ 0 < HP.o (H a) (H b) (H e'.edge.dst)
  let N : Nat → Nat → Prop := fun i j => ∃ u v, Ent ts i u v j ∧ j ≠ NONE ∧ HP.o (H a) (H b) (H u) < 0 ∧ 0 < HP.o (H a) (H b) (H v)
  have hN : ∀ e ∈ d :: l, N e.f e.t := fun e he => ⟨_, _, (hok e he).1, (hok e he).2, hed e he⟩
  have inj : ∀ x y z, N x z → N y z → x = y := by
    rintro x y z ⟨u, v, h1, h2, h3, h4⟩ ⟨u', v', g1, g2, g3, g4⟩
    have r1 := hv.ent_pos h1 h2
    have r2 := hv.ent_pos g1 g2
    exact (hv.side_unique r1 r2 (x := H b) (y := H a) (by rw [HP.o_swap]; linarith) (by rw [HP.o_swap]; linarith)
      (by rw [HP.o_swap]; linarith) (by rw [HP.o_swap]; linarith)).2.2
  have hch : List.IsChain N ((d :: l).map (·.f)) := by
    rw [List.isChain_map]
    rw [List.isChain_iff_getElem] at hc ⊢
    intro i hi
    have := hc i hi
    show N _ _
    rw [← this]
    exact hN _ (List.getElem_mem _)
  have hno : ∀ y, ¬ N y d.f := by
    rintro y ⟨u, v, h1, h2, h3, h4⟩
    obtain ⟨T, j1, j2, j3, hT, hR⟩ := h0
    have hr := hv.ent_pos h1 h2
    obtain ⟨t', ht', hh⟩ := hr
    rw [hT] at ht'; simp at ht'; subst ht'
    have e0 := HP.o_same'' (H a) (H b)
    have ed := hed d (by simp)
    rcases hR.has_iff.1 hh with ⟨e1, e2, -⟩ | ⟨e1, e2, -⟩ | ⟨e1, e2, -⟩
    · rw [← e1, e0] at h4; exact lt_irrefl _ h4
    · rw [← e1] at h4; linarith [ed.1]
    · rw [← e2, e0] at h3; exact lt_irrefl _ h3
  have nd := chain_nodup inj hch hno
  rw [← List.map_cons] at nd
  constructor
  · rw [List.Nodup, List.pairwise_map] at nd
    refine List.Pairwise.imp_of_mem ?_ nd
    intro e e' he he' hne
    rintro (⟨h1, h2⟩ | ⟨h1, h2⟩)
    · exact hne h1
    · have r := hv.ent_pos (hok e' he').1 (hok e' he').2
      rw [← h1, ← h2] at r
      have := hv.nb_unique (hok e he).1 r (hok e he).2
      have x1 := hed e he
      have x2 := hed e' he'
      rw [this.1] at x1
      linarith [x1.1, x2.2]
  · have hlt : ∀ i ∈ (d :: l).map (·.f), i ∈ List.range ts.length := by
      intro i hi
      obtain ⟨e, he, rfl⟩ := List.mem_map.1 hi
      exact List.mem_range.2 (hok e he).1.lt
    have := (List.subperm_of_subset nd hlt).length_le
    simp at this
    omega

end

/-! ## The registered edges -/

section
variable {K : Type} [Field K] [LinearOrder K] [IsStrictOrderedRing K] [ExactParams K] [IdCfg]
variable {vs : List (Vtx K)} {ts : List Tri} {ce : Edge}
open Plane

theorem undirEq_iff (e o : Edge) : e.undirEq o = true ↔ e = o ∨ (e.src = o.dst ∧ e.dst = o.src) := by
  unfold Edge.undirEq; simp

theorem registerLoop_geo (hu : ∀ v ∈ vs, InUnit v) (hn : vs.length ≤ INF0) (hv : Valid (hp vs) ts)
    (hok : VertsIn (VOk vs.length) ts) {A B : Vtx K} (ha : vs[ce.src]? = some A) (hb : vs[ce.dst]? = some B)
    {n : Nat} {d : EdgeData} {l : List EdgeData} (hd : EOk ts d) (he : Ed (hp vs) ce.src ce.dst d.edge.src d.edge.dst)
    (h : registerLoop vs ts ce (A, B) n d = .ok l) :
    (∀ e ∈ l, EOk ts e ∧ Ed (hp vs) ce.src ce.dst e.edge.src e.edge.dst) ∧
    List.IsChain (fun e e' => e.t = e'.f) (d :: l) ∧
    (l.length < n → ∀ e, (d :: l).getLast? = some e → ∃ T, ts[e.t]? = some T ∧ T.hasVert ce.dst = true) := by
  have la := lt_of_getElem? ha
  have lb := lt_of_getElem? hb
  have wa := hp_w_fin vs (i := ce.src) (by omega)
  have wb := hp_w_fin vs (i := ce.dst) (by omega)
  induction n generalizing d l with
  | zero => simp [registerLoop] at h; subst h; simp
  | succ n ih =>
    simp only [registerLoop, Res.bind_eq_ok] at h
    obtain ⟨t, ht, h⟩ := h
    rw [getI_eq_ok] at ht
    obtain ⟨t', ht', hh⟩ := hv.ent_pos hd.1 hd.2
    rw [ht] at ht'; simp at ht'; subst ht'
    obtain ⟨w, j2, j3, hR⟩ := hh.rot
    split at h
    · rename_i hB
      simp at h; subst h
      refine ⟨by simp, by simp, fun _ e he' => ?_⟩
      simp at he'; subst he'
      exact ⟨t, ht, hB⟩
    · rw [Res.bind_eq_ok] at h
      obtain ⟨o, ho, h⟩ := h
      split at h
      · rename_i d' _
        rw [Res.bind_eq_ok] at h
        obtain ⟨rest, hr, h⟩ := h
        simp at h; subst h
        obtain ⟨k, rfl, hne, hx, hnn⟩ := nextIsect_ok ho
        -- the edge in the triangle
        have hE : Ent ts d.t (t.v k) (t.v (k + 1)) (t.n k) := ⟨t, ht, has_k t k⟩
        have ek : t.edge k = ⟨t.v k, t.v (k + 1)⟩ := by fin_cases k <;> rfl
        have hvk := Ent.vok hok hE
        rw [ek] at hx hne
        obtain ⟨r, hr1, hr2⟩ := edgeIsect_spec (e := ⟨t.v k, t.v (k + 1)⟩) hu hn hvk.1 hvk.2 ha hb
        rw [hx] at hr1; simp at hr1; subst hr1
        have hcr := hr2.1 rfl
        simp only at hcr
        have hw := fun i => hp_w_nonneg vs i
        have hcase : (t.v k = d.edge.src ∧ t.v (k + 1) = w ∧ t.n k = j2) ∨ (t.v k = w ∧ t.v (k + 1) = d.edge.dst ∧ t.n k = j3) := by
          rcases hR.has_iff.1 (has_k t k) with ⟨h1, h2, h3⟩ | ⟨h1, h2, h3⟩ | ⟨h1, h2, h3⟩
          · exfalso
            rw [← h1, ← h2] at hne
            have := (undirEq_iff ⟨d.edge.dst, d.edge.src⟩ d.edge).2 (.inr ⟨rfl, rfl⟩)
            rw [hne] at this; simp at this
          · exact .inl ⟨h1.symm, h2.symm, h3.symm⟩
          · exact .inr ⟨h1.symm, h2.symm, h3.symm⟩
        have hEd : Ed (hp vs) ce.src ce.dst (t.v k) (t.v (k + 1)) := by
          refine .of_cross wa wb (hw _) (hw _) hcr ?_
          rcases hcase with ⟨h1, h2, _⟩ | ⟨h1, h2, _⟩
          · right; left; rw [h1]; exact he.su
          · right; right; rw [h2]; exact he.sv
        have hok' : EOk ts ⟨d.t, t.n k, t.edge k⟩ := ⟨by rw [ek]; exact hE, hnn⟩
        obtain ⟨i1, i2, i3⟩ := ih hok' (by rw [ek]; exact hEd) hr
        refine ⟨?_, ?_, ?_⟩
        · intro e hem
          rcases List.mem_cons.1 hem with rfl | hem
          · exact ⟨hok', by rw [ek]; exact hEd⟩
          · exact i1 e hem
        · rw [List.isChain_cons_cons]; exact ⟨rfl, i2⟩
        · intro hl
          simp at hl
          intro e hem
          rw [List.getLast?_cons_cons] at hem
          exact i3 hl e hem
      · simp at h

/-- What the search around the first vertex found. -/
structure FirstAt (vs : List (Vtx K)) (ts : List Tri) (a b : Nat) (d : EdgeData) : Prop where
  ok : EOk ts d
  tri : ∃ T j1 j3, ts[d.f]? = some T ∧ Rot T a d.edge.src d.edge.dst j1 d.t j3
  ed : Ed (hp vs) a b d.edge.src d.edge.dst

theorem vertexIndex_rot4 {H : Nat → HP K} {T : Tri} {x : Nat} (hT : T.hasVert x = true) (hp' : Pos H T) :
    ∃ u v j1 j2 j3, Rot T x u v j1 j2 j3 ∧ T.edge (oppEdgeIdx (T.vertexIndex x)) = ⟨u, v⟩ ∧
      T.n (oppEdgeIdx (T.vertexIndex x)) = j2 ∧ T.n (outerCwEdge (T.vertexIndex x)) = j3 ∧
      T.n (outerCcwEdge (T.vertexIndex x)) = j1 := by
  obtain ⟨v1, v2, v3, n1, n2, n3⟩ := T
  obtain ⟨e1, e2, e3⟩ := hp'.ne
  rw [hasVert_iff] at hT
  simp only at hT e1 e2 e3
  rcases hT with rfl | rfl | rfl
  · refine ⟨v2, v3, n1, n2, n3, .inl rfl, ?_⟩
    simp [Tri.vertexIndex, oppEdgeIdx, outerCwEdge, outerCcwEdge, Tri.n, Tri.edge, Tri.v, edgeToVert0, edgeToVert1, edgeToVert0, edgeToVert1]
  · refine ⟨v3, v1, n2, n3, n1, .inr (.inl rfl), ?_⟩
    simp [Tri.vertexIndex, oppEdgeIdx, outerCwEdge, outerCcwEdge, Tri.n, Tri.edge, Tri.v, edgeToVert0, edgeToVert1, e1]
  · refine ⟨v1, v2, n3, n1, n2, .inr (.inr rfl), ?_⟩
    simp [Tri.vertexIndex, oppEdgeIdx, outerCwEdge, outerCcwEdge, Tri.n, Tri.edge, Tri.v, edgeToVert0, edgeToVert1, e2, e3, Ne.symm e3]

theorem loopAround_geo (hu : ∀ v ∈ vs, InUnit v) (hn : vs.length ≤ INF0) (hv : Valid (hp vs) ts)
    (hok : VertsIn (VOk vs.length) ts) {A B : Vtx K} (ha : vs[ce.src]? = some A) (hb : vs[ce.dst]? = some B)
    {next : Fin 3 → Fin 3} (hnext : next = outerCwEdge ∨ next = outerCcwEdge) {start n i tid : Nat} {T : Tri}
    (hT : ts[tid]? = some T) (hTa : T.hasVert ce.src = true) {r : First}
    (h : loopAround vs ts start ce (A, B) next n i tid = .ok r) :
    (∀ d, r = .isect d → FirstAt vs ts ce.src ce.dst d) ∧
    (r = .already → ∃ (i : Nat) (T : Tri), ts[i]? = some T ∧ T.hasVert ce.src = true ∧ T.hasVert ce.dst = true) := by
  have la := lt_of_getElem? ha
  have lb := lt_of_getElem? hb
  have wa := hp_w_fin vs (i := ce.src) (by omega)
  have wb := hp_w_fin vs (i := ce.dst) (by omega)
  induction n generalizing i tid T with
  | zero => simp [loopAround] at h; subst h; simp
  | succ n ih =>
    simp only [loopAround] at h
    split at h
    · simp at h
    · simp only [getI_of hT, Res.ok_bind] at h
      obtain ⟨u, v, j1, j2, j3, hR, e1, e2, e3, e4⟩ := vertexIndex_rot4 hTa (hv.pos _ _ hT)
      split at h
      · rename_i hB
        simp at h; subst h
        exact ⟨by simp, fun _ => ⟨tid, T, hT, hTa, hB⟩⟩
      · rw [e1, e2] at h
        have hE : Ent ts tid u v j2 := ⟨T, hT, hR.has2⟩
        have hvk := Ent.vok hok hE
        obtain ⟨x, x1, x2⟩ := edgeIsect_spec (e := ⟨u, v⟩) hu hn hvk.1 hvk.2 ha hb
        rw [x1, Res.ok_bind] at h
        split at h
        · rename_i hx
          split at h
          · simp at h
          · rename_i hN
            simp at h; subst h
            refine ⟨?_, by simp⟩
            rintro d hd
            simp at hd; subst hd
            refine ⟨⟨hE, hN⟩, ⟨T, j1, j3, hT, hR⟩, ?_⟩
            refine .of_cross wa wb (hp_w_nonneg vs _) (hp_w_nonneg vs _) (x2.1 hx) (.inl ?_)
            rw [HP.o_cyc]
            exact hR.pos_iff.1 (hv.pos _ _ hT)
        · split at h
          · simp at h; subst h; simp
          · rename_i hN
            rcases hnext with rfl | rfl
            · rw [e3] at h hN
              obtain ⟨T', hT', hh⟩ := hv.ent_pos (i := tid) ⟨T, hT, hR.has3⟩ hN
              obtain ⟨_, _, _, hR'⟩ := hh.rot
              exact ih hT' (hR'.hasVert.2 (by simp)) h
            · rw [e4] at h hN
              obtain ⟨T', hT', hh⟩ := hv.ent_pos (i := tid) ⟨T, hT, hR.has1⟩ hN
              obtain ⟨_, _, _, hR'⟩ := hh.rot
              exact ih hT' (hR'.hasVert.2 (by simp)) h

/-- The result of a successful registration: nothing if a triangle has both vertices, or the strip of edges
crossed by the constraint. -/
theorem registerEdges_geo (hu : ∀ v ∈ vs, InUnit v) (hn : vs.length ≤ INF0) {v2t : List Nat} (hm : MInv vs ts v2t)
    {A B : Vtx K} (ha : vs[ce.src]? = some A) (hb : vs[ce.dst]? = some B) (hocc : Occ ts ce.src) {l : List EdgeData}
    (h : registerEdges vs ts ce (A, B) v2t = .ok l) :
    (l = [] ∧ ∃ (i : Nat) (T : Tri), ts[i]? = some T ∧ T.hasVert ce.src = true ∧ T.hasVert ce.dst = true) ∨
    (∃ d rest, l = d :: rest ∧ FirstAt vs ts ce.src ce.dst d ∧
      (∀ e ∈ l, EOk ts e ∧ Ed (hp vs) ce.src ce.dst e.edge.src e.edge.dst) ∧ l.Pairwise Dis ∧ l.length ≤ ts.length ∧
      List.IsChain (fun e e' => e.t = e'.f) l ∧
      ∀ e, l.getLast? = some e → ∃ T, ts[e.t]? = some T ∧ T.hasVert ce.dst = true) := by
  have la := lt_of_getElem? ha
  obtain ⟨k, T, hk, hT, hTa⟩ := hm.v2t.2 _ la hocc
  have first : ∀ r, searchFirst vs ts ce (A, B) k = .ok r →
      (∀ d, r = .isect d → FirstAt vs ts ce.src ce.dst d) ∧
      (r = .already → ∃ (i : Nat) (T : Tri), ts[i]? = some T ∧ T.hasVert ce.src = true ∧ T.hasVert ce.dst = true) := by
    intro r hr
    unfold searchFirst at hr
    rw [Res.bind_eq_ok] at hr
    obtain ⟨r1, hr1, hr⟩ := hr
    have g1 := loopAround_geo hu hn hm.valid hm.ok ha hb (.inl rfl) hT hTa hr1
    split at hr
    · simp at hr; subst hr; exact g1
    · simp at hr; subst hr; exact g1
    · simp only [getI_of hT, Res.ok_bind] at hr
      obtain ⟨u, v, j1, j2, j3, hR, e1, e2, e3, e4⟩ := vertexIndex_rot4 hTa (hm.valid.pos _ _ hT)
      rw [e4] at hr
      have hE : Ent ts k ce.src u j1 := ⟨T, hT, hR.has1⟩
      have hN : j1 ≠ NONE := by
        intro hN
        rcases hm.valid.adj _ _ _ _ hE with h | h
        · omega
        · exact h.1 hN
      obtain ⟨T', hT', hh⟩ := hm.valid.ent_pos hE hN
      obtain ⟨_, _, _, hR'⟩ := hh.rot
      exact loopAround_geo hu hn hm.valid hm.ok ha hb (.inr rfl) hT' (hR'.hasVert.2 (by simp)) hr
  unfold registerEdges at h
  rw [getI_of hk, Res.ok_bind, Res.bind_eq_ok] at h
  obtain ⟨f, hf, h⟩ := h
  obtain ⟨f1, f2⟩ := first f hf
  split at h
  · simp at h; subst h; exact .inl ⟨rfl, f2 rfl⟩
  · simp at h
  · rename_i d
    rw [Res.bind_eq_ok] at h
    obtain ⟨rest, hr, h⟩ := h
    simp at h; subst h
    have hF := f1 d rfl
    obtain ⟨g1, g2, g3⟩ := registerLoop_geo hu hn hm.valid hm.ok ha hb hF.ok hF.ed hr
    have hall : ∀ e ∈ d :: rest, EOk ts e ∧ Ed (hp vs) ce.src ce.dst e.edge.src e.edge.dst := by
      intro e he
      rcases List.mem_cons.1 he with rfl | he
      · exact ⟨hF.ok, hF.ed⟩
      · exact g1 e he
    obtain ⟨T0, q1, q3, hT0, hR0⟩ := hF.tri
    obtain ⟨c1, c2⟩ := chain_dis hm.valid (fun e he => (hall e he).1) (fun e he => ⟨(hall e he).2.su, (hall e he).2.sv⟩) g2
      ⟨T0, q1, _, q3, hT0, hR0⟩
    exact .inr ⟨d, rest, rfl, hF, hall, c1, by simp; omega, g2, g3 c2⟩

end

end CDT

import Verif.Geo.BoxCount
import Verif.Geo.HullMesh

/-! # A mesh that covers a convex region: one unbounded triangle per vertex on the border of the region -/

set_option linter.unusedSectionVars false
set_option linter.unusedSimpArgs false
set_option linter.unusedVariables false

namespace CDT

section
variable {K : Type} [Field K] [LinearOrder K] [IsStrictOrderedRing K] [ExactParams K] [IdCfg]
variable {vs : List (Vtx K)} {ts : List Tri} {E : List (HP K × HP K)} {P : HP K} {a b c : Nat}

theorem TriIn.ne (h : TriIn ts a b c) (hv : Valid (hp vs) ts) : a ≠ b := by
  rintro rfl
  have := h.pos hv
  rw [HP.o_same] at this
  exact lt_irrefl _ this

/-- Some line through the vertex has all vertices of the mesh on one side. -/
def Supp (vs : List (Vtx K)) (ts : List Tri) (u : Nat) : Prop :=
  ∃ d : HP K, d.w = 0 ∧ (d.x ≠ 0 ∨ d.y ≠ 0) ∧ ∀ q, Occ ts q → q < INF0 → 0 ≤ HP.o (hp vs u) d (hp vs q)

/-- The vertices of the mesh on the border of its convex hull. -/
noncomputable def edgeIds (vs : List (Vtx K)) (ts : List Tri) : Finset Nat := by
  classical
  exact (Finset.range INF0).filter fun u => Occ ts u ∧ Supp vs ts u

theorem mem_edgeIds {u : Nat} : u ∈ edgeIds vs ts ↔ u < INF0 ∧ Occ ts u ∧ Supp vs ts u := by
  simp [edgeIds]

/-- The numbers of the triangles with one artificial vertex. -/
noncomputable def hullIdx (ts : List Tri) : Finset Nat := by
  classical
  exact (Finset.range ts.length).filter fun i => ∃ (u v z : Nat), TriNo ts i u v z ∧ u < INF0 ∧ v < INF0 ∧ ¬ z < INF0

theorem mem_hullIdx {i : Nat} : i ∈ hullIdx ts ↔ ∃ (u v z : Nat), TriNo ts i u v z ∧ u < INF0 ∧ v < INF0 ∧ ¬ z < INF0 := by
  simp only [hullIdx, Finset.mem_filter, Finset.mem_range]
  exact ⟨fun h => h.2, fun h => ⟨by obtain ⟨_, _, _, h, -⟩ := h; exact h.lt, h⟩⟩

/-- The triangle towards another vertex has a real vertex besides. -/
theorem fin_link (hv : Valid (hp vs) ts) (ht : Tiled vs ts) {u w : Nat} (hu : u < INF0) (ho : Occ ts u) (hw : w < INF0) (how : Occ ts w)
    (hne : u ≠ w) : ∃ x v, TriIn ts u x v ∧ x < INF0 := by
  by_contra hno
  have hno : ∀ {x v}, TriIn ts u x v → ¬ x < INF0 := fun {x v} h1 h2 => hno ⟨x, v, h1, h2⟩
  have wu := hp_w_fin vs hu
  have ww := hp_w_fin vs hw
  obtain ⟨s, S, hS, hSu⟩ := ho
  have ho : Occ ts u := ⟨s, S, hS, hSu⟩
  obtain ⟨y, hy⟩ : ∃ y, HP.o (hp vs u) (hp vs w) y ≠ 0 := by
    by_contra hc
    push Not at hc
    have c1 := hc ⟨1, 0, 0⟩
    have c2 := hc ⟨0, 1, 0⟩
    simp only [HP.o, wu, ww] at c1 c2
    refine hne (occ_inj hv ht hw ho how ?_)
    ext
    · linarith
    · linarith
    · rw [wu, ww]
  obtain ⟨m, m1, m2, m3, hwd⟩ := Star.wedge (K := K) hv hu (⟨S, hS, hSu⟩ : Star ts u s)
  obtain ⟨k, hk, T, x, v, j1, j2, j3, hT, hR, o1, o2⟩ := hwd (hp vs w) y hy
  have hTI : TriIn ts u x v := ⟨_, T, _, _, _, hT, hR⟩
  have fx := hno hTI
  by_cases fv : v < INF0
  · -- the next triangle starts with `v`
    obtain ⟨T', v', _, _, hT', hR', -, hst, hf, -⟩ := (Star.iter hv hu (⟨S, hS, hSu⟩ : Star ts u s) k).next hv hu
    have e : T' = T := by have := hT'.symm.trans hT; simpa using this
    subst e
    have := TriNo.same ⟨T', _, _, _, hT', hR'⟩ ⟨T', _, _, _, hT', hR⟩
    have n1 := hTI.ne hv
    have n2 := hTI.next.next.ne hv
    have e2 : v' = v := by omega
    subst e2
    obtain ⟨U, v'', _, _, hU, hRU, -⟩ := hst.next hv hu
    rw [hf] at hRU
    exact hno ⟨_, U, _, _, _, hU, hRU⟩ fv
  · have pos := hTI.pos hv
    have := vert_of_in hv ht hw how hT hR o1
      (by rw [HP.o_inf2 (hp_w_inf vs fx) (hp_w_inf vs fv) (p := hp vs w) (q := hp vs u) ww wu, HP.o_cyc]; exact pos.le)
      (by rw [HP.o_swap]; linarith)
    rcases hR.hasVert.1 this with e | e | e
    · exact hne e
    · exact fx (e ▸ hw)
    · exact fv (e ▸ hw)

/-- A vertex on the border of the convex hull is the first end of an edge with an unbounded triangle. -/
theorem Supp.start (hv : Valid (hp vs) ts) (ht : Tiled vs ts) {u w : Nat} (hs : Supp vs ts u) (hu : u < INF0) (ho : Occ ts u) (hw : w < INF0)
    (how : Occ ts w) (hne : u ≠ w) : ∃ v z, v < INF0 ∧ ¬ z < INF0 ∧ TriIn ts u v z := by
  by_contra hno
  have hno : ∀ {v z}, TriIn ts u v z → v < INF0 → z < INF0 := fun {v z} h1 h2 => by
    by_contra h3; exact hno ⟨v, z, h2, h3, h1⟩
  have wu := hp_w_fin vs hu
  obtain ⟨d, wd, dne, hside⟩ := hs
  obtain ⟨x, v, ⟨t, T, j1, j2, j3, hT, hR⟩, hfin⟩ := fin_link hv ht hu ho hw how hne
  have hTI : TriIn ts u x v := ⟨_, T, _, _, _, hT, hR⟩
  -- all triangles around the vertex are finite
  have ht : Star ts u t := ⟨T, hT, hR.hasVert.2 (.inl rfl)⟩
  have hstep : ∀ n, fst ts u ((nx ts u)^[n] t) < INF0 := by
    intro n
    induction n with
    | zero =>
      obtain ⟨T', v', _, _, hT', hR', -⟩ := ht.next hv hu
      have e : T' = T := by have := hT'.symm.trans hT; simpa using this
      subst e
      have := TriNo.same ⟨T', _, _, _, hT', hR'⟩ ⟨T', _, _, _, hT', hR⟩
      have n1 := hTI.ne hv
      have n2 := hTI.next.next.ne hv
      simp only [Function.iterate_zero, id_eq]
      omega
    | succ n ih =>
      obtain ⟨T', v', _, _, hT', hR', -, -, hf, -⟩ := (ht.iter hv hu n).next hv hu
      rw [Function.iterate_succ_apply', hf]
      exact hno ⟨_, T', _, _, _, hT', hR'⟩ ih
  -- the triangle that points away from the line
  let Q : HP K := ⟨(hp vs u).x - d.y, (hp vs u).y + d.x, 1⟩
  have hsq : 0 < d.x ^ 2 + d.y ^ 2 := by
    rcases dne with h | h
    · have := sq_pos_of_ne_zero h; have := sq_nonneg d.y; linarith
    · have := sq_pos_of_ne_zero h; have := sq_nonneg d.x; linarith
  have hQl : HP.o (hp vs u) d Q = - (d.x ^ 2 + d.y ^ 2) := by simp only [HP.o, Q, wu, wd]; ring
  obtain ⟨m, -, -, -, hwd⟩ := Star.wedge (K := K) hv hu ht
  obtain ⟨n, -, U, a, b, i1, i2, i3, hU, hRU, q1, q2⟩ := hwd Q d (by rw [HP.o_swap', hQl]; simpa using hsq.ne')
  have hUI : TriIn ts u a b := ⟨_, U, _, _, _, hU, hRU⟩
  have fa : a < INF0 := by
    obtain ⟨T', v', _, _, hT', hR', -⟩ := (ht.iter hv hu n).next hv hu
    have e : T' = U := by have := hT'.symm.trans hU; simpa using this
    subst e
    have := TriNo.same ⟨T', _, _, _, hT', hR'⟩ ⟨T', _, _, _, hT', hRU⟩
    have n1 := hUI.ne hv
    have n2 := hUI.next.next.ne hv
    have := hstep n
    omega
  have fb := hno hUI fa
  have pos := hUI.pos hv
  have va := hside a hUI.next.occ fa
  have vb := hside b hUI.next.next.occ fb
  have p := HP.plucker (hp vs u) d (hp vs a) (hp vs b) Q
  have m1 := mul_neg_of_neg_of_pos (by rw [hQl]; linarith : HP.o (hp vs u) d Q < 0) pos
  have m2 := mul_nonneg va (by linarith : 0 ≤ - HP.o (hp vs u) (hp vs b) Q)
  have m3 := mul_nonneg vb q1
  linarith

/-- The first end of a hull edge is on the border. -/
theorem CoverMesh.start_border (h : CoverMesh vs ts E) {u v z : Nat} (hT : TriIn ts u v z) (hz : ¬ z < INF0) : ¬ Reg E (hp vs u) := by
  intro hR
  have pos := hT.pos h.valid
  refine h.far hR hT (fun hh => hz hh.2.2) ?_ ?_ ?_
  · rw [HP.o_same'']
  · rw [HP.o_cyc]; exact pos.le
  · rw [HP.o_same']

/-- A vertex on the border is the first end of at most one hull edge. -/
theorem CoverMesh.start_unique (h : CoverMesh vs ts E) (hP : Reg E P) {u v v' z z' : Nat} (hu : u < INF0) (hv : v < INF0) (hv' : v' < INF0)
    (hz : ¬ z < INF0) (hz' : ¬ z' < INF0) (h1 : TriIn ts u v z) (h2 : TriIn ts u v' z') : v = v' := by
  have wu := hp_w_fin vs hu
  have wv := hp_w_fin vs hv
  have wv' := hp_w_fin vs hv'
  have s1 := h.side hP h1 hv hu hz h2.next.occ hv'
  have s2 := h.side hP h2 hv' hu hz' h1.next.occ hv
  have n1 := h.hull hP h1 hv hu hz
  have n2 := h.hull hP h2 hv' hu hz'
  have p1 := h1.pos h.valid
  have p2 := h2.pos h.valid
  have col : HP.o (hp vs u) (hp vs v) (hp vs v') = 0 := by
    have e1 : HP.o (hp vs v) (hp vs u) (hp vs v') = - HP.o (hp vs u) (hp vs v) (hp vs v') := by simp only [HP.o]; ring
    have e2 : HP.o (hp vs v') (hp vs u) (hp vs v) = HP.o (hp vs u) (hp vs v) (hp vs v') := by simp only [HP.o]; ring
    linarith
  have e1 : HP.o (hp vs v) (hp vs u) P = - HP.o (hp vs u) (hp vs v) P := HP.o_swap _ _ _
  have e2 : HP.o (hp vs v') (hp vs u) P = - HP.o (hp vs u) (hp vs v') P := HP.o_swap _ _ _
  have rel : ∀ i : Nat, HP.o (hp vs u) (hp vs v') P * HP.o (hp vs u) (hp vs v) (hp vs i) = HP.o (hp vs u) (hp vs v) P * HP.o (hp vs u) (hp vs v') (hp vs i) := by
    intro i
    have := HP.plucker (hp vs u) (hp vs v) (hp vs v') P (hp vs i)
    rw [col, zero_mul] at this
    linarith
  have along : ∀ i : Nat, ¬ i < INF0 → HP.o (hp vs v) (hp vs v') (hp vs i) = HP.o (hp vs u) (hp vs v') (hp vs i) - HP.o (hp vs u) (hp vs v) (hp vs i) := by
    intro i hi
    have wi := hp_w_inf vs hi
    simp only [HP.o, wu, wv, wv', wi]; ring
  rw [e1] at n1
  rw [e2] at n2
  -- the nearer one of the two is in the triangle of the other one
  rcases le_total (HP.o (hp vs u) (hp vs v) P) (HP.o (hp vs u) (hp vs v') P) with hle | hle
  · -- `v` is further
    have hb : HP.o (hp vs u) (hp vs v') (hp vs z) ≤ HP.o (hp vs u) (hp vs v) (hp vs z) := by
      have := rel z
      by_contra hc
      rw [not_le] at hc
      have q1 := mul_lt_mul_of_neg_left hc (by linarith : HP.o (hp vs u) (hp vs v) P < 0)
      have q2 := mul_le_mul_of_nonneg_right hle p1.le
      linarith
    have hp' : 0 < HP.o (hp vs u) (hp vs v') (hp vs z) := by
      have := rel z
      by_contra hc
      have q1 := mul_nonneg_of_nonpos_of_nonpos (by linarith : HP.o (hp vs u) (hp vs v) P ≤ 0) (not_lt.1 hc)
      have q2 := mul_neg_of_neg_of_pos (by linarith : HP.o (hp vs u) (hp vs v') P < 0) p1
      linarith
    obtain ⟨i, T, j1, j2, j3, hT, hR⟩ := h1
    have := vert_of_in h.valid h.tiled hv' h2.next.occ hT hR (by rw [col])
      (by rw [HP.o_cyc (hp vs v') (hp vs v) (hp vs z)] ; rw [HP.o_swap, along z hz]; linarith)
      (by rw [HP.o_cyc' (hp vs u) (hp vs v') (hp vs z)]; exact hp'.le)
    rcases hR.hasVert.1 this with e | e | e
    · have := h2.ne h.valid; omega
    · exact e
    · omega
  · have hb : HP.o (hp vs u) (hp vs v) (hp vs z') ≤ HP.o (hp vs u) (hp vs v') (hp vs z') := by
      have := rel z'
      by_contra hc
      rw [not_le] at hc
      have q1 := mul_lt_mul_of_neg_left hc (by linarith : HP.o (hp vs u) (hp vs v') P < 0)
      have q2 := mul_le_mul_of_nonneg_right hle p2.le
      linarith
    have hp' : 0 < HP.o (hp vs u) (hp vs v) (hp vs z') := by
      have := rel z'
      by_contra hc
      have q1 := mul_nonneg_of_nonpos_of_nonpos (by linarith : HP.o (hp vs u) (hp vs v') P ≤ 0) (not_lt.1 hc)
      have q2 := mul_neg_of_neg_of_pos (by linarith : HP.o (hp vs u) (hp vs v) P < 0) p2
      linarith
    obtain ⟨i, T, j1, j2, j3, hT, hR⟩ := h2
    have := vert_of_in h.valid h.tiled hv h1.next.occ hT hR
      (by have : HP.o (hp vs u) (hp vs v') (hp vs v) = - HP.o (hp vs u) (hp vs v) (hp vs v') := by simp only [HP.o]; ring
          rw [this, col]; simp)
      (by rw [HP.o_cyc (hp vs v) (hp vs v') (hp vs z'), along z' hz']; linarith)
      (by rw [HP.o_cyc' (hp vs u) (hp vs v) (hp vs z')]; exact hp'.le)
    rcases hR.hasVert.1 this with e | e | e
    · have := h1.ne h.valid; omega
    · exact e.symm
    · omega

/-- The first end of a hull edge is on the border of the convex hull. -/
theorem CoverMesh.start_supp (h : CoverMesh vs ts E) (hP : Reg E P) {u v z : Nat} (hu : u < INF0) (hv : v < INF0) (hz : ¬ z < INF0)
    (hT : TriIn ts u v z) : Supp vs ts u := by
  have wu := hp_w_fin vs hu
  have wv := hp_w_fin vs hv
  refine ⟨⟨(hp vs u).x - (hp vs v).x, (hp vs u).y - (hp vs v).y, 0⟩, rfl, ?_, fun q hq fq => ?_⟩
  · by_contra hc
    simp only [not_or, not_not] at hc
    have pos := hT.pos h.valid
    have : hp vs u = hp vs v := by
      ext
      · linarith [hc.1]
      · linarith [hc.2]
      · rw [wu, wv]
    rw [this, HP.o_same] at pos
    exact lt_irrefl _ pos
  · have := h.side hP hT hv hu hz hq fq
    have wq := hp_w_fin vs fq
    have e : HP.o (hp vs u) ⟨(hp vs u).x - (hp vs v).x, (hp vs u).y - (hp vs v).y, 0⟩ (hp vs q) = HP.o (hp vs v) (hp vs u) (hp vs q) := by
      simp only [HP.o, wu, wv, wq]; ring
    rw [e]; exact this

/-- Every vertex is a corner of a finite triangle. -/
theorem CoverMesh.fin_at (h : CoverMesh vs ts E) (hP : Reg E P) {u : Nat} (hu : u < INF0) (ho : Occ ts u) :
    ∃ x v, TriIn ts u x v ∧ x < INF0 ∧ v < INF0 := by
  have wu := hp_w_fin vs hu
  obtain ⟨s, S, hS, hSu⟩ := ho
  have ho : Occ ts u := ⟨s, S, hS, hSu⟩
  by_cases hR : Reg E (hp vs u)
  · obtain ⟨x, v, j1, j2, j3, hRot, -⟩ := vertexIndex_rot4 hSu (h.valid.pos _ _ hS)
    have hTI : TriIn ts u x v := ⟨s, S, _, _, _, hS, hRot⟩
    by_contra hno
    refine h.far hR hTI (fun hh => hno ⟨x, v, hTI, hh.2⟩) ?_ ?_ ?_
    · rw [HP.o_same'']
    · rw [HP.o_cyc]; exact (hTI.pos h.valid).le
    · rw [HP.o_same']
  obtain ⟨y, hy⟩ : ∃ y, HP.o (hp vs u) P y ≠ 0 := by
    by_contra hc
    push Not at hc
    have c1 := hc ⟨1, 0, 0⟩
    have c2 := hc ⟨0, 1, 0⟩
    simp only [HP.o, wu, hP.1] at c1 c2
    have ex : (hp vs u).x = P.x := by linarith
    have ey : (hp vs u).y = P.y := by linarith
    refine hR ⟨wu, fun l hl => ?_⟩
    have : HP.o l.1 l.2 P = HP.o l.1 l.2 (hp vs u) := by simp only [HP.o, wu, hP.1, ex, ey]
    rw [← this]; exact hP.2 l hl
  obtain ⟨m, m1, m2, m3, hw⟩ := Star.wedge (K := K) h.valid hu (⟨S, hS, hSu⟩ : Star ts u s)
  obtain ⟨k, hk, T, x, v, j1, j2, j3, hT, hRot, o1, o2⟩ := hw P y hy
  have hTI : TriIn ts u x v := ⟨_, T, _, _, _, hT, hRot⟩
  by_contra hno
  have pos := hTI.pos h.valid
  obtain ⟨d, hd, hn⟩ := HP.pull_near (a := hp vs x) (b := hp vs v) (P := hp vs u) (A := P) (by rw [HP.o_cyc]; exact pos)
  obtain ⟨e, he, hed⟩ := exists_between (lt_min one_pos hd)
  rw [lt_min_iff] at hed
  refine h.far (hP.mix_closed wu (h.verts u ho hu) he hed.1) hTI (fun hh => hno ⟨x, v, hTI, hh.2⟩) ?_ (hn e he hed.2).le ?_
  · rw [HP.o_pull, HP.o_same'', mul_zero, zero_add]; exact mul_nonneg he.le o1
  · rw [HP.o_pull, HP.o_same', mul_zero, zero_add, HP.o_swap]; exact mul_nonneg he.le (by linarith)

/-- On the border of the convex hull is the same as not strictly inside the lines. -/
theorem CoverMesh.supp_iff (h : CoverMesh vs ts E) (hP : Reg E P) {u : Nat} (hu : u < INF0) (ho : Occ ts u) :
    Supp vs ts u ↔ ¬ Reg E (hp vs u) := by
  have wu := hp_w_fin vs hu
  constructor
  · intro hs
    obtain ⟨x, v, hT, fx, fv⟩ := h.fin_at hP hu ho
    obtain ⟨v, z, fv, fz, hT⟩ := hs.start h.valid h.tiled hu ho fx hT.next.occ (hT.ne h.valid)
    exact h.start_border hT fz
  · intro hb
    obtain ⟨l, hl, hl0⟩ : ∃ l ∈ E, HP.o l.1 l.2 (hp vs u) = 0 := by
      by_contra hc
      push Not at hc
      exact hb ⟨wu, fun l hl => lt_of_le_of_ne (h.verts u ho hu l hl) (hc l hl).symm⟩
    have hlP := hP.2 l hl
    let d : HP K := ⟨l.1.w * l.2.x - l.2.w * l.1.x, l.1.w * l.2.y - l.2.w * l.1.y, 0⟩
    have key : ∀ Q : HP K, Q.w = 1 → HP.o (hp vs u) d Q = HP.o l.1 l.2 Q := by
      intro Q wQ
      have : HP.o l.1 l.2 Q = HP.o (hp vs u) d Q + HP.o l.1 l.2 (hp vs u) := by simp only [HP.o, d, wu, wQ]; ring
      rw [this, hl0, add_zero]
    refine ⟨d, rfl, ?_, fun q hq fq => by rw [key _ (hp_w_fin vs fq)]; exact h.verts q hq fq l hl⟩
    by_contra hc
    simp only [not_or, not_not] at hc
    have := key P hP.1
    have e : HP.o (hp vs u) d P = 0 := by
      have d0 : d.w = 0 := rfl
      simp only [HP.o, hc.1, hc.2, d0]; ring
    linarith

/-- The artificial vertices of a triangle with a real one follow each other. -/
theorem dir_next {A : HP K} (hA : A.w = 1) {k l : Fin 4} (h : 0 < HP.o A (HP.dir k) (HP.dir l)) : l = k + 1 := by
  fin_cases k <;> fin_cases l <;> simp [HP.o, HP.dir, hA] at h ⊢ <;> linarith

/-- The triangles by the number of their artificial vertices. -/
theorem mesh_kinds (hv : Valid (hp vs) ts) (ht : Tiled vs ts)
    (hinf : ∀ q, Occ ts q → ¬ q < INF0 → ∃ k : Fin 4, q = INF0 + k)
    (hout : ∀ k : Fin 4, ∃ i, Ent ts i (INF0 + k) (INF0 + (k + 1 : Fin 4)) NONE) :
    ts.length = ts.countP (·.isFinite) + (hullIdx ts).card + 4 := by
  classical
  let A0 := (Finset.range ts.length).filter fun i => ts[i]?.any (·.isFinite) = true
  let A2 := (Finset.range ts.length).filter fun i => ∃ (v : Nat) (k l : Fin 4), TriNo ts i v (INF0 + k) (INF0 + l)
  have m0 : ∀ {i}, i ∈ A0 ↔ i < ts.length ∧ ∃ T, ts[i]? = some T ∧ T.isFinite = true := fun {i} => by
    simp only [A0, Finset.mem_filter, Finset.mem_range, Option.any_eq_true]
  have m2 : ∀ {i}, i ∈ A2 ↔ ∃ (v : Nat) (k l : Fin 4), TriNo ts i v (INF0 + k) (INF0 + l) := fun {i} => by
    simp only [A2, Finset.mem_filter, Finset.mem_range]
    exact ⟨fun h => h.2, fun h => ⟨by obtain ⟨_, _, _, h⟩ := h; exact h.lt, h⟩⟩
  have inf : ∀ k : Fin 4, ¬ INF0 + (k : Nat) < INF0 := fun k => by omega
  have cone : ∀ {v : Nat} {k l : Fin 4}, TriIn ts v (INF0 + k) (INF0 + l) → v < INF0 ∧ l = k + 1 := by
    intro v k l hT
    have pos := hT.pos hv
    have fv : v < INF0 := by
      by_contra fv
      rw [HP.o_inf3 (hp_w_inf vs fv) (hp_w_inf vs (inf k)) (hp_w_inf vs (inf l))] at pos
      exact lt_irrefl _ pos
    refine ⟨fv, dir_next (hp_w_fin vs fv) ?_⟩
    rw [hp_inf, hp_inf] at pos
    exact pos
  -- the three kinds
  have hsplit : Finset.range ts.length = (A0 ∪ hullIdx ts) ∪ A2 := by
    ext i
    simp only [Finset.mem_union, Finset.mem_range]
    constructor
    · intro hi
      obtain ⟨T, hT⟩ : ∃ T, ts[i]? = some T := ⟨_, List.getElem?_eq_getElem hi⟩
      have t0 : TriNo ts i T.v1 T.v2 T.v3 := ⟨T, _, _, _, hT, rot_self T⟩
      -- a triangle with an infinite vertex in the last place
      have key : ∀ {a b z}, TriNo ts i a b z → ¬ z < INF0 → i ∈ hullIdx ts ∨ i ∈ A2 := by
        intro a b z hz fz
        by_cases fa : a < INF0
        · by_cases fb : b < INF0
          · exact .inl (mem_hullIdx.2 ⟨a, b, z, hz, fa, fb, fz⟩)
          · obtain ⟨k, rfl⟩ := hinf z hz.tri.next.next.occ fz
            obtain ⟨l, rfl⟩ := hinf b hz.tri.next.occ fb
            exact .inr (m2.2 ⟨a, l, k, hz⟩)
        · obtain ⟨k, rfl⟩ := hinf z hz.tri.next.next.occ fz
          obtain ⟨l, rfl⟩ := hinf a hz.tri.occ fa
          exact .inr (m2.2 ⟨b, k, l, hz.next⟩)
      by_cases f1 : T.v1 < INF0
      · by_cases f2 : T.v2 < INF0
        · by_cases f3 : T.v3 < INF0
          · exact .inl (.inl (m0.2 ⟨hi, T, hT, by simp [Tri.isFinite, isFin_iff, f1, f2, f3]⟩))
          · rcases key t0 f3 with h | h <;> simp [h]
        · rcases key t0.next.next f2 with h | h <;> simp [h]
      · rcases key t0.next f1 with h | h <;> simp [h]
    · rintro ((h | h) | h)
      · exact (m0.1 h).1
      · obtain ⟨_, _, _, h, -⟩ := mem_hullIdx.1 h; exact h.lt
      · obtain ⟨_, _, _, h⟩ := m2.1 h; exact h.lt
  have fin0 : ∀ {i a b c}, i ∈ A0 → TriNo ts i a b c → a < INF0 ∧ b < INF0 ∧ c < INF0 := by
    intro i a b c h1 h2
    obtain ⟨-, T, hT, hf⟩ := m0.1 h1
    simp only [Tri.isFinite, Bool.and_eq_true, isFin_iff] at hf
    rcases TriNo.same h2 ⟨T, _, _, _, hT, rot_self T⟩ with h | h | h <;> omega
  have d01 : Disjoint A0 (hullIdx ts) := Finset.disjoint_left.2 fun i h0 h1 => by
    obtain ⟨u, v, z, h1, -, -, fz⟩ := mem_hullIdx.1 h1
    exact fz (fin0 h0 h1).2.2
  have d2 : Disjoint (A0 ∪ hullIdx ts) A2 := Finset.disjoint_left.2 fun i h01 h2 => by
    obtain ⟨v, k, l, h2⟩ := m2.1 h2
    rcases Finset.mem_union.1 h01 with h | h
    · exact inf l (fin0 h h2).2.2
    · obtain ⟨u, v, z, h1, fu, fv, fz⟩ := mem_hullIdx.1 h
      rcases TriNo.same h1 h2 with h | h | h <;> omega
  -- the four quadrants
  have c2 : A2.card = 4 := by
    choose f hf using hout
    have hf' : ∀ k, ∃ v, TriNo ts (f k) v (INF0 + k) (INF0 + (k + 1 : Fin 4)) := fun k => by
      obtain ⟨T, hT, hh⟩ := hf k
      obtain ⟨c, _, _, hR⟩ := hh.rot
      exact ⟨c, T, _, _, _, hT, hR.next.next⟩
    have := Finset.card_bij (s := (Finset.univ : Finset (Fin 4))) (t := A2) (fun k _ => f k)
      (fun k _ => by obtain ⟨v, h⟩ := hf' k; exact m2.2 ⟨v, k, k + 1, h⟩)
      (fun k _ l _ e => by
        obtain ⟨v, h1⟩ := hf' k
        obtain ⟨v', h2⟩ := hf' l
        rw [← e] at h2
        have fv := (cone h1.tri).1
        have fv' := (cone h2.tri).1
        have : (k : Nat) = l := by rcases TriNo.same h1 h2 with h | h | h <;> omega
        exact Fin.ext this)
      (fun i hi => by
        obtain ⟨v, k, l, h1⟩ := m2.1 hi
        obtain ⟨-, rfl⟩ := cone h1.tri
        obtain ⟨v', h2⟩ := hf' k
        exact ⟨k, Finset.mem_univ _, TriNo.edge hv ht h2.next h1.next⟩)
    simpa using this.symm
  have := congrArg Finset.card hsplit
  rw [Finset.card_range, Finset.card_union_of_disjoint d2, Finset.card_union_of_disjoint d01, c2, indices_card ts (·.isFinite)] at this
  exact this

/-- At least one unbounded triangle per vertex on the border of the convex hull. -/
theorem edgeIds_le (hv : Valid (hp vs) ts) (ht : Tiled vs ts) {p q : Nat} (hp : p < INF0) (op : Occ ts p) (hq : q < INF0) (oq : Occ ts q)
    (hne : p ≠ q) : (edgeIds vs ts).card ≤ (hullIdx ts).card := by
  classical
  have ex : ∀ u, u ∈ edgeIds vs ts → ∃ i v z, TriNo ts i u v z ∧ v < INF0 ∧ ¬ z < INF0 := by
    intro u hu
    obtain ⟨hu, ou, hs⟩ := mem_edgeIds.1 hu
    obtain ⟨w, hw, ow, hne⟩ : ∃ w, w < INF0 ∧ Occ ts w ∧ u ≠ w := by
      by_cases e : u = p
      · exact ⟨q, hq, oq, by rw [e]; exact hne⟩
      · exact ⟨p, hp, op, e⟩
    obtain ⟨v, z, fv, fz, hT⟩ := hs.start hv ht hu ou hw ow hne
    obtain ⟨i, hi⟩ := hT.at
    exact ⟨i, v, z, hi, fv, fz⟩
  choose f g k hf fv fz using ex
  refine Finset.card_le_card_of_injOn (fun u => if h : u ∈ edgeIds vs ts then f u h else 0) ?_ ?_
  · intro u hu
    have hu : u ∈ edgeIds vs ts := hu
    simp only [hu, dif_pos]
    exact mem_hullIdx.2 ⟨_, _, _, hf u hu, (mem_edgeIds.1 hu).1, fv u hu, fz u hu⟩
  · intro u hu w hw e
    have hu : u ∈ edgeIds vs ts := hu
    have hw : w ∈ edgeIds vs ts := hw
    simp only [hu, hw, dif_pos] at e
    have h1 := hf u hu
    have h2 := hf w hw
    rw [← e] at h2
    have := (mem_edgeIds.1 hu).1
    have := (mem_edgeIds.1 hw).1
    have := fv u hu
    have := fv w hw
    have := fz u hu
    have := fz w hw
    rcases TriNo.same h1 h2 with h | h | h <;> omega

/-- Exactly one when the finite triangles cover the convex hull. -/
theorem CoverMesh.edgeIds_eq (h : CoverMesh vs ts E) (hP : Reg E P) : (hullIdx ts).card = (edgeIds vs ts).card := by
  classical
  have hch : ∀ i, i ∈ hullIdx ts → ∃ (u v z : Nat), TriNo ts i u v z ∧ u < INF0 ∧ v < INF0 ∧ ¬ z < INF0 := fun i hi => mem_hullIdx.1 hi
  choose f g k hf fu fv fz using hch
  refine Finset.card_bij f (fun i hi => mem_edgeIds.2 ⟨fu i hi, (hf i hi).tri.occ, h.start_supp hP (fu i hi) (fv i hi) (fz i hi) (hf i hi).tri⟩) ?_ ?_
  · intro i hi j hj e
    have fj := hf j hj
    rw [← e] at fj
    have eg := h.start_unique hP (fu i hi) (fv i hi) (fv j hj) (fz i hi) (fz j hj) (hf i hi).tri fj.tri
    rw [← eg] at fj
    exact TriNo.edge h.valid h.tiled (hf i hi) fj
  · intro u hu
    obtain ⟨hu, ou, hb⟩ := mem_edgeIds.1 hu
    obtain ⟨x, v, hT, fx, -⟩ := h.fin_at hP hu ou
    obtain ⟨d, z, fd, hz, hd⟩ := hb.start h.valid h.tiled hu ou fx hT.next.occ (hT.ne h.valid)
    obtain ⟨i, hi⟩ := hd.at
    have hiA := mem_hullIdx.2 ⟨u, d, z, hi, hu, fd, hz⟩
    refine ⟨i, hiA, ?_⟩
    have := fu i hiA
    have := fv i hiA
    rcases TriNo.same (hf i hiA) hi with h | h | h <;> omega

end

end CDT

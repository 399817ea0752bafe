import Verif.Geo.FrameRun

/-! # A mesh whose finite triangles cover a convex region around all points still to be inserted -/

set_option linter.unusedSectionVars false
set_option linter.unusedSimpArgs false
set_option linter.unusedVariables false

namespace CDT

section
variable {K : Type} [Field K] [LinearOrder K] [IsStrictOrderedRing K] [ExactParams K] [IdCfg]

/-- The point of weight one between `P` and `A`, or from `P` in the direction `A`. -/
def HP.pull (P A : HP K) (e : K) : HP K :=
  ⟨(1 - e * A.w) * P.x + e * A.x, (1 - e * A.w) * P.y + e * A.y, (1 - e * A.w) * P.w + e * A.w⟩

theorem HP.pull_w {P A : HP K} (h : P.w = 1) (e : K) : (P.pull A e).w = 1 := by simp only [HP.pull, h]; ring

theorem HP.o_pull (a b P A : HP K) (e : K) : HP.o a b (P.pull A e) = (1 - e * A.w) * HP.o a b P + e * HP.o a b A := by
  simp only [HP.o, HP.pull]; ring

/-- Points near a point with a positive value have a positive value. -/
theorem HP.pull_near {a b P A : HP K} (h : 0 < HP.o a b P) : ∃ d, 0 < d ∧ ∀ e, 0 < e → e < d → 0 < HP.o a b (P.pull A e) := by
  obtain ⟨d, hd, hn⟩ := quad_pos_near h (HP.o a b A - A.w * HP.o a b P) 0
  refine ⟨d, hd, fun e he hd => ?_⟩
  have := hn e he hd
  rw [HP.o_pull]; linarith

/-- The open region on the inner side of the directed lines `E`. -/
def Reg (E : List (HP K × HP K)) (P : HP K) : Prop := P.w = 1 ∧ ∀ l ∈ E, 0 < HP.o l.1 l.2 P

theorem Reg.near_mix {E : List (HP K × HP K)} {P : HP K} (h : Reg E P) (A : HP K) :
    ∃ d, 0 < d ∧ ∀ e, 0 < e → e < d → Reg E (P.pull A e) := by
  obtain ⟨hw, h⟩ := h
  induction E with
  | nil => exact ⟨1, one_pos, fun e _ _ => ⟨HP.pull_w hw e, by simp⟩⟩
  | cons l E ih =>
    obtain ⟨d, hd, h1⟩ := ih fun l hl => h l (by simp [hl])
    obtain ⟨d', hd', h2⟩ := HP.pull_near (A := A) (h l (by simp))
    refine ⟨min d d', lt_min hd hd', fun e he hm => ?_⟩
    rw [lt_min_iff] at hm
    refine ⟨HP.pull_w hw e, ?_⟩
    intro m hm'
    rcases List.mem_cons.1 hm' with rfl | hm'
    · exact h2 e he hm.2
    · exact (h1 e he hm.1).2 m hm'

theorem Reg.near_move {E : List (HP K × HP K)} {P : HP K} (h : Reg E P) : ∃ d, 0 < d ∧ ∀ e, 0 < e → e < d → Reg E (P.move e) := by
  obtain ⟨hw, h⟩ := h
  induction E with
  | nil => exact ⟨1, one_pos, fun e _ _ => ⟨hw, by simp⟩⟩
  | cons l E ih =>
    obtain ⟨d, hd, h1⟩ := ih fun l hl => h l (by simp [hl])
    obtain ⟨d', hd', h2⟩ := quad_pos_near (h l (by simp)) (HP.o l.1 l.2 ⟨1, 0, 0⟩) (HP.o l.1 l.2 ⟨0, 1, 0⟩)
    refine ⟨min d d', lt_min hd hd', fun e he hm => ?_⟩
    rw [lt_min_iff] at hm
    refine ⟨hw, ?_⟩
    intro m hm'
    rcases List.mem_cons.1 hm' with rfl | hm'
    · rw [o_move]; exact h2 e he hm.2
    · exact (h1 e he hm.1).2 m hm'

/-- Between a point of the region and a point of its closure. -/
theorem Reg.mix_closed {E : List (HP K × HP K)} {P Q : HP K} (h : Reg E P) (hQ : Q.w = 1) (hQc : ∀ l ∈ E, 0 ≤ HP.o l.1 l.2 Q)
    {e : K} (he : 0 < e) (he1 : e < 1) : Reg E (Q.pull P e) := by
  refine ⟨HP.pull_w hQ e, fun l hl => ?_⟩
  rw [HP.o_pull, h.1]
  have h1 := mul_nonneg (by linarith : (0 : K) ≤ 1 - e * 1) (hQc l hl)
  have h2 := mul_pos he (h.2 l hl)
  linarith

end

variable {K : Type} [Field K] [LinearOrder K] [IsStrictOrderedRing K] [ExactParams K] [IdCfg]
variable {vs : List (Vtx K)} {ts ts0 ts' : List Tri}

/-- The finite triangles of the mesh cover the region, whose closure contains all real vertices. -/
structure CoverMesh (vs : List (Vtx K)) (ts : List Tri) (E : List (HP K × HP K)) : Prop where
  valid : Valid (hp vs) ts
  tiled : Tiled vs ts
  ok : VertsIn (VOk vs.length) ts
  ids : vs.length ≤ INF0
  cover : ∀ P, Reg E P → ∃ (k : Nat) (T : Tri), ts[k]? = some T ∧ T.v1 < INF0 ∧ T.v2 < INF0 ∧ T.v3 < INF0 ∧
    0 ≤ HP.o (hp vs T.v1) (hp vs T.v2) P ∧ 0 ≤ HP.o (hp vs T.v2) (hp vs T.v3) P ∧ 0 ≤ HP.o (hp vs T.v3) (hp vs T.v1) P
  verts : ∀ q, Occ ts q → q < INF0 → ∀ l ∈ E, 0 ≤ HP.o l.1 l.2 (hp vs q)

/-- Moreover the circumcircles are empty. -/
structure HullMesh (vs : List (Vtx K)) (ts : List Tri) (E : List (HP K × HP K)) : Prop extends CoverMesh vs ts E where
  circ : ∀ a b c q, TriIn ts a b c → a < INF0 → b < INF0 → c < INF0 → Occ ts q → q < INF0 →
    HP.ic (hp vs a) (hp vs b) (hp vs c) (hp vs q) ≤ 0

variable {E : List (HP K × HP K)} {P : HP K}

/-- The points of a covered region are in no unbounded triangle. -/
theorem cover_far (hv : Valid (hp vs) ts) (ht : Tiled vs ts)
    (hcov : ∀ P, Reg E P → ∃ (k : Nat) (T : Tri), ts[k]? = some T ∧ T.v1 < INF0 ∧ T.v2 < INF0 ∧ T.v3 < INF0 ∧
      0 ≤ HP.o (hp vs T.v1) (hp vs T.v2) P ∧ 0 ≤ HP.o (hp vs T.v2) (hp vs T.v3) P ∧ 0 ≤ HP.o (hp vs T.v3) (hp vs T.v1) P)
    (hP : Reg E P) {a b c : Nat} (hT : TriIn ts a b c) (hinf : ¬ (a < INF0 ∧ b < INF0 ∧ c < INF0))
    (h1 : 0 ≤ HP.o (hp vs a) (hp vs b) P) (h2 : 0 ≤ HP.o (hp vs b) (hp vs c) P) (h3 : 0 ≤ HP.o (hp vs c) (hp vs a) P) : False := by
  have pos := hT.pos hv
  let G : HP K := ⟨(hp vs a).x + (hp vs b).x + (hp vs c).x, (hp vs a).y + (hp vs b).y + (hp vs c).y, (hp vs a).w + (hp vs b).w + (hp vs c).w⟩
  have g1 : HP.o (hp vs a) (hp vs b) G = HP.o (hp vs a) (hp vs b) (hp vs c) := by simp only [G, HP.o]; ring
  have g2 : HP.o (hp vs b) (hp vs c) G = HP.o (hp vs a) (hp vs b) (hp vs c) := by simp only [G, HP.o]; ring
  have g3 : HP.o (hp vs c) (hp vs a) G = HP.o (hp vs a) (hp vs b) (hp vs c) := by simp only [G, HP.o]; ring
  obtain ⟨d, hd, hn⟩ := hP.near_mix G
  have hw : ∀ v, (hp vs v).w ≤ 1 := by
    intro v
    by_cases hv : v < INF0
    · rw [hp_w_fin vs hv]
    · rw [hp_w_inf vs hv]; exact zero_le_one
  have hGw : G.w ≤ 3 := by have := hw a; have := hw b; have := hw c; simp only [G]; linarith
  obtain ⟨e, he, hed, he3⟩ : ∃ e : K, 0 < e ∧ e < d ∧ e * G.w ≤ 1 := by
    refine ⟨min (d / 2) (1 / 3), lt_min (by linarith) (by norm_num), lt_of_le_of_lt (min_le_left _ _) (by linarith), ?_⟩
    have h0 : (0 : K) ≤ min (d / 2) (1 / 3) := le_min (by linarith) (by norm_num)
    have h1 : min (d / 2) (1 / 3) ≤ (1 / 3 : K) := min_le_right _ _
    calc min (d / 2) (1 / 3) * G.w ≤ min (d / 2) (1 / 3) * 3 := mul_le_mul_of_nonneg_left hGw h0
      _ ≤ 1 := by linarith
  have hR := hn e he hed
  have hep := mul_pos he pos
  have hin : In3 (hp vs a) (hp vs b) (hp vs c) (P.pull G e) := by
    refine ⟨?_, ?_, ?_⟩ <;> rw [HP.o_pull]
    · rw [g1]; have := mul_nonneg (by linarith : 0 ≤ 1 - e * G.w) h1; linarith
    · rw [g2]; have := mul_nonneg (by linarith : 0 ≤ 1 - e * G.w) h2; linarith
    · rw [g3]; have := mul_nonneg (by linarith : 0 ≤ 1 - e * G.w) h3; linarith
  obtain ⟨d1, hd1, n1⟩ := hin.near
  obtain ⟨d2, hd2, n2⟩ := hR.near_move
  obtain ⟨e', he', hed', hg⟩ := exists_generic vs ts (P.pull G e) (lt_min hd1 hd2)
  rw [lt_min_iff] at hed'
  have hR' := n2 e' he' hed'.2
  have hin' := n1 e' he' hed'.1
  obtain ⟨k, T, hTk, f1, f2, f3, c1, c2, c3⟩ := hcov _ hR'
  have gen := hg.gen hv hR'.1
  have s1 := gen k _ _ _ ⟨T, hTk, has_0 T⟩
  have s2 := gen k _ _ _ ⟨T, hTk, has_1 T⟩
  have s3 := gen k _ _ _ ⟨T, hTk, has_2 T⟩
  obtain ⟨i, U, j1, j2, j3, hU, hRot⟩ := hT
  have hi : InAt (hp vs) ts ((P.pull G e).move e') i := by
    refine ⟨U, hU, ?_⟩
    rcases hRot with rfl | rfl | rfl
    · exact hin'
    · exact hin'.cyc.cyc
    · exact hin'.cyc
  have hk : InAt (hp vs) ts ((P.pull G e).move e') k :=
    ⟨T, hTk, lt_of_le_of_ne c1 (Ne.symm s1), lt_of_le_of_ne c2 (Ne.symm s2), lt_of_le_of_ne c3 (Ne.symm s3)⟩
  have := ht.disjoint hR'.1 hi hk
  subst this
  rw [hU] at hTk; simp at hTk; subst hTk
  rcases hRot with rfl | rfl | rfl <;> simp only at f1 f2 f3 <;> tauto

theorem CoverMesh.far (h : CoverMesh vs ts E) (hP : Reg E P) {a b c : Nat} (hT : TriIn ts a b c) (hinf : ¬ (a < INF0 ∧ b < INF0 ∧ c < INF0))
    (h1 : 0 ≤ HP.o (hp vs a) (hp vs b) P) (h2 : 0 ≤ HP.o (hp vs b) (hp vs c) P) (h3 : 0 ≤ HP.o (hp vs c) (hp vs a) P) : False :=
  cover_far h.valid h.tiled h.cover hP hT hinf h1 h2 h3

/-- The points of the region are strictly on the inner side of the hull edges. -/
theorem CoverMesh.hull (h : CoverMesh vs ts E) (hP : Reg E P) {a b c : Nat} (hT : TriIn ts b a c) (ha : a < INF0) (hb : b < INF0)
    (hc : ¬ c < INF0) : 0 < HP.o (hp vs a) (hp vs b) P := by
  by_contra hcon
  rw [not_lt] at hcon
  have pos := hT.pos h.valid
  have wa := hp_w_fin vs ha
  have wb := hp_w_fin vs hb
  let M : HP K := ⟨((hp vs a).x + (hp vs b).x) / 2, ((hp vs a).y + (hp vs b).y) / 2, 1⟩
  have o1 : HP.o (hp vs b) (hp vs a) M = 0 := by simp only [M, HP.o, wa, wb]; ring
  have o2 : HP.o (hp vs a) (hp vs c) M = HP.o (hp vs b) (hp vs a) (hp vs c) / 2 := by simp only [M, HP.o, wa, wb]; ring
  have o3 : HP.o (hp vs c) (hp vs b) M = HP.o (hp vs b) (hp vs a) (hp vs c) / 2 := by simp only [M, HP.o, wa, wb]; ring
  have hM : ∀ l ∈ E, 0 ≤ HP.o l.1 l.2 M := by
    intro l hl
    have ea : HP.o l.1 l.2 M = (HP.o l.1 l.2 (hp vs a) + HP.o l.1 l.2 (hp vs b)) / 2 := by simp only [M, HP.o, wa, wb]; ring
    rw [ea]
    have h1 := h.verts b hT.occ hb l hl
    have h2 := h.verts a hT.next.occ ha l hl
    linarith
  obtain ⟨d1, hd1, n1⟩ := HP.pull_near (a := hp vs a) (b := hp vs c) (P := M) (A := P) (by rw [o2]; linarith)
  obtain ⟨d2, hd2, n2⟩ := HP.pull_near (a := hp vs c) (b := hp vs b) (P := M) (A := P) (by rw [o3]; linarith)
  obtain ⟨e, he, hed⟩ := exists_between (lt_min one_pos (lt_min hd1 hd2))
  simp only [lt_min_iff] at hed
  refine h.far (hP.mix_closed rfl hM he hed.1) hT (fun hh => hc hh.2.2) ?_ (n1 e he hed.2.1).le (n2 e he hed.2.2).le
  rw [HP.o_pull, o1, HP.o_swap]
  have := mul_nonneg he.le (by linarith : 0 ≤ - HP.o (hp vs a) (hp vs b) P)
  linarith

/-- All vertices are on the inner side of the hull edges. -/
theorem CoverMesh.side (h : CoverMesh vs ts E) (hP : Reg E P) {a b c q : Nat} (hT : TriIn ts b a c) (ha : a < INF0) (hb : b < INF0)
    (hc : ¬ c < INF0) (hq : Occ ts q) (hqi : q < INF0) : 0 ≤ HP.o (hp vs a) (hp vs b) (hp vs q) := by
  by_contra hcon
  rw [not_le] at hcon
  obtain ⟨d, hd, hn⟩ := HP.pull_near (a := hp vs b) (b := hp vs a) (P := hp vs q) (A := P) (by rw [HP.o_swap]; linarith)
  obtain ⟨e, he, hed⟩ := exists_between (lt_min one_pos hd)
  rw [lt_min_iff] at hed
  have h1 := h.hull (hP.mix_closed (hp_w_fin vs hqi) (h.verts q hq hqi) he hed.1) hT ha hb hc
  have h2 := hn e he hed.2
  rw [HP.o_swap] at h2
  linarith

theorem HullMesh.emp (h : HullMesh vs ts E) (hP : Reg E P) : Emp vs ts where
  circ := h.circ
  hull := fun _ _ _ _ hT ha hb hc hq hqi => h.side hP hT ha hb hc hq hqi

theorem CoverMesh.inner (h : CoverMesh vs ts E) (hP : Reg E P) : Inner vs ts P where
  far := by
    intro a b c hT ha
    by_contra hcon
    simp only [not_or, not_lt] at hcon
    exact h.far hP hT (fun hh => ha hh.1) hcon.1 hcon.2.1 hcon.2.2
  hull := fun a b c hT ha hb hc => (h.hull hP hT ha hb hc).le

/-! ## The search -/

theorem placement1_walk {p : Vtx K} {t : Tri} {i : Fin 3} {prev cur : Nat} (hok : ∀ k, VOk vs.length (t.v k))
    (ha : t.v (i + 1) < INF0) (hb : t.v (i + 2) < INF0) (hs : sideO (hp vs) t (HP.ofVtx p) (i + 1) < 0) (hp : prev ≠ t.n (i + 1)) :
    placement1 vs p t cur i prev cur = .ok (.go cur (t.n (i + 1))) := by
  obtain ⟨A, gA, _, eA⟩ := getI_fin (hok (i + 1)) ha
  obtain ⟨B, gB, _, eB⟩ := getI_fin (hok (i + 2)) hb
  have x1 : nextCwVert i = i + 1 := by fin_cases i <;> rfl
  have x2 : nextCcwVert i = i + 2 := by fin_cases i <;> rfl
  have x4 : i + 1 + 1 = i + 2 := by fin_cases i <;> rfl
  unfold sideO at hs
  rw [eA, x4, eB] at hs
  unfold placement1
  simp only [x1, x2, vertNextCwEdge, gA, gB, Res.ok_bind, edgeSide_eq]
  rw [if_pos]
  simp only [Bool.and_eq_true, onLeft_neg, decide_eq_true_eq]
  exact ⟨hs, hp⟩

/-- From a triangle with one artificial vertex the search crosses the edge between the real ones, when the point is behind it. -/
theorem findStep_hull {p : Vtx K} {T : Tri} {a b c j1 j2 j3 prev cur : Nat} (hok : VertsIn (VOk vs.length) ts) (hT : ts[cur]? = some T)
    (hR : Rot T b a c j1 j2 j3) (ha : a < INF0) (hb : b < INF0) (hc : ¬ c < INF0) (ho : HP.o (hp vs b) (hp vs a) (HP.ofVtx p) < 0)
    (hpr : prev ≠ j1) : findStep vs p ts prev cur = .ok (.go cur j1) := by
  have hk : ∀ k, VOk vs.length (T.v k) := hok.get hT
  have isI : ∀ v, v < INF0 → isInf v = false := fun v h => isInf_false_iff.2 h
  have isI' : ∀ v, ¬ v < INF0 → isInf v = true := fun v h => isInf_iff.2 (not_lt.1 h)
  unfold findStep
  simp only [getI_of hT, Res.ok_bind, collectInfTri]
  rcases hR with rfl | rfl | rfl
  · simp [isI _ ha, isI _ hb, isI' _ hc]
    exact placement1_walk (i := 2) hk hb ha ho hpr
  · simp [isI _ ha, isI _ hb, isI' _ hc]
    exact placement1_walk (i := 0) hk hb ha ho hpr
  · simp [isI _ ha, isI _ hb, isI' _ hc]
    exact placement1_walk (i := 1) hk hb ha ho hpr

/-- A step of the search as the code makes it: a triangle with one artificial vertex is left for a finite triangle. -/
def CStep (vs : List (Vtx K)) (ts : List Tri) (P : HP K) (i j : Nat) : Prop := HStep vs ts P i j ∧ (HullAt ts i → FinAt ts j)

theorem HullMesh.finStep (h : HullMesh vs ts E) (hP : Reg E P) {i j a b c j2 j3 : Nat} {T : Tri} (hT : ts[i]? = some T)
    (hR : Rot T b a c j j2 j3) (ha : a < INF0) (hb : b < INF0) (hc : ¬ c < INF0) (hj : j ≠ NONE) : FinAt ts j := by
  obtain ⟨U, hU, hhU⟩ := h.valid.ent_pos ⟨T, hT, hR.has_iff.2 (.inl ⟨rfl, rfl, rfl⟩)⟩ hj
  obtain ⟨d, k2, k3, hRU⟩ := hhU.rot
  have hd : d < INF0 := by
    by_contra hd
    have h1 := h.hull hP ⟨j, U, _, _, _, hU, hRU⟩ hb ha hd
    have h2 := h.hull hP ⟨i, T, _, _, _, hT, hR⟩ ha hb hc
    rw [HP.o_swap] at h1
    linarith
  exact TriAt.finAt (a := a) (b := b) (c := d) ⟨U, _, _, _, hU, hRU, ha, hb, hd⟩

/-- The steps of an unsuccessful search for a point of the region. -/
theorem HullMesh.steps {p : Vtx K} (h : HullMesh vs ts E) (hP : Reg E (HP.ofVtx p)) (n : Nat) : ∀ prev cur, cur < ts.length →
      (HullAt ts cur → ¬ FinAt ts prev) → findLoop vs p ts n prev cur = .ok .notFound →
      ∃ l : List Nat, l.length = n ∧ (cur :: l).IsChain (CStep vs ts (HP.ofVtx p)) ∧ ∀ i ∈ cur :: l, i < ts.length := by
  induction n with
  | zero => intro prev cur hc _ _; exact ⟨[], rfl, .singleton _, by simpa using hc⟩
  | succ n ih =>
    intro prev cur hc hpr hf
    have hcn : cur ≠ NONE := by have := h.valid.len; omega
    obtain ⟨t, ht, _⟩ := getI_lt hc
    obtain ⟨w, h1, h2⟩ := findStep_total (p := p) (prev := prev) h.ids h.valid h.ok ht
    unfold findLoop at hf
    rw [if_neg hcn, h1] at hf
    simp only [Res.ok_bind] at hf
    cases w with
    | found pl =>
      simp at hf
      subst hf
      exact h2.elim
    | go p' c' =>
      obtain ⟨rfl, k, rfl, hk', hneg⟩ := h2
      have hb := behind_lt h.valid ht hneg
      have hstep : HStep vs ts (HP.ofVtx p) p' (t.n k) := ⟨_, _, ⟨t, ht, has_k t k⟩, hb, hneg⟩
      have hcs : HullAt ts p' → FinAt ts (t.n k) := by
        intro hh
        have hnp := hpr hh
        obtain ⟨T, a, b, c, j1, j2, j3, hT, hR, ha, hb', hc'⟩ := hh
        have ho := h.hull hP ⟨p', T, _, _, _, hT, hR⟩ ha hb' hc'
        have hE : Ent ts p' b a j1 := ⟨T, hT, hR.has_iff.2 (.inl ⟨rfl, rfl, rfl⟩)⟩
        have hj1 : j1 ≠ NONE := by
          rintro rfl
          rcases h.valid.adj _ _ _ _ hE with ⟨_, i1, i2⟩ | h'
          · exact i1 hb'
          · exact h'.1 rfl
        have hfin := h.finStep hP hT hR ha hb' hc' hj1
        have hgo := findStep_hull (p := p) (prev := prev) h.ok hT hR ha hb' hc' (by rw [HP.o_swap]; linarith) (by rintro rfl; exact hnp hfin)
        rw [h1] at hgo
        simp only [Res.ok.injEq, Walk.go.injEq, true_and] at hgo
        rw [hgo]; exact hfin
      obtain ⟨l, l1, l3, l4⟩ := ih _ _ hb (by
        intro hh hf
        exact hh.not_fin (hstep.finAt h.valid (h.inner hP) hf)) hf
      refine ⟨_ :: l, by simp [l1], .cons_cons ⟨hstep, hcs⟩ l3, ?_⟩
      intro i hi
      rcases List.mem_cons.1 hi with rfl | hi
      · exact hc
      · exact l4 i hi

/-- How far `P` is inside the quadrant of a triangle with two artificial vertices. -/
def ConeVal (vs : List (Vtx K)) (ts : List Tri) (P : HP K) (i : Nat) (r : K) : Prop :=
  ∃ (T : Tri) (a b c j1 j2 j3 : Nat), ts[i]? = some T ∧ Rot T a b c j1 j2 j3 ∧ a < INF0 ∧ ¬ b < INF0 ∧ ¬ c < INF0 ∧
    r = HP.o (hp vs a) (hp vs b) P + HP.o (hp vs c) (hp vs a) P

theorem ConeVal.cone {i : Nat} {r : K} (h : ConeVal vs ts P i r) : ConeAt ts i := by
  obtain ⟨T, a, b, c, j1, j2, j3, h1, h2, h3, h4, h5, -⟩ := h
  exact ⟨T, a, b, c, j1, j2, j3, h1, h2, h3, h4, h5⟩

theorem ConeAt.val {i : Nat} (h : ConeAt ts i) : ∃ r, ConeVal vs ts P i r := by
  obtain ⟨T, a, b, c, j1, j2, j3, h1, h2, h3, h4, h5⟩ := h
  exact ⟨_, T, a, b, c, j1, j2, j3, h1, h2, h3, h4, h5, rfl⟩

theorem ConeVal.unique {i : Nat} {r r' : K} (h : ConeVal vs ts P i r) (h' : ConeVal vs ts P i r') : r = r' := by
  obtain ⟨T, a, b, c, _, _, _, hT, hR, h1, h2, h3, rfl⟩ := h
  obtain ⟨T', a', b', c', _, _, _, hT', hR', f1, f2, f3, rfl⟩ := h'
  rw [hT] at hT'; simp at hT'; subst hT'
  rcases hR with rfl | rfl | rfl <;> rcases hR' with e | e | e <;> simp only [Tri.mk.injEq] at e <;> obtain ⟨rfl, rfl, rfl, -⟩ := e <;> tauto

/-- On both sides of a ray the other artificial vertices are opposite. -/
theorem dir_opp {A : HP K} (hA : A.w = 1) {m n l : Fin 4} (h1 : 0 < HP.o A (HP.dir m) (HP.dir n)) (h2 : 0 < HP.o (HP.dir m) A (HP.dir l)) (P : HP K) :
    HP.o A (HP.dir l) P = HP.o (HP.dir n) A P := by
  fin_cases m <;> fin_cases n <;> fin_cases l <;> simp [HP.o, HP.dir, hA] at h1 h2 ⊢ <;>
    first | done | (exfalso; linarith) | ring

/-- From a triangle with two artificial vertices the search goes to one with one, or further into the quadrant of `P`. -/
theorem cone_step (hok : VertsIn (VOk vs.length) ts) (hn : vs.length ≤ INF0) (hv : Valid (hp vs) ts) (hPw : P.w = 1) {i j : Nat} {r : K}
    (hi : ConeVal vs ts P i r) (hs : HStep vs ts P i j) : HullAt ts j ∨ ∃ r', ConeVal vs ts P j r' ∧ r < r' := by
  obtain ⟨T, a, b, c, j1, j2, j3, hT, hRot, ha, hb, hc, rfl⟩ := hi
  obtain ⟨p, q, hE, hj, ho⟩ := hs
  have hjn : j ≠ NONE := by have := hv.len; omega
  obtain ⟨U, hU, hhU⟩ := hv.ent_pos hE hjn
  have hTI : TriIn ts a b c := ⟨i, T, _, _, _, hT, hRot⟩
  have pos := hTI.pos hv
  obtain ⟨m, em⟩ := inf_dir vs hok hn hTI.next hb
  obtain ⟨n, en⟩ := inf_dir vs hok hn hTI.next.next hc
  obtain ⟨T', hT', hh⟩ := hE
  rw [hT] at hT'; simp at hT'; subst hT'
  rw [hRot.has_iff] at hh
  obtain ⟨d, k2, k3, hRU⟩ := hhU.rot
  have hUI : TriIn ts q p d := ⟨j, U, _, _, _, hU, hRU⟩
  have posU := hUI.pos hv
  rcases hh with ⟨rfl, rfl, -⟩ | ⟨rfl, rfl, -⟩ | ⟨rfl, rfl, -⟩
  · by_cases hd : d < INF0
    · exact .inl ⟨U, _, _, _, _, _, _, hU, hRU.next, hd, ha, hb⟩
    · obtain ⟨l, el⟩ := inf_dir vs hok hn hUI.next.next hd
      refine .inr ⟨_, ⟨U, _, _, _, _, _, _, hU, hRU.next, ha, hd, hb, rfl⟩, ?_⟩
      rw [em, en] at pos
      rw [em, el] at posU
      have e := dir_opp (hp_w_fin vs ha) pos posU P
      rw [em] at ho
      rw [em, en, el, e, HP.o_swap _ (HP.dir m)]
      have := HP.o_swap (hp vs a) (HP.dir m) P
      linarith
  · rw [HP.o_inf2 (hp_w_inf vs hb) (hp_w_inf vs hc) (p := P) (q := hp vs a) hPw (hp_w_fin vs ha)] at ho
    have := HP.o_cyc (hp vs a) (hp vs b) (hp vs c)
    linarith
  · by_cases hd : d < INF0
    · exact .inl ⟨U, _, _, _, _, _, _, hU, hRU.next.next, ha, hd, hc⟩
    · obtain ⟨l, el⟩ := inf_dir vs hok hn hUI.next.next hd
      refine .inr ⟨_, ⟨U, _, _, _, _, _, _, hU, hRU, ha, hc, hd, rfl⟩, ?_⟩
      rw [em, en] at pos
      rw [en, el] at posU
      have p1 : 0 < HP.o (HP.dir n) (hp vs a) (HP.dir m) := by rw [HP.o_cyc']; exact pos
      have e := dir_opp (hp_w_fin vs ha) posU p1 P
      rw [en] at ho
      rw [em, en, el, ← e]
      have := HP.o_swap (hp vs a) (HP.dir n) P
      linarith

theorem HullMesh.walk_cone (h : HullMesh vs ts E) (hP : Reg E P) (l : List Nat) : ∀ i r, ConeVal vs ts P i r →
    (i :: l).IsChain (CStep vs ts P) → (i :: l).Nodup ∧ ∀ j ∈ l, FinAt ts j ∨ HullAt ts j ∨ ∃ r', ConeVal vs ts P j r' ∧ r < r' := by
  induction l with
  | nil => intro i r hi _; simp
  | cons j l ih =>
    intro i r hi hl
    rw [List.isChain_cons_cons] at hl
    rcases cone_step h.ok h.ids h.valid hP.1 hi hl.1.1 with hj | ⟨r', hj, hr⟩
    · have hul : (j :: l).Nodup ∧ ∀ k ∈ l, FinAt ts k := by
        cases l with
        | nil => simp
        | cons k l =>
          have hl2 := hl.2
          rw [List.isChain_cons_cons] at hl2
          obtain ⟨r1, r2⟩ := walk_fin h.valid (h.emp hP) hP.1 (h.inner hP) l k (hl2.1.2 hj) (hl2.2.imp fun _ _ h => h.1)
          exact ⟨List.nodup_cons.2 ⟨fun hm => hj.not_fin (r2 j hm), r1⟩, r2⟩
      refine ⟨List.nodup_cons.2 ⟨fun hm => ?_, hul.1⟩, ?_⟩
      · rcases List.mem_cons.1 hm with rfl | hm
        · exact hi.cone.not_hull hj
        · exact hi.cone.not_fin (hul.2 i hm)
      · intro k hk
        rcases List.mem_cons.1 hk with rfl | hk
        · exact .inr (.inl hj)
        · exact .inl (hul.2 k hk)
    · obtain ⟨r1, r2⟩ := ih j r' hj hl.2
      have hall : ∀ k ∈ j :: l, FinAt ts k ∨ HullAt ts k ∨ ∃ r', ConeVal vs ts P k r' ∧ r < r' := by
        intro k hk
        rcases List.mem_cons.1 hk with rfl | hk
        · exact .inr (.inr ⟨r', hj, hr⟩)
        · rcases r2 k hk with h | h | ⟨r'', h, h'⟩
          · exact .inl h
          · exact .inr (.inl h)
          · exact .inr (.inr ⟨r'', h, hr.trans h'⟩)
      refine ⟨List.nodup_cons.2 ⟨fun hm => ?_, r1⟩, hall⟩
      rcases hall i hm with h | h | ⟨r'', h, h'⟩
      · exact hi.cone.not_fin h
      · exact hi.cone.not_hull h
      · rw [hi.unique h] at h'; exact lt_irrefl _ h'

/-- Every point of the region is found, from any triangle. -/
theorem HullMesh.found {p : Vtx K} {start : Nat} (h : HullMesh vs ts E) (hP : Reg E (HP.ofVtx p)) (hs : start < ts.length) :
    findPlacement vs p start ts ≠ .ok .notFound := by
  intro hf
  obtain ⟨l, l1, l3, l4⟩ := h.steps hP _ _ _ hs HullAt.not_fin hf
  have hnd : (start :: l).Nodup := by
    rcases tri_kinds h.valid hs with hk | hk | hk
    · exact (walk_fin h.valid (h.emp hP) hP.1 (h.inner hP) l _ hk (l3.imp fun _ _ h => h.1)).1
    · cases l with
      | nil => simp
      | cons k l =>
        rw [List.isChain_cons_cons] at l3
        obtain ⟨r1, r2⟩ := walk_fin h.valid (h.emp hP) hP.1 (h.inner hP) l k (l3.1.2 hk) (l3.2.imp fun _ _ h => h.1)
        exact List.nodup_cons.2 ⟨fun hm => hk.not_fin (r2 _ hm), r1⟩
    · obtain ⟨r, hr⟩ := hk.val (vs := vs) (P := HP.ofVtx p)
      exact (h.walk_cone hP l _ r hr l3).1
  have : (start :: l).Subperm (List.range ts.length) := hnd.subperm fun i hi => by simpa using l4 i hi
  have := this.length_le
  simp at this
  omega

end CDT

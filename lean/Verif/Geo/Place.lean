import Verif.Geo.Flip

/-! # Placement search on a valid mesh -/

set_option linter.unusedSectionVars false
set_option linter.unusedSimpArgs false
set_option linter.unusedVariables false

namespace CDT

variable {K : Type} [Field K] [LinearOrder K] [IsStrictOrderedRing K] [ExactParams K] [IdCfg]
variable {vs : List (Vtx K)} {ts : List Tri}

/-- Orientation of the point `P` with respect to the `k`-th edge of `t`: positive inside. -/
def sideO (H : Nat → HP K) (t : Tri) (P : HP K) (k : Fin 3) : K := HP.o (H (t.v k)) (H (t.v (k + 1))) P

/-- What one search step on the triangle `t` means geometrically. -/
def StepSpec (H : Nat → HP K) (t : Tri) (P : HP K) (prev cur : Nat) : Walk → Prop
  | .go p' c' => p' = cur ∧ ∃ k, t.n k = c' ∧ c' ≠ prev ∧ sideO H t P k < 0
  | .found (.inside i) => i = cur ∧ ∀ k, (t.n k = prev ∨ 0 ≤ sideO H t P k) ∧ sideO H t P k ≠ 0
  | .found (.onEdge i ei e) => i = cur ∧ e = ⟨t.v ei, t.v (ei + 1)⟩ ∧ |sideO H t P ei| < ExactParams.eps ∧
      (t.v ei < INF0 ∨ t.v (ei + 1) < INF0) ∧ ∀ k, t.n k = prev ∨ 0 ≤ sideO H t P k
  | .found .notFound => False

theorem step3 {H : Nat → HP K} {t : Tri} {P : HP K} {prev cur : Nat} {k0 k1 k2 : Fin 3}
    (hk : ∀ k, k = k0 ∨ k = k1 ∨ k = k2) {l0 l1 l2 m0 m1 m2 : Bool} {e0 e1 e2 : Edge}
    (hl0 : l0 = true ↔ prev ≠ t.n k0 ∧ sideO H t P k0 < 0)
    (hl1 : l1 = true ↔ prev ≠ t.n k1 ∧ sideO H t P k1 < 0)
    (hl2 : l2 = true ↔ prev ≠ t.n k2 ∧ sideO H t P k2 < 0)
    (hm0 : m0 = true → |sideO H t P k0| < ExactParams.eps) (hm0' : m0 = false → sideO H t P k0 ≠ 0)
    (hm1 : m1 = true → |sideO H t P k1| < ExactParams.eps) (hm1' : m1 = false → sideO H t P k1 ≠ 0)
    (hm2 : m2 = true → |sideO H t P k2| < ExactParams.eps) (hm2' : m2 = false → sideO H t P k2 ≠ 0)
    (he0 : m0 = true → e0 = ⟨t.v k0, t.v (k0 + 1)⟩ ∧ (t.v k0 < INF0 ∨ t.v (k0 + 1) < INF0))
    (he1 : m1 = true → e1 = ⟨t.v k1, t.v (k1 + 1)⟩ ∧ (t.v k1 < INF0 ∨ t.v (k1 + 1) < INF0))
    (he2 : m2 = true → e2 = ⟨t.v k2, t.v (k2 + 1)⟩ ∧ (t.v k2 < INF0 ∨ t.v (k2 + 1) < INF0)) :
    ∃ w, (if l0 = true then Res.ok (Walk.go cur (t.n k0)) else if l1 = true then .ok (.go cur (t.n k1))
      else if l2 = true then .ok (.go cur (t.n k2))
      else if m0 = true then .ok (.found (.onEdge cur k0 e0))
      else if m1 = true then .ok (.found (.onEdge cur k1 e1))
      else if m2 = true then .ok (.found (.onEdge cur k2 e2))
      else .ok (.found (.inside cur))) = .ok w ∧ StepSpec H t P prev cur w := by
  by_cases h0 : l0 = true
  · rw [if_pos h0]
    obtain ⟨a, b⟩ := hl0.1 h0
    exact ⟨_, rfl, rfl, k0, rfl, Ne.symm a, b⟩
  rw [if_neg h0]
  by_cases h1 : l1 = true
  · rw [if_pos h1]
    obtain ⟨a, b⟩ := hl1.1 h1
    exact ⟨_, rfl, rfl, k1, rfl, Ne.symm a, b⟩
  rw [if_neg h1]
  by_cases h2 : l2 = true
  · rw [if_pos h2]
    obtain ⟨a, b⟩ := hl2.1 h2
    exact ⟨_, rfl, rfl, k2, rfl, Ne.symm a, b⟩
  rw [if_neg h2]
  have hall : ∀ k, t.n k = prev ∨ 0 ≤ sideO H t P k := by
    intro k
    by_contra hc
    push Not at hc
    rcases hk k with rfl | rfl | rfl
    · exact h0 (hl0.2 ⟨Ne.symm hc.1, hc.2⟩)
    · exact h1 (hl1.2 ⟨Ne.symm hc.1, hc.2⟩)
    · exact h2 (hl2.2 ⟨Ne.symm hc.1, hc.2⟩)
  by_cases g0 : m0 = true
  · rw [if_pos g0]
    exact ⟨_, rfl, rfl, (he0 g0).1, hm0 g0, (he0 g0).2, hall⟩
  rw [if_neg g0]
  by_cases g1 : m1 = true
  · rw [if_pos g1]
    exact ⟨_, rfl, rfl, (he1 g1).1, hm1 g1, (he1 g1).2, hall⟩
  rw [if_neg g1]
  by_cases g2 : m2 = true
  · rw [if_pos g2]
    exact ⟨_, rfl, rfl, (he2 g2).1, hm2 g2, (he2 g2).2, hall⟩
  rw [if_neg g2]
  refine ⟨_, rfl, rfl, fun k => ⟨hall k, ?_⟩⟩
  rcases hk k with rfl | rfl | rfl
  · exact hm0' (by simpa using g0)
  · exact hm1' (by simpa using g1)
  · exact hm2' (by simpa using g2)

theorem near_neg {O : K} : nearEdge (-O) = true ↔ |O| < ExactParams.eps := by
  simp [nearEdge, abs_neg]

theorem near_semi {O : K} (h : nearEdge (-(142 / 100 * O)) = true) : |O| < ExactParams.eps := by
  simp only [nearEdge, exact_abs, exact_eps, exact_lt, decide_eq_true_eq, abs_neg, abs_mul] at h
  have : |(142 / 100 : K)| = 142 / 100 := abs_of_pos (by norm_num)
  rw [this] at h
  have h0 := abs_nonneg O
  have : |O| ≤ 142 / 100 * |O| := by
    have : (1 : K) ≤ 142 / 100 := by norm_num
    nlinarith
  linarith

theorem not_near_neg {O : K} (h : nearEdge (-O) = false) : O ≠ 0 := by
  rintro rfl
  have := ExactParams.eps_pos (K := K)
  simp [nearEdge, this] at h

theorem not_near_semi {O : K} (h : nearEdge (-(142 / 100 * O)) = false) : O ≠ 0 := by
  rintro rfl
  have := ExactParams.eps_pos (K := K)
  simp [nearEdge, this] at h

theorem onLeft_neg {O : K} : onLeft (-O) = true ↔ O < 0 := by simp [onLeft]
theorem onLeft_semi {O : K} : onLeft (-(142 / 100 * O)) = true ↔ O < 0 := by
  simp only [onLeft, exact_lt, exact_zero, decide_eq_true_eq, Left.neg_pos_iff]
  constructor
  · intro h; by_contra hc; have := mul_nonneg (by norm_num : (0 : K) ≤ 142 / 100) (not_lt.1 hc); linarith
  · intro h; exact mul_neg_of_pos_of_neg (by norm_num) h
theorem onRight_semi {O : K} : onRight (-(142 / 100 * O)) = true ↔ 0 < O := by
  simp only [onRight, exact_lt, exact_zero, decide_eq_true_eq, Left.neg_neg_iff]
  constructor
  · intro h; by_contra hc
    have : 142 / 100 * O ≤ 0 := mul_nonpos_of_nonneg_of_nonpos (by norm_num) (not_lt.1 hc)
    linarith
  · intro h; exact mul_pos (by norm_num) h

theorem sideO_semi_flip {H : Nat → HP K} {t : Tri} {P : HP K} {k : Fin 3} {A V : HP K}
    (hV : H (t.v k) = V) (hA : H (t.v (k + 1)) = A) : sideO H t P k = - HP.o A V P := by
  unfold sideO; rw [hV, hA, HP.o_swap]

/-- Triangle with one infinite vertex. -/
theorem placement1_total {p : Vtx K} {t : Tri} {i : Fin 3} {prev cur : Nat} (hn : vs.length ≤ INF0)
    (hok : ∀ k, VOk vs.length (t.v k)) (hi : ¬ t.v i < INF0) (ha : t.v (i + 1) < INF0)
    (hb : t.v (i + 2) < INF0) :
    ∃ w, placement1 vs p t cur i prev cur = .ok w ∧ StepSpec (hp vs) t (HP.ofVtx p) prev cur w := by
  obtain ⟨A, gA, _, eA⟩ := getI_fin (hok (i + 1)) ha
  obtain ⟨B, gB, _, eB⟩ := getI_fin (hok (i + 2)) hb
  have hinf := (hok i).inf hi hn
  obtain ⟨k, hk⟩ := infLocal_ok hinf.1 hinf.2
  have eV := (infLocal_hp vs hk).1
  have x1 : nextCwVert i = i + 1 := by fin_cases i <;> rfl
  have x2 : nextCcwVert i = i + 2 := by fin_cases i <;> rfl
  have x3 : vertNextCcwEdge (i + 1) = i := by fin_cases i <;> rfl
  have x4 : i + 1 + 1 = i + 2 := by fin_cases i <;> rfl
  have x5 : i + 2 + 1 = i := by fin_cases i <;> rfl
  unfold placement1
  simp only [x1, x2, x3, vertNextCwEdge, gA, gB, hk, Res.ok_bind, edgeSide_eq, edgeSide_semiInf]
  have s1 : sideO (hp vs) t (HP.ofVtx p) (i + 1) = HP.o (HP.ofVtx A) (HP.ofVtx B) (HP.ofVtx p) := by
    unfold sideO; rw [eA, x4, eB]
  have s0 : sideO (hp vs) t (HP.ofVtx p) i = - HP.o (HP.ofVtx A) (HP.dir k) (HP.ofVtx p) := by
    exact sideO_semi_flip eV eA
  have s2 : sideO (hp vs) t (HP.ofVtx p) (i + 2) = HP.o (HP.ofVtx B) (HP.dir k) (HP.ofVtx p) := by
    unfold sideO; rw [eB, x5, eV]
  refine step3 (k0 := i + 1) (k1 := i) (k2 := i + 2) ?_ ?_ ?_ ?_ ?_ ?_ ?_ ?_ ?_ ?_ ?_ ?_ ?_
  · intro k; fin_cases i <;> fin_cases k <;> simp
  · rw [s1, Bool.and_eq_true, onLeft_neg, decide_eq_true_eq, and_comm]
  · rw [s0, Bool.and_eq_true, onRight_semi, decide_eq_true_eq, and_comm, Left.neg_neg_iff]
  · rw [s2, Bool.and_eq_true, onLeft_semi, decide_eq_true_eq, and_comm]
  · rw [s1]; exact near_neg.1
  · rw [s1]; exact not_near_neg
  · rw [s0, abs_neg]; exact near_semi
  · rw [s0]; intro h; exact neg_ne_zero.2 (not_near_semi h)
  · rw [s2]; exact near_semi
  · rw [s2]; exact not_near_semi
  · intro _; exact ⟨by rw [x4], .inl ha⟩
  · intro _; exact ⟨rfl, .inr ha⟩
  · intro _; exact ⟨by rw [x5], .inl hb⟩

/-- Triangle with two infinite vertices; `f` is the finite one. -/
theorem placement2_total {p : Vtx K} {t : Tri} {i j f : Fin 3} {prev cur : Nat} (hn : vs.length ≤ INF0)
    (hpos : Pos (hp vs) t)
    (hok : ∀ k, VOk vs.length (t.v k)) (hij : oppVertFromEdge i j = .ok f) (hf : t.v f < INF0)
    (ha : ¬ t.v (f + 1) < INF0) (hb : ¬ t.v (f + 2) < INF0) :
    ∃ w, placement2 vs p t cur i j prev cur = .ok w ∧ StepSpec (hp vs) t (HP.ofVtx p) prev cur w := by
  obtain ⟨A, gA, _, eA⟩ := getI_fin (hok f) hf
  have hinf1 := (hok (f + 1)).inf ha hn
  have hinf2 := (hok (f + 2)).inf hb hn
  obtain ⟨k1, hk1⟩ := infLocal_ok hinf1.1 hinf1.2
  obtain ⟨k2, hk2⟩ := infLocal_ok hinf2.1 hinf2.2
  have eV1 := (infLocal_hp vs hk1).1
  have eV2 := (infLocal_hp vs hk2).1
  have x1 : nextCwVert f = f + 1 := by fin_cases f <;> rfl
  have x2 : nextCcwVert f = f + 2 := by fin_cases f <;> rfl
  have x3 : vertNextCcwEdge f = f + 2 := by fin_cases f <;> rfl
  have x4 : f + 1 + 1 = f + 2 := by fin_cases f <;> rfl
  have x5 : f + 2 + 1 = f := by fin_cases f <;> rfl
  have s0 : sideO (hp vs) t (HP.ofVtx p) f = HP.o (HP.ofVtx A) (HP.dir k1) (HP.ofVtx p) := by
    unfold sideO; rw [eA, eV1]
  have s2 : sideO (hp vs) t (HP.ofVtx p) (f + 2) = - HP.o (HP.ofVtx A) (HP.dir k2) (HP.ofVtx p) := by
    refine sideO_semi_flip eV2 ?_; rw [x5, eA]
  have s1 : 0 < sideO (hp vs) t (HP.ofVtx p) (f + 1) := by
    have h1 := hp_w_inf vs ha
    have h2 := hp_w_inf vs hb
    unfold sideO
    rw [x4, HP.o_inf2 h1 h2 (p := HP.ofVtx p) (q := hp vs (t.v f)) rfl (hp_w_fin vs hf), HP.o_cyc]
    unfold Pos at hpos
    fin_cases f
    · exact hpos
    · show 0 < HP.o (hp vs t.v2) (hp vs t.v3) (hp vs t.v1); rw [HP.o_cyc]; exact hpos
    · show 0 < HP.o (hp vs t.v3) (hp vs t.v1) (hp vs t.v2); rw [HP.o_cyc']; exact hpos
  unfold placement2
  simp only [hij, x1, x2, x3, vertNextCwEdge, gA, hk1, hk2, Res.ok_bind, edgeSide_eq, edgeSide_semiInf]
  have := step3 (H := hp vs) (t := t) (P := HP.ofVtx p) (prev := prev) (cur := cur) (k0 := f) (k1 := f + 2) (k2 := f + 1)
    (l0 := onLeft (-(142 / 100 * HP.o (HP.ofVtx A) (HP.dir k1) (HP.ofVtx p))) && decide (prev ≠ t.n f))
    (l1 := onRight (-(142 / 100 * HP.o (HP.ofVtx A) (HP.dir k2) (HP.ofVtx p))) && decide (prev ≠ t.n (f + 2)))
    (l2 := false)
    (m0 := nearEdge (-(142 / 100 * HP.o (HP.ofVtx A) (HP.dir k1) (HP.ofVtx p))))
    (m1 := nearEdge (-(142 / 100 * HP.o (HP.ofVtx A) (HP.dir k2) (HP.ofVtx p))))
    (m2 := false) (e0 := ⟨t.v f, t.v (f + 1)⟩) (e1 := ⟨t.v (f + 2), t.v f⟩) (e2 := ⟨0, 0⟩)
    ?_ ?_ ?_ ?_ ?_ ?_ ?_ ?_ ?_ ?_ ?_ ?_ ?_
  · obtain ⟨w, hw, hs⟩ := this
    refine ⟨w, ?_, hs⟩
    rw [← hw]
    simp only [Bool.false_eq_true, if_false]
    congr
  · intro k; fin_cases f <;> fin_cases k <;> simp
  · rw [s0, Bool.and_eq_true, onLeft_semi, decide_eq_true_eq, and_comm]
  · rw [s2, Bool.and_eq_true, onRight_semi, decide_eq_true_eq, and_comm, Left.neg_neg_iff]
  · simp; intro _; exact s1.le
  · rw [s0]; exact near_semi
  · rw [s0]; exact not_near_semi
  · rw [s2, abs_neg]; exact near_semi
  · rw [s2]; intro h; exact neg_ne_zero.2 (not_near_semi h)
  · simp
  · intro _; exact ne_of_gt s1
  · intro _; exact ⟨rfl, .inl hf⟩
  · intro _; exact ⟨by rw [x5], .inr (by rw [x5]; exact hf)⟩
  · simp

/-- Every triangle of a valid mesh has a finite vertex. -/
theorem Pos.exists_fin {t : Tri} (h : Pos (hp vs) t) : t.v1 < INF0 ∨ t.v2 < INF0 ∨ t.v3 < INF0 := by
  by_contra hc
  push Not at hc
  unfold Pos at h
  rw [HP.o_inf3 (hp_w_inf vs (not_lt.2 hc.1)) (hp_w_inf vs (not_lt.2 hc.2.1)) (hp_w_inf vs (not_lt.2 hc.2.2))] at h
  exact lt_irrefl _ h

/-- One step of the search on a valid mesh. -/
theorem findStep_total {p : Vtx K} {t : Tri} {prev cur : Nat} (hn : vs.length ≤ INF0)
    (hv : Valid (hp vs) ts) (hok : VertsIn (VOk vs.length) ts) (ht : ts[cur]? = some t) :
    ∃ w, findStep vs p ts prev cur = .ok w ∧ StepSpec (hp vs) t (HP.ofVtx p) prev cur w := by
  have hpos := hv.pos _ _ ht
  have hfin := hpos.exists_fin
  have hk : ∀ k, VOk vs.length (t.v k) := hok.get ht
  unfold findStep
  simp only [getI_of ht, Res.ok_bind, collectInfTri]
  have isI : ∀ v, v < INF0 → isInf v = false := fun v h => isInf_false_iff.2 h
  have isI' : ∀ v, ¬ v < INF0 → isInf v = true := fun v h => isInf_iff.2 (not_lt.1 h)
  by_cases h1 : t.v1 < INF0 <;> by_cases h2 : t.v2 < INF0 <;> by_cases h3 : t.v3 < INF0
  · simp only [isI _ h1, isI _ h2, isI _ h3]
    obtain ⟨A, gA, _, eA⟩ := getI_fin (hk 0) h1
    obtain ⟨B, gB, _, eB⟩ := getI_fin (hk 1) h2
    obtain ⟨C, gC, _, eC⟩ := getI_fin (hk 2) h3
    simp only [Tri.v_0, Tri.v_1, Tri.v_2] at gA gB gC eA eB eC
    simp only [Bool.false_eq_true, if_false, List.append_nil, List.length_nil, Nat.zero_le, if_true, Res.ok_bind,
      gA, gB, gC, edgeSide_eq]
    have s0 : sideO (hp vs) t (HP.ofVtx p) 0 = HP.o (HP.ofVtx A) (HP.ofVtx B) (HP.ofVtx p) := by
      rw [← eA, ← eB]; rfl
    have s1 : sideO (hp vs) t (HP.ofVtx p) 1 = HP.o (HP.ofVtx B) (HP.ofVtx C) (HP.ofVtx p) := by
      rw [← eB, ← eC]; rfl
    have s2 : sideO (hp vs) t (HP.ofVtx p) 2 = HP.o (HP.ofVtx C) (HP.ofVtx A) (HP.ofVtx p) := by
      rw [← eC, ← eA]; rfl
    refine step3 (k0 := 0) (k1 := 1) (k2 := 2) ?_ ?_ ?_ ?_ ?_ ?_ ?_ ?_ ?_ ?_ ?_ ?_ ?_
    · intro k; fin_cases k <;> simp
    · rw [s0, Bool.and_eq_true, onLeft_neg, decide_eq_true_eq]; rfl
    · rw [s1, Bool.and_eq_true, onLeft_neg, decide_eq_true_eq]; rfl
    · rw [s2, Bool.and_eq_true, onLeft_neg, decide_eq_true_eq]; rfl
    · rw [s0]; exact near_neg.1
    · rw [s0]; exact not_near_neg
    · rw [s1]; exact near_neg.1
    · rw [s1]; exact not_near_neg
    · rw [s2]; exact near_neg.1
    · rw [s2]; exact not_near_neg
    · intro _; exact ⟨rfl, .inl h1⟩
    · intro _; exact ⟨rfl, .inl h2⟩
    · intro _; exact ⟨rfl, .inl h3⟩
  · simp [isI _ h1, isI _ h2, isI' _ h3]
    exact placement1_total hn hk (i := 2) h3 h1 h2
  · simp [isI _ h1, isI' _ h2, isI _ h3]
    exact placement1_total hn hk (i := 1) h2 h3 h1
  · simp [isI _ h1, isI' _ h2, isI' _ h3]
    exact placement2_total hn hpos hk (f := 0) rfl h1 h2 h3
  · simp [isI' _ h1, isI _ h2, isI _ h3]
    exact placement1_total hn hk (i := 0) h1 h2 h3
  · simp [isI' _ h1, isI _ h2, isI' _ h3]
    exact placement2_total hn hpos hk (f := 1) rfl h2 h3 h1
  · simp [isI' _ h1, isI' _ h2, isI _ h3]
    exact placement2_total hn hpos hk (f := 2) rfl h3 h1 h2
  · omega

/-- A placement that is correct for the point `P`. -/
def PlaceSpec (H : Nat → HP K) (ts : List Tri) (P : HP K) : Placement → Prop
  | .inside i => ∃ t, ts[i]? = some t ∧ ∀ k, 0 < sideO H t P k
  | .onEdge i ei e => ∃ t, ts[i]? = some t ∧ e = ⟨t.v ei, t.v (ei + 1)⟩ ∧ |sideO H t P ei| < ExactParams.eps ∧
      (t.v ei < INF0 ∨ t.v (ei + 1) < INF0) ∧ ∀ k, 0 ≤ sideO H t P k
  | .notFound => True

/-- The search on a valid mesh: no panic, and the answer is correct. -/
theorem findLoop_total {p : Vtx K} (hn : vs.length ≤ INF0) (hv : Valid (hp vs) ts)
    (hok : VertsIn (VOk vs.length) ts) (n : Nat) : ∀ prev cur, (cur = NONE ∨ cur < ts.length) →
      (prev = cur ∨ ∃ a b, Ent ts cur a b prev ∧ prev ≠ NONE ∧ 0 < HP.o (hp vs a) (hp vs b) (HP.ofVtx p)) →
      ∃ pl, findLoop vs p ts n prev cur = .ok pl ∧ PlaceSpec (hp vs) ts (HP.ofVtx p) pl := by
  induction n with
  | zero => intro prev cur _ _; exact ⟨_, rfl, trivial⟩
  | succ n ih =>
    intro prev cur hc hw
    unfold findLoop
    by_cases hcn : cur = NONE
    · rw [if_pos hcn]; exact ⟨_, rfl, trivial⟩
    rw [if_neg hcn]
    obtain ⟨t, ht, _⟩ := getI_lt (hc.resolve_left hcn)
    obtain ⟨w, h1, h2⟩ := findStep_total (p := p) (prev := prev) hn hv hok ht
    rw [h1]
    simp only [Res.ok_bind]
    have hpos := hv.pos _ _ ht
    have prevPos : ∀ k, t.n k = prev → 0 < sideO (hp vs) t (HP.ofVtx p) k := by
      intro k hk
      have E : Ent ts cur (t.v k) (t.v (k + 1)) (t.n k) := ⟨t, ht, has_k t k⟩
      rcases hw with rfl | ⟨a, b, E', hne, hp'⟩
      · exact absurd hk (hv.ne_self E)
      · rw [hk] at E
        obtain ⟨e1, e2⟩ := hv.nb_unique E E' hne
        unfold sideO; rw [e1, e2]; exact hp'
    cases w with
    | found pl =>
      refine ⟨pl, rfl, ?_⟩
      cases pl with
      | notFound => exact h2.elim
      | inside i =>
        obtain ⟨rfl, h2⟩ := h2
        refine ⟨t, ht, fun k => ?_⟩
        rcases (h2 k).1 with h | h
        · exact prevPos k h
        · exact lt_of_le_of_ne h (Ne.symm (h2 k).2)
      | onEdge i ei e =>
        obtain ⟨rfl, he, ha, hf, h2⟩ := h2
        refine ⟨t, ht, he, ha, hf, fun k => ?_⟩
        rcases h2 k with h | h
        · exact (prevPos k h).le
        · exact h
    | go p' c' =>
      obtain ⟨rfl, k, hk, hk', hneg⟩ := h2
      have E : Ent ts p' (t.v k) (t.v (k + 1)) c' := ⟨t, ht, hk ▸ has_k t k⟩
      refine ih p' c' (hv.nb_range E) ?_
      by_cases hcn' : c' = NONE
      · subst hcn'
        exfalso
        rcases hv.adj _ _ _ _ E with ⟨_, i1, i2⟩ | h
        · -- an infinite edge never has a point on its outer side
          unfold sideO at hneg
          have hfin := hpos.exists_fin
          have hf : t.v (k + 2) < INF0 := by
            fin_cases k
            · exact (hfin.resolve_left i1).resolve_left i2
            · rcases hfin with h | h | h
              · exact h
              · exact absurd h i1
              · exact absurd h i2
            · rcases hfin with h | h | h
              · exact absurd h i2
              · exact h
              · exact absurd h i1
          rw [HP.o_inf2 (hp_w_inf vs i1) (hp_w_inf vs i2) (p := HP.ofVtx p) (q := hp vs (t.v (k + 2))) rfl
            (hp_w_fin vs hf)] at hneg
          unfold Pos at hpos
          fin_cases k
          · exact absurd hneg (not_lt.2 hpos.le)
          · rw [← HP.o_cyc] at hpos; exact absurd hneg (not_lt.2 hpos.le)
          · rw [← HP.o_cyc'] at hpos; exact absurd hneg (not_lt.2 hpos.le)
        · exact h.1 rfl
      · right
        refine ⟨_, _, hv.ent_pos E hcn', ?_, ?_⟩
        · have := lt_of_getElem? ht; have := hv.len; omega
        · rw [HP.o_swap]; unfold sideO at hneg; linarith

theorem findPlacement_total {p : Vtx K} {start : Nat} (hn : vs.length ≤ INF0) (hv : Valid (hp vs) ts)
    (hok : VertsIn (VOk vs.length) ts) (hs : start < ts.length) :
    ∃ pl, findPlacement vs p start ts = .ok pl ∧ PlaceSpec (hp vs) ts (HP.ofVtx p) pl :=
  findLoop_total hn hv hok _ _ _ (.inr hs) (.inl rfl)

end CDT

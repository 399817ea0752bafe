import Mathlib.Logic.Relation
import Verif.Geo.Flip

/-! # Restoration after an insertion -/

set_option linter.unusedSectionVars false
set_option linter.unusedSimpArgs false
set_option linter.unusedVariables false

namespace CDT

variable {K : Type} [Field K] [LinearOrder K] [IsStrictOrderedRing K] [ExactParams K] [IdCfg]
variable {vs : List (Vtx K)} {ts : List Tri}

/-- The edge opposite to `p` in triangle `i` does not satisfy the swap test. -/
def Settled (vs : List (Vtx K)) (p : Nat) (ts : List Tri) (i : Nat) : Prop :=
  ∀ a b n2 o n1, ts[i]? = some ⟨p, a, b, n2, o, n1⟩ → o ≠ NONE → ∀ U c m1 m2 m3, ts[o]? = some U →
    Rot U b a c m1 m2 m3 → shouldSwap vs ⟨a, b, c, p⟩ = .ok false

/-- Invariant of the restoration around the vertex `p`. -/
structure RInv (vs : List (Vtx K)) (p : Nat) (ts : List Tri) (st : List (Nat × Nat)) : Prop where
  valid : Valid (hp vs) ts
  ok : VertsIn (VOk vs.length) ts
  first : ∀ (i : Nat) (t : Tri), ts[i]? = some t → t.hasVert p = true → t.v1 = p
  stack : ∀ e ∈ st, ∃ t, ts[e.1]? = some t ∧ t.v1 = p ∧ t.n23 = e.2 ∧ e.2 ≠ NONE
  nodup : (st.map Prod.fst).Nodup
  settled : ∀ (i : Nat) (t : Tri), ts[i]? = some t → t.v1 = p → (∃ e ∈ st, e.1 = i) ∨ Settled vs p ts i

/-- Number of triangles around the inserted vertex. -/
def pCount (p : Nat) (ts : List Tri) : Nat := ts.countP fun t => decide (t.v1 = p)

theorem pCount_le (p : Nat) (ts : List Tri) : pCount p ts ≤ ts.length := List.countP_le_length

theorem pCount_append (p : Nat) (l l' : List Tri) : pCount p (l ++ l') = pCount p l + pCount p l' :=
  List.countP_append

/-- Counting by index. -/
theorem pCount_eq (p : Nat) (ts : List Tri) :
    pCount p ts = ((List.range ts.length).filter fun i => decide (∃ t, ts[i]? = some t ∧ t.v1 = p)).length := by
  induction ts using List.reverseRecOn with
  | nil => simp [pCount]
  | append_singleton l a ih =>
    rw [pCount_append, ih]
    simp only [List.length_append, List.length_singleton, List.range_succ, List.filter_append]
    congr 1
    · congr 1
      apply List.filter_congr
      intro i hi
      have hi : i < l.length := by simpa using hi
      rw [List.getElem?_append_left hi]
    · simp [pCount, List.countP_cons, List.filter_cons]
      by_cases h : a.v1 = p <;> simp [h]

theorem flip_pCount {p s o : Nat} {ts ts' : List Tri} (hl : ts'.length = ts.length)
    (hv1 : ∀ (i : Nat) (t : Tri), ts[i]? = some t → t.v1 = p → ∃ t' : Tri, ts'[i]? = some t' ∧ t'.v1 = p)
    {U U' : Tri} (hU : ts[o]? = some U) (hU1 : U.v1 ≠ p) (hU' : ts'[o]? = some U') (hU1' : U'.v1 = p) :
    pCount p ts + 1 ≤ pCount p ts' := by
  rw [pCount_eq, pCount_eq, hl]
  have hlo := lt_of_getElem? hU
  set A := (List.range ts.length).filter fun i => decide (∃ t, ts[i]? = some t ∧ t.v1 = p) with hA
  set B := (List.range ts.length).filter fun i => decide (∃ t, ts'[i]? = some t ∧ t.v1 = p) with hB
  have hnd : (o :: A).Nodup := by
    rw [List.nodup_cons]
    refine ⟨?_, List.Nodup.filter _ List.nodup_range⟩
    rw [hA, List.mem_filter]
    rintro ⟨_, h⟩
    simp only [decide_eq_true_eq] at h
    obtain ⟨t, ht, ht1⟩ := h
    rw [hU] at ht; simp at ht; subst ht; exact hU1 ht1
  have hsub : (o :: A) ⊆ B := by
    intro i hi
    rw [hB, List.mem_filter]
    rcases List.mem_cons.1 hi with rfl | hi
    · exact ⟨by simpa using hlo, by simpa using ⟨U', hU', hU1'⟩⟩
    · rw [hA, List.mem_filter] at hi
      refine ⟨hi.1, ?_⟩
      have h2 := hi.2
      simp only [decide_eq_true_eq] at h2 ⊢
      obtain ⟨t, ht, ht1⟩ := h2
      exact hv1 i t ht ht1
  have := (hnd.subperm hsub).length_le
  simpa using this

theorem hasVert_iff {t : Tri} {p : Nat} : t.hasVert p = true ↔ t.v1 = p ∨ t.v2 = p ∨ t.v3 = p := by
  simp [Tri.hasVert, or_assoc]

theorem Rot.hasVert {t : Tri} {a b c j1 j2 j3 p : Nat} (h : Rot t a b c j1 j2 j3) :
    t.hasVert p = true ↔ a = p ∨ b = p ∨ c = p := by
  rw [hasVert_iff]
  rcases h with rfl | rfl | rfl <;> simp only <;> tauto

theorem pushQ_mem {st : List (Nat × Nat)} {t n : Nat} {e : Nat × Nat} (h : e ∈ pushQ st t n) :
    (e = (t, n) ∧ n ≠ NONE) ∨ e ∈ st := by
  unfold pushQ at h
  split at h
  · exact .inr h
  · rcases List.mem_cons.1 h with rfl | h
    · exact .inl ⟨rfl, by assumption⟩
    · exact .inr h

theorem pushQ_mono {st : List (Nat × Nat)} {t n : Nat} {e : Nat × Nat} (h : e ∈ st) : e ∈ pushQ st t n := by
  unfold pushQ; split <;> simp [h]

theorem mem_pushQ {st : List (Nat × Nat)} {t n : Nat} (h : n ≠ NONE) : (t, n) ∈ pushQ st t n := by
  unfold pushQ; rw [if_neg h]; simp

theorem pushQ_length (st : List (Nat × Nat)) (t n : Nat) : (pushQ st t n).length ≤ st.length + 1 := by
  unfold pushQ; split <;> simp

theorem pushQ_nodup {st : List (Nat × Nat)} {t n : Nat} (h : (st.map Prod.fst).Nodup)
    (hn : t ∉ st.map Prod.fst) : ((pushQ st t n).map Prod.fst).Nodup := by
  unfold pushQ; split
  · exact h
  · simp only [List.map_cons, List.nodup_cons]; exact ⟨hn, h⟩

theorem pushQ_map_mem {st : List (Nat × Nat)} {t n x : Nat} (h : x ∈ (pushQ st t n).map Prod.fst) :
    x = t ∨ x ∈ st.map Prod.fst := by
  rw [List.mem_map] at h
  obtain ⟨e, he, rfl⟩ := h
  rcases pushQ_mem he with ⟨rfl, _⟩ | h
  · exact .inl rfl
  · exact .inr (List.mem_map_of_mem h)

/-- If the neighbor behind the opposite edge does not exist there is nothing to swap. -/
theorem settled_none {p i a b n2 n1 : Nat} (h : ts[i]? = some ⟨p, a, b, n2, NONE, n1⟩) : Settled vs p ts i := by
  intro a' b' n2' o n1' h' ho
  rw [h] at h'
  simp at h'
  exact absurd h'.2.2.2.1.symm ho

/-- One step of the restoration. -/
theorem RInv.step {p s o : Nat} {st : List (Nat × Nat)} (hI : RInv vs p ts ((s, o) :: st))
    (hn : vs.length ≤ INF0) (hpl : p < vs.length) :
    ∃ ts' st', checkAndSwap vs p ts s o st = .ok (ts', st') ∧ RInv vs p ts' st' ∧
      ((ts' = ts ∧ st' = st) ∨ (Flip (hp vs) ts ts' ∧ pCount p ts + 1 ≤ pCount p ts' ∧ st'.length ≤ st.length + 2)) := by
  have hv := hI.valid
  have hN := hv.len
  obtain ⟨T, hT, hT1, hT2, ho⟩ := hI.stack (s, o) (by simp)
  obtain ⟨v1, a, b, n2, n23, n1⟩ := T
  simp only at hT hT1 hT2 ho
  subst hT1 hT2
  have hls := lt_of_getElem? hT
  obtain ⟨U, c, n3, n4, hU, hRU, hcase⟩ := checkAndSwap_total (st := st) hv hn hI.ok hpl hT ho
  have hR := rot_self (⟨v1, a, b, n2, n23, n1⟩ : Tri)
  simp only at hR
  have hnd := hI.nodup
  simp only [List.map_cons, List.nodup_cons] at hnd
  rcases hcase with ⟨hsw, hres⟩ | ⟨hsw, ts', hres, hF, hs', ho', g1, g2⟩
  · refine ⟨ts, st, hres, ⟨hv, hI.ok, hI.first, fun e he => hI.stack e (by simp [he]), hnd.2, ?_⟩,
      .inl ⟨rfl, rfl⟩⟩
    intro i t ht ht1
    rcases hI.settled i t ht ht1 with ⟨e, he, rfl⟩ | h
    · rcases List.mem_cons.1 he with rfl | he
      · right
        intro a' b' n2' o' n1' h' _ U' c' m1 m2 m3 hU' hRU'
        rw [hT] at h'; simp at h'
        obtain ⟨rfl, rfl, rfl, rfl, rfl⟩ := h'
        rw [hU] at hU'; simp at hU'; subst hU'
        have e1 := hRU.has_iff.1 hRU'.has1
        have hne := hv.pos _ _ hU
        have x1 := hne.has_ne hRU.has1
        have x2 := hne.has_ne hRU.has2
        have x3 := hne.has_ne hRU.has3
        have hc : c' = c := by
          have e2 := hRU.has_iff.1 hRU'.has2
          rcases e2 with ⟨r, _⟩ | ⟨_, r, _⟩ | ⟨r, _⟩
          · exact absurd r x1
          · exact r.symm
          · exact absurd r x2.symm
        rw [hc]; exact hsw
      · exact .inl ⟨e, he, rfl⟩
    · exact .inr h
  · have hv' := hF.valid hv g1 g2
    have hok' := checkAndSwap_verts hres hI.ok (.inl hpl)
    simp only at hok'
    have hso := hF.s_ne_o hv
    have pS := hv.pos _ _ hT
    have pU := hv.pos _ _ hU
    have hpc : v1 ≠ c := by
      rintro rfl; rw [HP.o_same] at g2; exact lt_irrefl _ g2
    have hpa := pS.has_ne hR.has1
    have hbp := pS.has_ne hR.has3
    have hab := pS.has_ne hR.has2
    have hUp : ¬ U.hasVert v1 = true := by
      rw [hRU.hasVert]; rintro (h | h | h)
      · exact hbp h
      · exact hpa h.symm
      · exact hpc h.symm
    have hUv : U.v1 ≠ v1 := fun h => hUp (hasVert_iff.2 (.inl h))
    -- the outer neighbors of the opposite triangle are not around `p`
    have hcap : ¬ 0 < HP.o (hp vs v1) (hp vs c) (hp vs a) := by
      rw [HP.o_swap']; linarith
    have hbcp : ¬ 0 < HP.o (hp vs v1) (hp vs b) (hp vs c) := by
      rw [HP.o_swap']; linarith
    -- triangles around `p` other than `s` keep their description
    have keep : ∀ (i : Nat) (t : Tri), ts[i]? = some t → t.v1 = v1 → i ≠ s → t.n23 ≠ n23 ∧ i ≠ n23 ∧ ∃ t', ts'[i]? = some t' ∧
        t'.v1 = t.v1 ∧ t'.v2 = t.v2 ∧ t'.v3 = t.v3 ∧ t'.n23 = t.n23 := by
      intro i t ht ht1 his
      have hio : i ≠ n23 := by
        rintro rfl; rw [hU] at ht; simp at ht; subst ht; exact hUv ht1
      have pt := hv.pos _ _ ht
      have pte := pt.ne
      have E23 : Ent ts i t.v2 t.v3 t.n23 := ⟨t, ht, has_1 t⟩
      have hno : t.n23 ≠ n23 := by
        intro h
        rw [h] at E23
        have hr := hv.ent_pos E23 ho
        rcases hF.ent_o.1 hr with ⟨_, _, r⟩ | ⟨r1, r2, _⟩ | ⟨r1, r2, _⟩
        · exact his r.symm
        · -- v3 = a, v2 = c
          unfold Pos at pt
          rw [ht1, ← r1, ← r2] at pt
          exact hcap pt
        · unfold Pos at pt
          rw [ht1, ← r1, ← r2] at pt
          exact hbcp pt
      have hns : t.n23 ≠ s := by
        intro h
        rw [h] at E23
        have hr := hv.ent_pos E23 (by omega)
        rcases hF.ent_s.1 hr with ⟨r1, _, _⟩ | ⟨r1, r2, r⟩ | ⟨r1, r2, _⟩
        · exact pte.2.2 (r1.symm.trans ht1.symm)
        · exact hio r.symm
        · exact pte.1 (ht1.trans r2)
      refine ⟨hno, hio, ?_⟩
      have hlt := lt_of_getElem? ht
      obtain ⟨t', ht', _⟩ := getI_lt (l := ts') (i := i) (by rw [hF.len]; exact hlt)
      obtain ⟨t0, ht0, w1, w2, w3⟩ := hF.verts_other his hio ht'
      rw [ht] at ht0; simp at ht0; subst ht0
      refine ⟨t', ht', w1, w2, w3, ?_⟩
      have : Ent ts' i t'.v2 t'.v3 t'.n23 := ⟨t', ht', has_1 t'⟩
      rw [w2, w3] at this
      obtain ⟨j0, ⟨t0, ht0, hh⟩, hj⟩ := (hF.ent_other hv his hio).1 this
      rw [ht] at ht0; simp at ht0; subst ht0
      have : j0 = t.n23 := by
        rcases hh with ⟨r1, r2, _⟩ | ⟨_, _, r⟩ | ⟨r1, r2, _⟩
        · exact absurd r1 pte.1
        · exact r.symm
        · exact absurd r1.symm pte.2.1
      subst this
      rw [hj]
      simp only [hno, hns, if_false, ite_self]
    refine ⟨ts', _, hres, ⟨hv', hok', ?_, ?_, ?_, ?_⟩, .inr ⟨⟨_, _, _, _, _, _, _, _, _, _, hF, g1, g2⟩, ?_, ?_⟩⟩
    · intro i t ht htp
      by_cases his : i = s
      · subst his; rw [hs'] at ht; simp at ht; subst ht; rfl
      by_cases hio : i = n23
      · subst hio; rw [ho'] at ht; simp at ht; subst ht; rfl
      obtain ⟨t0, ht0, w1, w2, w3⟩ := hF.verts_other his hio ht
      rw [w1]
      refine hI.first i t0 ht0 ?_
      rw [hasVert_iff] at htp ⊢
      rwa [w1, w2, w3] at htp
    · intro e he
      rcases pushQ_mem he with ⟨rfl, h4⟩ | he
      · exact ⟨_, ho', rfl, rfl, h4⟩
      rcases pushQ_mem he with ⟨rfl, h3⟩ | he
      · exact ⟨_, hs', rfl, rfl, h3⟩
      obtain ⟨t, ht, ht1, ht2, ht3⟩ := hI.stack e (by simp [he])
      have hes : e.1 ≠ s := by
        intro h; exact hnd.1 (h ▸ List.mem_map_of_mem he)
      obtain ⟨_, _, t', ht', w1, _, _, w4⟩ := keep _ t ht ht1 hes
      exact ⟨t', ht', w1.trans ht1, w4.trans ht2, ht3⟩
    · have hno : n23 ∉ st.map Prod.fst := by
        intro h
        rw [List.mem_map] at h
        obtain ⟨e, he, h⟩ := h
        obtain ⟨t, ht, ht1, _⟩ := hI.stack e (by simp [he])
        rw [h, hU] at ht; simp at ht; subst ht; exact hUv ht1
      refine pushQ_nodup (pushQ_nodup hnd.2 hnd.1) ?_
      intro h
      rcases pushQ_map_mem h with h | h
      · exact hso h
      · exact hno h
    · intro i t ht ht1
      by_cases his : i = s
      · subst his
        by_cases h3 : n3 = NONE
        · right; rw [h3] at hs'; exact settled_none hs'
        · exact .inl ⟨_, pushQ_mono (mem_pushQ h3), rfl⟩
      by_cases hio : i = n23
      · subst hio
        by_cases h4 : n4 = NONE
        · right; rw [h4] at ho'; exact settled_none ho'
        · exact .inl ⟨_, mem_pushQ h4, rfl⟩
      obtain ⟨t0, ht0, w1, w2, w3⟩ := hF.verts_other his hio ht
      obtain ⟨k1, _, t', ht', x1, x2, x3, x4⟩ := keep i t0 ht0 (w1 ▸ ht1) his
      rw [ht] at ht'; simp at ht'; subst ht'
      rcases hI.settled i t0 ht0 (w1 ▸ ht1) with ⟨e, he, rfl⟩ | hset
      · rcases List.mem_cons.1 he with rfl | he
        · exact absurd rfl his
        · exact .inl ⟨e, pushQ_mono (pushQ_mono he), rfl⟩
      · right
        intro a' b' n2' o' n1' h' hno' U' c' m1 m2 m3 hU' hRU'
        rw [ht] at h'; simp at h'; subst h'
        simp only at x1 x2 x3 x4
        obtain ⟨y1, y2, y3, y4, y5, y6⟩ := t0
        simp only at x1 x2 x3 x4 k1
        subst x1 x2 x3 x4
        have ho's : o' ≠ s := by
          rintro rfl
          rcases hF.ent_s.1 (hv.ent_pos ⟨_, ht0, has_1 _⟩ hno') with ⟨r1, r2, _⟩ | ⟨_, _, r⟩ | ⟨r1, r2, _⟩
          · have := (hv.pos _ _ ht0).ne; exact this.2.2 r1.symm
          · exact hio r.symm
          · have := (hv.pos _ _ ht0).ne; exact this.1 r2
        obtain ⟨U0, hU0, z1, z2, z3⟩ := hF.verts_other ho's k1 hU'
        refine hset _ _ _ _ _ ht0 hno' U0 c'
          (if U0.v1 = b' then U0.n12 else if U0.v2 = b' then U0.n23 else U0.n31)
          (if U0.v1 = b' then U0.n23 else if U0.v2 = b' then U0.n31 else U0.n12)
          (if U0.v1 = b' then U0.n31 else if U0.v2 = b' then U0.n12 else U0.n23) hU0 ?_
        have pU0 := (hv.pos _ _ hU0).ne
        obtain ⟨u1, u2, u3, u4, u5, u6⟩ := U0
        simp only at z1 z2 z3 pU0 ⊢
        rcases hRU' with rfl | rfl | rfl
        · simp only at z1 z2 z3; subst z1 z2 z3
          left; simp
        · simp only at z1 z2 z3; subst z1 z2 z3
          right; left
          rw [if_neg pU0.1, if_neg pU0.1, if_neg pU0.1, if_pos rfl, if_pos rfl, if_pos rfl]
        · simp only at z1 z2 z3; subst z1 z2 z3
          right; right
          rw [if_neg pU0.2.2.symm, if_neg pU0.2.2.symm, if_neg pU0.2.2.symm, if_neg pU0.2.1, if_neg pU0.2.1, if_neg pU0.2.1]
    · refine flip_pCount (s := s) hF.len ?_ hU hUv ho' rfl
      intro i t ht ht1
      by_cases his : i = s
      · subst his; exact ⟨_, hs', rfl⟩
      · obtain ⟨_, _, t', ht', w1, _⟩ := keep i t ht ht1 his
        exact ⟨t', ht', w1.trans ht1⟩
    · refine le_trans (pushQ_length _ _ _) ?_
      have := pushQ_length st s n3
      omega

/-- The restoration terminates, without panic, with a valid mesh in which the edges opposite to `p`
are settled. -/
theorem restore_total {p : Nat} (hn : vs.length ≤ INF0) (hpl : p < vs.length) (fuel : Nat) :
    ∀ (ts : List Tri) (st : List (Nat × Nat)), RInv vs p ts st →
      st.length + 3 * (ts.length - pCount p ts) ≤ fuel →
      ∃ ts', restore vs p fuel ts st = .ok ts' ∧ RInv vs p ts' [] ∧ Relation.ReflTransGen (Flip (hp vs)) ts ts' := by
  induction fuel with
  | zero =>
    intro ts st hI hf
    cases st with
    | nil => exact ⟨ts, by simp [restore], hI, .refl⟩
    | cons e st => simp at hf
  | succ n ih =>
    intro ts st hI hf
    cases st with
    | nil => exact ⟨ts, by simp [restore], hI, .refl⟩
    | cons e st =>
      obtain ⟨s, o⟩ := e
      obtain ⟨ts', st', h1, hI', hc⟩ := hI.step hn hpl
      have hlen := checkAndSwap_length h1
      simp only at hlen
      simp only [List.length_cons] at hf
      have hle := pCount_le p ts'
      have hle0 := pCount_le p ts
      obtain ⟨ts'', h2, h3, h4⟩ := ih ts' st' hI' (by
        rcases hc with ⟨rfl, rfl⟩ | ⟨_, h5, h6⟩ <;> omega)
      refine ⟨ts'', ?_, h3, ?_⟩
      · simp only [restore, h1, Res.ok_bind, h2]
      · rcases hc with ⟨rfl, rfl⟩ | ⟨h5, _⟩
        · exact h4
        · exact Relation.ReflTransGen.head h5 h4

end CDT

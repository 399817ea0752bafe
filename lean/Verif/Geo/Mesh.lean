import Verif.Geo.Homog

/-! # Valid meshes -/

set_option linter.unusedSectionVars false
set_option linter.unusedSimpArgs false
set_option linter.unusedVariables false

namespace CDT

/-- Triangle `t` has the directed edge `a → b` with neighbor `j` behind it. -/
def Has (t : Tri) (a b j : Nat) : Prop :=
  (t.v1 = a ∧ t.v2 = b ∧ t.n12 = j) ∨ (t.v2 = a ∧ t.v3 = b ∧ t.n23 = j) ∨
    (t.v3 = a ∧ t.v1 = b ∧ t.n31 = j)

/-- Triangle number `i` has the directed edge `a → b` with neighbor `j`. -/
def Ent (ts : List Tri) (i a b j : Nat) : Prop := ∃ t, ts[i]? = some t ∧ Has t a b j

theorem Has.k {t : Tri} {a b j : Nat} (h : Has t a b j) :
    ∃ k, t.v k = a ∧ t.v (k + 1) = b ∧ t.n k = j := by
  rcases h with h | h | h
  · exact ⟨0, h⟩
  · exact ⟨1, h⟩
  · exact ⟨2, h⟩

theorem has_0 (t : Tri) : Has t t.v1 t.v2 t.n12 := .inl ⟨rfl, rfl, rfl⟩
theorem has_1 (t : Tri) : Has t t.v2 t.v3 t.n23 := .inr (.inl ⟨rfl, rfl, rfl⟩)
theorem has_2 (t : Tri) : Has t t.v3 t.v1 t.n31 := .inr (.inr ⟨rfl, rfl, rfl⟩)

theorem has_k (t : Tri) (k : Fin 3) : Has t (t.v k) (t.v (k + 1)) (t.n k) := by
  fin_cases k
  · exact has_0 t
  · exact has_1 t
  · exact has_2 t

variable {K : Type} [Field K] [LinearOrder K] [IsStrictOrderedRing K] [IdCfg]

/-- Strictly clockwise triangle. -/
def Pos (H : Nat → HP K) (t : Tri) : Prop := 0 < HP.o (H t.v1) (H t.v2) (H t.v3)

theorem Pos.has {H : Nat → HP K} {t : Tri} (h : Pos H t) {a b j : Nat} (hh : Has t a b j) :
    ∃ c, (c = t.v1 ∨ c = t.v2 ∨ c = t.v3) ∧ 0 < HP.o (H a) (H b) (H c) ∧
      ∃ j2 j3, Has t b c j2 ∧ Has t c a j3 := by
  unfold Pos at h
  rcases hh with ⟨rfl, rfl, rfl⟩ | ⟨rfl, rfl, rfl⟩ | ⟨rfl, rfl, rfl⟩
  · exact ⟨t.v3, by simp, h, _, _, has_1 t, has_2 t⟩
  · exact ⟨t.v1, by simp, by rw [HP.o_cyc]; exact h, _, _, has_2 t, has_0 t⟩
  · exact ⟨t.v2, by simp, by rw [HP.o_cyc']; exact h, _, _, has_0 t, has_1 t⟩

theorem Pos.ne {H : Nat → HP K} {t : Tri} (h : Pos H t) : t.v1 ≠ t.v2 ∧ t.v2 ≠ t.v3 ∧ t.v3 ≠ t.v1 := by
  unfold Pos at h
  refine ⟨fun e => ?_, fun e => ?_, fun e => ?_⟩
  · rw [e, HP.o_same] at h; exact lt_irrefl _ h
  · rw [e, HP.o_same'] at h; exact lt_irrefl _ h
  · rw [e, HP.o_same''] at h; exact lt_irrefl _ h

theorem Pos.has_ne {H : Nat → HP K} {t : Tri} (h : Pos H t) {a b j : Nat} (hh : Has t a b j) : a ≠ b := by
  obtain ⟨h1, h2, h3⟩ := h.ne
  rcases hh with ⟨rfl, rfl, rfl⟩ | ⟨rfl, rfl, rfl⟩ | ⟨rfl, rfl, rfl⟩ <;> assumption

/-- Two triangles, one having the edges `a→b`, `b→c`, the other `b→a`, `c→b` cannot both be
clockwise. -/
theorem Pos.not_rev {H : Nat → HP K} {t u : Tri} (ht : Pos H t) (hu : Pos H u) {a b c j1 j2 j3 j4 : Nat}
    (h1 : Has t a b j1) (h2 : Has t b c j2) (h3 : Has u b a j3) (h4 : Has u c b j4) : False := by
  have key : ∀ {t : Tri} {a b c j1 j2}, Pos H t → Has t a b j1 → Has t b c j2 →
      0 < HP.o (H a) (H b) (H c) := by
    intro t a b c j1 j2 ht h1 h2
    obtain ⟨n1, n2, n3⟩ := ht.ne
    unfold Pos at ht
    rcases h1 with ⟨rfl, rfl, rfl⟩ | ⟨rfl, rfl, rfl⟩ | ⟨rfl, rfl, rfl⟩ <;>
      rcases h2 with ⟨e1, rfl, rfl⟩ | ⟨e1, rfl, rfl⟩ | ⟨e1, rfl, rfl⟩ <;>
      first
      | exact absurd e1 ‹_›
      | exact absurd e1.symm ‹_›
      | exact ht
      | (rw [HP.o_cyc]; exact ht)
      | (rw [HP.o_cyc']; exact ht)
  have k1 := key ht h1 h2
  have k2 := key hu h4 h3
  rw [HP.o_swap''] at k2
  linarith

/-- The mesh invariant. -/
structure Valid (H : Nat → HP K) (ts : List Tri) : Prop where
  pos : ∀ (i : Nat) (t : Tri), ts[i]? = some t → Pos H t
  adj : ∀ (i a b j : Nat), Ent ts i a b j → (j = NONE ∧ ¬ a < INF0 ∧ ¬ b < INF0) ∨ (j ≠ NONE ∧ Ent ts j b a i)
  len : ts.length ≤ NONE

variable {H : Nat → HP K} {ts : List Tri}

theorem Ent.lt {i a b j : Nat} (h : Ent ts i a b j) : i < ts.length := by
  obtain ⟨t, ht, _⟩ := h; exact lt_of_getElem? ht

theorem Valid.ent_pos (hv : Valid H ts) {i a b j : Nat} (h : Ent ts i a b j) (hj : j ≠ NONE) :
    Ent ts j b a i := by
  rcases hv.adj i a b j h with h' | h'
  · exact absurd h'.1 hj
  · exact h'.2

theorem Valid.ne_self (hv : Valid H ts) {i a b j : Nat} (h : Ent ts i a b j) : j ≠ i := by
  rintro rfl
  have h0 := h
  obtain ⟨t, ht, hh⟩ := h
  have hl := lt_of_getElem? ht
  have hjn : j ≠ NONE := by have := hv.len; omega
  obtain ⟨u, hu, hh'⟩ := hv.ent_pos h0 hjn
  rw [ht] at hu; simp at hu; subst hu
  have hp := hv.pos _ _ ht
  obtain ⟨c, _, _, j2, j3, hbc, hca⟩ := hp.has hh
  obtain ⟨n1, n2, n3⟩ := hp.ne
  rcases hh with ⟨rfl, rfl, -⟩ | ⟨rfl, rfl, -⟩ | ⟨rfl, rfl, -⟩ <;>
    rcases hh' with ⟨e1, e2, -⟩ | ⟨e1, e2, -⟩ | ⟨e1, e2, -⟩ <;>
    first
    | exact absurd e1 ‹_›
    | exact absurd e1.symm ‹_›
    | exact absurd e2 ‹_›

/-- Two edges of one triangle have different neighbors. -/
theorem Valid.nb_unique (hv : Valid H ts) {i a b a' b' j : Nat} (h : Ent ts i a b j)
    (h' : Ent ts i a' b' j) (hj : j ≠ NONE) : a = a' ∧ b = b' := by
  obtain ⟨u, hu, r⟩ := hv.ent_pos h hj
  obtain ⟨u', hu', r'⟩ := hv.ent_pos h' hj
  rw [hu] at hu'; simp at hu'; subst hu'
  obtain ⟨t, ht, hh⟩ := h
  obtain ⟨t', ht', hh'⟩ := h'
  rw [ht] at ht'; simp at ht'; subst ht'
  have pt := hv.pos _ _ ht
  have pu := hv.pos _ _ hu
  have H1 := hh
  have H2 := hh'
  rcases hh with ⟨rfl, rfl, -⟩ | ⟨rfl, rfl, -⟩ | ⟨rfl, rfl, -⟩ <;>
    rcases hh' with ⟨rfl, rfl, -⟩ | ⟨rfl, rfl, -⟩ | ⟨rfl, rfl, -⟩ <;>
    first
    | exact ⟨rfl, rfl⟩
    | exact (pt.not_rev pu H1 H2 r r').elim
    | exact (pt.not_rev pu H2 H1 r' r).elim

/-- Slot-level version: equal neighbors sit in equal slots. -/
theorem Valid.n_inj (hv : Valid H ts) {i : Nat} {t : Tri} (ht : ts[i]? = some t) {k m : Fin 3}
    (h : t.n k = t.n m) (hn : t.n k ≠ NONE) : k = m := by
  have h1 : Ent ts i _ _ _ := ⟨t, ht, has_k t k⟩
  have h2 : Ent ts i _ _ _ := ⟨t, ht, has_k t m⟩
  rw [← h] at h2
  obtain ⟨e, _⟩ := hv.nb_unique h1 h2 hn
  obtain ⟨n1, n2, n3⟩ := (hv.pos _ _ ht).ne
  fin_cases k <;> fin_cases m <;> simp_all

/-- A neighbor id is `NONE` or in range. -/
theorem Valid.nb_range (hv : Valid H ts) {i a b j : Nat} (h : Ent ts i a b j) : j = NONE ∨ j < ts.length := by
  by_cases hj : j = NONE
  · exact .inl hj
  · exact .inr (hv.ent_pos h hj).lt

/-! ## `updN`, `updNb` -/

/-- Effect of `update_triangle_neighbor` when at most one slot holds `old`. -/
theorem has_updN {t : Tri} {old new : Nat}
    (hu : ∀ k m : Fin 3, t.n k = old → t.n m = old → k = m) {a b j : Nat} :
    Has (t.updN old new) a b j ↔ ∃ j0, Has t a b j0 ∧ j = if j0 = old then new else j0 := by
  have h01 := hu 0 1
  have h02 := hu 0 2
  have h12 := hu 1 2
  simp only [Tri.n] at h01 h02 h12
  have n01 : ¬ (t.n12 = old ∧ t.n23 = old) := fun h => absurd (h01 h.1 h.2) (by decide)
  have n02 : ¬ (t.n12 = old ∧ t.n31 = old) := fun h => absurd (h02 h.1 h.2) (by decide)
  have n12 : ¬ (t.n23 = old ∧ t.n31 = old) := fun h => absurd (h12 h.1 h.2) (by decide)
  clear h01 h02 h12 hu
  constructor
  · intro h
    unfold Tri.updN at h
    split at h
    · rename_i e
      rcases h with ⟨rfl, rfl, rfl⟩ | ⟨rfl, rfl, rfl⟩ | ⟨rfl, rfl, rfl⟩
      · exact ⟨_, has_0 t, by simp [e]⟩
      · exact ⟨_, has_1 t, by simp only; rw [if_neg (fun h => n01 ⟨e, h⟩)]⟩
      · exact ⟨_, has_2 t, by simp only; rw [if_neg (fun h => n02 ⟨e, h⟩)]⟩
    · rename_i e0
      split at h
      · rename_i e
        rcases h with ⟨rfl, rfl, rfl⟩ | ⟨rfl, rfl, rfl⟩ | ⟨rfl, rfl, rfl⟩
        · exact ⟨_, has_0 t, by simp [e0]⟩
        · exact ⟨_, has_1 t, by simp [e]⟩
        · exact ⟨_, has_2 t, by simp only; rw [if_neg (fun h => n12 ⟨e, h⟩)]⟩
      · rename_i e1
        split at h
        · rename_i e
          rcases h with ⟨rfl, rfl, rfl⟩ | ⟨rfl, rfl, rfl⟩ | ⟨rfl, rfl, rfl⟩
          · exact ⟨_, has_0 t, by simp [e0]⟩
          · exact ⟨_, has_1 t, by simp [e1]⟩
          · exact ⟨_, has_2 t, by simp [e]⟩
        · rename_i e2
          rcases h with ⟨rfl, rfl, rfl⟩ | ⟨rfl, rfl, rfl⟩ | ⟨rfl, rfl, rfl⟩
          · exact ⟨_, has_0 t, by simp [e0]⟩
          · exact ⟨_, has_1 t, by simp [e1]⟩
          · exact ⟨_, has_2 t, by simp [e2]⟩
  · rintro ⟨j0, h, rfl⟩
    unfold Tri.updN
    rcases h with ⟨rfl, rfl, rfl⟩ | ⟨rfl, rfl, rfl⟩ | ⟨rfl, rfl, rfl⟩
    · by_cases e : t.n12 = old
      · simp [e, Has]
      · simp only [e, if_false]
        left
        split <;> [skip; split] <;> simp
    · by_cases e : t.n23 = old
      · have e0 : ¬ t.n12 = old := fun h => n01 ⟨h, e⟩
        simp [e, e0, Has]
      · simp only [e, if_false]
        right; left
        split <;> [skip; split] <;> simp
    · by_cases e : t.n31 = old
      · have e0 : ¬ t.n12 = old := fun h => n02 ⟨h, e⟩
        have e1 : ¬ t.n23 = old := fun h => n12 ⟨h, e⟩
        simp [e, e0, e1, Has]
      · simp only [e, if_false]
        right; right
        split <;> [skip; split] <;> simp

end CDT

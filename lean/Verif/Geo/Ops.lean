import Verif.Geo.Mesh

/-! # The mesh operations on valid meshes: split in three, split in four, diagonal swap -/

set_option linter.unusedSectionVars false
set_option linter.unusedSimpArgs false
set_option linter.unusedVariables false

namespace CDT

/-- `t` is `⟨a, b, c, j1, j2, j3⟩` up to rotation. -/
def Rot (t : Tri) (a b c j1 j2 j3 : Nat) : Prop :=
  t = ⟨a, b, c, j1, j2, j3⟩ ∨ t = ⟨c, a, b, j3, j1, j2⟩ ∨ t = ⟨b, c, a, j2, j3, j1⟩

theorem Rot.has_iff {t : Tri} {a b c j1 j2 j3 : Nat} (h : Rot t a b c j1 j2 j3) {x y j : Nat} :
    Has t x y j ↔ (a = x ∧ b = y ∧ j1 = j) ∨ (b = x ∧ c = y ∧ j2 = j) ∨ (c = x ∧ a = y ∧ j3 = j) := by
  rcases h with rfl | rfl | rfl <;> simp only [Has] <;> tauto

theorem Rot.next {t : Tri} {a b c j1 j2 j3 : Nat} (h : Rot t a b c j1 j2 j3) : Rot t b c a j2 j3 j1 := by
  rcases h with rfl | rfl | rfl <;> simp [Rot]

theorem Rot.has1 {t : Tri} {a b c j1 j2 j3 : Nat} (h : Rot t a b c j1 j2 j3) : Has t a b j1 :=
  h.has_iff.2 (by simp)
theorem Rot.has2 {t : Tri} {a b c j1 j2 j3 : Nat} (h : Rot t a b c j1 j2 j3) : Has t b c j2 :=
  h.has_iff.2 (by simp)
theorem Rot.has3 {t : Tri} {a b c j1 j2 j3 : Nat} (h : Rot t a b c j1 j2 j3) : Has t c a j3 :=
  h.has_iff.2 (by simp)

theorem Has.rot {t : Tri} {a b j : Nat} (h : Has t a b j) : ∃ c j2 j3, Rot t a b c j j2 j3 := by
  obtain ⟨v1, v2, v3, n12, n23, n31⟩ := t
  rcases h with ⟨rfl, rfl, rfl⟩ | ⟨rfl, rfl, rfl⟩ | ⟨rfl, rfl, rfl⟩
  · exact ⟨v3, n23, n31, .inl rfl⟩
  · exact ⟨v1, n31, n12, .inr (.inl rfl)⟩
  · exact ⟨v2, n12, n23, .inr (.inr rfl)⟩

theorem rot_self (t : Tri) : Rot t t.v1 t.v2 t.v3 t.n12 t.n23 t.n31 := .inl rfl

section
variable {K : Type} [Field K] [LinearOrder K] [IsStrictOrderedRing K]
theorem Rot.pos_iff {H : Nat → HP K} {t : Tri} {a b c j1 j2 j3 : Nat} (h : Rot t a b c j1 j2 j3) :
    Pos H t ↔ 0 < HP.o (H a) (H b) (H c) := by
  unfold Pos
  rcases h with rfl | rfl | rfl
  · rfl
  · simp only; rw [HP.o_cyc']
  · simp only; rw [HP.o_cyc]
end

variable {K : Type} [Field K] [LinearOrder K] [IsStrictOrderedRing K] [IdCfg]
variable {H : Nat → HP K} {ts ts' : List Tri}

theorem Tri.updN_verts (t : Tri) (o n : Nat) :
    (t.updN o n).v1 = t.v1 ∧ (t.updN o n).v2 = t.v2 ∧ (t.updN o n).v3 = t.v3 :=
  ⟨t.updN_v o n 0, t.updN_v o n 1, t.updN_v o n 2⟩

theorem updNb_total (ts : List Tri) {n old new : Nat} (h : n = NONE ∨ n < ts.length) :
    ∃ ts', updNb ts n old new = .ok ts' ∧ ts'.length = ts.length ∧
      ∀ i, ts'[i]? = if n ≠ NONE ∧ i = n then ts[i]?.map (·.updN old new) else ts[i]? := by
  unfold updNb
  by_cases hn : n = NONE
  · rw [if_pos hn]; exact ⟨ts, rfl, rfl, fun i => by rw [if_neg (fun h => h.1 hn)]⟩
  · rw [if_neg hn]
    obtain ⟨t, ht, ht'⟩ := getI_lt (h.resolve_left hn)
    rw [ht']
    refine ⟨_, rfl, by simp, fun i => ?_⟩
    by_cases hi : i = n
    · subst hi
      have := lt_of_getElem? ht
      rw [List.getElem?_set_self this, if_pos ⟨hn, rfl⟩, ht]; rfl
    · simp [hi, List.getElem?_set_ne (Ne.symm hi)]

/-- Locality: adjacency has to be checked only around the changed triangles `D`. -/
theorem adj_of_local (hv : Valid H ts) (D : Nat → Prop)
    (ext1 : ∀ i a b j', ¬ D i → Ent ts' i a b j' →
      (¬ D j' ∧ Ent ts i a b j') ∨ (j' ≠ NONE ∧ Ent ts' j' b a i))
    (ext2 : ∀ i a b j, ¬ D i → ¬ D j → Ent ts i a b j → Ent ts' i a b j)
    (int : ∀ i a b j, D i → Ent ts' i a b j →
      (j = NONE ∧ ¬ a < INF0 ∧ ¬ b < INF0) ∨ (j ≠ NONE ∧ Ent ts' j b a i)) :
    ∀ i a b j, Ent ts' i a b j → (j = NONE ∧ ¬ a < INF0 ∧ ¬ b < INF0) ∨ (j ≠ NONE ∧ Ent ts' j b a i) := by
  intro i a b j h
  by_cases hi : D i
  · exact int i a b j hi h
  · rcases ext1 i a b j hi h with ⟨hj, h'⟩ | h'
    · rcases hv.adj i a b j h' with h2 | ⟨h2, h3⟩
      · exact .inl h2
      · exact .inr ⟨h2, ext2 j b a i hj hi h3⟩
    · exact .inr h'

theorem Valid.has_updN (hv : Valid H ts) {i : Nat} {t : Tri} (ht : ts[i]? = some t) {old new : Nat}
    (ho : old ≠ NONE) {a b j : Nat} :
    Has (t.updN old new) a b j ↔ ∃ j0, Has t a b j0 ∧ j = if j0 = old then new else j0 := by
  refine CDT.has_updN (fun k m hk hm => hv.n_inj ht (hk.trans hm.symm) (by rw [hk]; exact ho))

/-! ## Diagonal swap -/

/-- The swap of the diagonal `a b` shared by the triangles `s = (p a b)` and `o = (b a c)`. -/
structure FlipSpec (ts ts' : List Tri) (s o p a b c n1 n2 n3 n4 : Nat) : Prop where
  hs : ∃ t, ts[s]? = some t ∧ Rot t p a b n2 o n1
  ho : ∃ t, ts[o]? = some t ∧ Rot t b a c s n3 n4
  hs' : ∃ t, ts'[s]? = some t ∧ Rot t p a c n2 n3 o
  ho' : ∃ t, ts'[o]? = some t ∧ Rot t p c b s n4 n1
  len : ts'.length = ts.length
  other : ∀ i, i ≠ s → i ≠ o → ts'[i]? =
    if n1 ≠ NONE ∧ i = n1 then ts[i]?.map (·.updN s o)
    else if n3 ≠ NONE ∧ i = n3 then ts[i]?.map (·.updN o s)
    else ts[i]?

/-- The two triangles receiving a new neighbor are different. -/
theorem flip_n1_ne_n3 (hv : Valid H ts) {s o p a b c n1 n2 n3 n4 : Nat} {t u : Tri}
    (ht : ts[s]? = some t) (hR : Rot t p a b n2 o n1) (hu : ts[o]? = some u) (hRu : Rot u b a c s n3 n4)
    (hpc : p ≠ c) (hn : n1 ≠ NONE) : n1 ≠ n3 := by
  intro he
  obtain ⟨x, hx, h1⟩ := hv.ent_pos ⟨t, ht, hR.has3⟩ hn
  obtain ⟨x', hx', h3⟩ := hv.ent_pos ⟨u, hu, hRu.has2⟩ (he ▸ hn)
  rw [he, hx'] at hx; simp at hx; subst hx
  have p1 := (hv.pos _ _ ht)
  have p2 := (hv.pos _ _ hu)
  have hab := p1.has_ne hR.has2
  have hpa := p1.has_ne hR.has1
  have hbc := (p2.has_ne hRu.has3)
  obtain ⟨d, j2, j3, hR3⟩ := h1.rot
  rcases hR3.has_iff.1 h3 with ⟨e1, e2, _⟩ | ⟨e1, e2, _⟩ | ⟨e1, e2, _⟩
  · exact hpc e1
  · exact hbc e1.symm
  · exact hpa e2

section
variable {s o p a b c n1 n2 n3 n4 : Nat}

theorem FlipSpec.s_ne_o (hf : FlipSpec ts ts' s o p a b c n1 n2 n3 n4) (hv : Valid H ts) : o ≠ s := by
  obtain ⟨t, ht, hR⟩ := hf.hs
  exact hv.ne_self ⟨t, ht, hR.has2⟩

theorem FlipSpec.lt_none (hf : FlipSpec ts ts' s o p a b c n1 n2 n3 n4) (hv : Valid H ts) :
    s < NONE ∧ o < NONE := by
  obtain ⟨t, ht, _⟩ := hf.hs
  obtain ⟨u, hu, _⟩ := hf.ho
  have := lt_of_getElem? ht
  have := lt_of_getElem? hu
  have := hv.len
  omega

/-- Edges of the triangles outside the quad: same edges, the neighbor is renamed. -/
theorem FlipSpec.ent_other (hf : FlipSpec ts ts' s o p a b c n1 n2 n3 n4) (hv : Valid H ts)
    {i x y j : Nat} (his : i ≠ s) (hio : i ≠ o) :
    Ent ts' i x y j ↔ ∃ j0, Ent ts i x y j0 ∧
      j = if n1 ≠ NONE ∧ i = n1 then (if j0 = s then o else j0)
          else if n3 ≠ NONE ∧ i = n3 then (if j0 = o then s else j0) else j0 := by
  obtain ⟨l1, l2⟩ := hf.lt_none hv
  have ho := hf.other i his hio
  by_cases h1 : n1 ≠ NONE ∧ i = n1
  · rw [if_pos h1] at ho
    simp only [if_pos h1]
    constructor
    · rintro ⟨t', ht', hh⟩
      rw [ho, Option.map_eq_some_iff] at ht'
      obtain ⟨t, ht, rfl⟩ := ht'
      rw [hv.has_updN ht (by omega)] at hh
      obtain ⟨j0, h0, hj⟩ := hh
      exact ⟨j0, ⟨t, ht, h0⟩, hj⟩
    · rintro ⟨j0, ⟨t, ht, h0⟩, hj⟩
      exact ⟨_, by rw [ho, ht]; rfl, (hv.has_updN ht (by omega)).2 ⟨j0, h0, hj⟩⟩
  · rw [if_neg h1] at ho
    simp only [if_neg h1]
    by_cases h3 : n3 ≠ NONE ∧ i = n3
    · rw [if_pos h3] at ho
      simp only [if_pos h3]
      constructor
      · rintro ⟨t', ht', hh⟩
        rw [ho, Option.map_eq_some_iff] at ht'
        obtain ⟨t, ht, rfl⟩ := ht'
        rw [hv.has_updN ht (by omega)] at hh
        obtain ⟨j0, h0, hj⟩ := hh
        exact ⟨j0, ⟨t, ht, h0⟩, hj⟩
      · rintro ⟨j0, ⟨t, ht, h0⟩, hj⟩
        exact ⟨_, by rw [ho, ht]; rfl, (hv.has_updN ht (by omega)).2 ⟨j0, h0, hj⟩⟩
    · rw [if_neg h3] at ho
      simp only [if_neg h3]
      constructor
      · rintro ⟨t', ht', hh⟩
        rw [ho] at ht'
        exact ⟨j, ⟨t', ht', hh⟩, rfl⟩
      · rintro ⟨j0, ⟨t, ht, h0⟩, rfl⟩
        exact ⟨t, by rw [ho, ht], h0⟩

/-- Vertices of the triangles outside the quad are unchanged. -/
theorem FlipSpec.verts_other (hf : FlipSpec ts ts' s o p a b c n1 n2 n3 n4)
    {i : Nat} (his : i ≠ s) (hio : i ≠ o) {t' : Tri} (ht' : ts'[i]? = some t') :
    ∃ t, ts[i]? = some t ∧ t'.v1 = t.v1 ∧ t'.v2 = t.v2 ∧ t'.v3 = t.v3 := by
  rw [hf.other i his hio] at ht'
  split at ht'
  · rw [Option.map_eq_some_iff] at ht'
    obtain ⟨t, ht, rfl⟩ := ht'
    exact ⟨t, ht, t.updN_verts _ _⟩
  · split at ht'
    · rw [Option.map_eq_some_iff] at ht'
      obtain ⟨t, ht, rfl⟩ := ht'
      exact ⟨t, ht, t.updN_verts _ _⟩
    · exact ⟨t', ht', rfl, rfl, rfl⟩

theorem FlipSpec.ent_s (hf : FlipSpec ts ts' s o p a b c n1 n2 n3 n4) {x y j : Nat} :
    Ent ts s x y j ↔ (p = x ∧ a = y ∧ n2 = j) ∨ (a = x ∧ b = y ∧ o = j) ∨ (b = x ∧ p = y ∧ n1 = j) := by
  obtain ⟨t, ht, hR⟩ := hf.hs
  constructor
  · rintro ⟨t', ht', hh⟩
    rw [ht] at ht'; simp at ht'; subst ht'
    exact hR.has_iff.1 hh
  · intro h; exact ⟨t, ht, hR.has_iff.2 h⟩

theorem FlipSpec.ent_o (hf : FlipSpec ts ts' s o p a b c n1 n2 n3 n4) {x y j : Nat} :
    Ent ts o x y j ↔ (b = x ∧ a = y ∧ s = j) ∨ (a = x ∧ c = y ∧ n3 = j) ∨ (c = x ∧ b = y ∧ n4 = j) := by
  obtain ⟨t, ht, hR⟩ := hf.ho
  constructor
  · rintro ⟨t', ht', hh⟩
    rw [ht] at ht'; simp at ht'; subst ht'
    exact hR.has_iff.1 hh
  · intro h; exact ⟨t, ht, hR.has_iff.2 h⟩

theorem FlipSpec.ent_s' (hf : FlipSpec ts ts' s o p a b c n1 n2 n3 n4) {x y j : Nat} :
    Ent ts' s x y j ↔ (p = x ∧ a = y ∧ n2 = j) ∨ (a = x ∧ c = y ∧ n3 = j) ∨ (c = x ∧ p = y ∧ o = j) := by
  obtain ⟨t, ht, hR⟩ := hf.hs'
  constructor
  · rintro ⟨t', ht', hh⟩
    rw [ht] at ht'; simp at ht'; subst ht'
    exact hR.has_iff.1 hh
  · intro h; exact ⟨t, ht, hR.has_iff.2 h⟩

theorem FlipSpec.ent_o' (hf : FlipSpec ts ts' s o p a b c n1 n2 n3 n4) {x y j : Nat} :
    Ent ts' o x y j ↔ (p = x ∧ c = y ∧ s = j) ∨ (c = x ∧ b = y ∧ n4 = j) ∨ (b = x ∧ p = y ∧ n1 = j) := by
  obtain ⟨t, ht, hR⟩ := hf.ho'
  constructor
  · rintro ⟨t', ht', hh⟩
    rw [ht] at ht'; simp at ht'; subst ht'
    exact hR.has_iff.1 hh
  · intro h; exact ⟨t, ht, hR.has_iff.2 h⟩

/-- Facts about the outer neighbors of a quad. -/
theorem FlipSpec.outer_ne (hf : FlipSpec ts ts' s o p a b c n1 n2 n3 n4) (hv : Valid H ts)
    (hpc : p ≠ c) :
    (n1 ≠ s ∧ n2 ≠ s ∧ n3 ≠ s ∧ n4 ≠ s) ∧ (n1 ≠ o ∧ n2 ≠ o ∧ n3 ≠ o ∧ n4 ≠ o) ∧
    (n1 ≠ NONE → n1 ≠ n2) ∧ (n3 ≠ NONE → n3 ≠ n4) ∧ (n1 ≠ NONE → n1 ≠ n3) := by
  obtain ⟨l1, l2⟩ := hf.lt_none hv
  obtain ⟨t, ht, hR⟩ := hf.hs
  obtain ⟨u, hu, hRu⟩ := hf.ho
  have e1 : Ent ts s b p n1 := hf.ent_s.2 (by simp)
  have e2 : Ent ts s p a n2 := hf.ent_s.2 (by simp)
  have eo : Ent ts s a b o := hf.ent_s.2 (by simp)
  have e3 : Ent ts o a c n3 := hf.ent_o.2 (by simp)
  have e4 : Ent ts o c b n4 := hf.ent_o.2 (by simp)
  have es : Ent ts o b a s := hf.ent_o.2 (by simp)
  have hpa := (hv.pos _ _ ht).has_ne hR.has1
  have hab := (hv.pos _ _ ht).has_ne hR.has2
  have hbp := (hv.pos _ _ ht).has_ne hR.has3
  have hac := (hv.pos _ _ hu).has_ne hRu.has2
  have hcb := (hv.pos _ _ hu).has_ne hRu.has3
  refine ⟨⟨hv.ne_self e1, hv.ne_self e2, ?_, ?_⟩, ⟨?_, ?_, hv.ne_self e3, hv.ne_self e4⟩, ?_, ?_, ?_⟩
  · rintro rfl; exact hab.symm (hv.nb_unique es e3 (by omega)).1
  · rintro rfl; exact hcb.symm (hv.nb_unique es e4 (by omega)).1
  · rintro rfl; exact hab (hv.nb_unique eo e1 (by omega)).1
  · rintro rfl; exact hpa.symm (hv.nb_unique eo e2 (by omega)).1
  · rintro hn rfl; exact hbp (hv.nb_unique e1 e2 hn).1
  · rintro hn rfl; exact hac (hv.nb_unique e3 e4 hn).1
  · intro hn; exact flip_n1_ne_n3 hv ht hR hu hRu hpc hn

/-- The diagonal swap keeps the mesh valid if the two new triangles are clockwise. -/
theorem FlipSpec.valid (hf : FlipSpec ts ts' s o p a b c n1 n2 n3 n4) (hv : Valid H ts)
    (h1 : 0 < HP.o (H p) (H a) (H c)) (h2 : 0 < HP.o (H p) (H c) (H b)) : Valid H ts' := by
  have hso := hf.s_ne_o hv
  obtain ⟨l1, l2⟩ := hf.lt_none hv
  have hpc : p ≠ c := by
    rintro rfl; rw [HP.o_same] at h2; exact lt_irrefl _ h2
  obtain ⟨⟨a1, a2, a3, a4⟩, ⟨b1, b2, b3, b4⟩, c12, c34, c13⟩ := hf.outer_ne hv hpc
  have e1 : Ent ts s b p n1 := hf.ent_s.2 (by simp)
  have e2 : Ent ts s p a n2 := hf.ent_s.2 (by simp)
  have e3 : Ent ts o a c n3 := hf.ent_o.2 (by simp)
  have e4 : Ent ts o c b n4 := hf.ent_o.2 (by simp)
  refine ⟨?_, ?_, by rw [hf.len]; exact hv.len⟩
  · intro i t ht
    by_cases his : i = s
    · subst his
      obtain ⟨t', ht', hR⟩ := hf.hs'
      rw [ht] at ht'; simp at ht'; subst ht'
      rw [hR.pos_iff]; exact h1
    · by_cases hio : i = o
      · subst hio
        obtain ⟨t', ht', hR⟩ := hf.ho'
        rw [ht] at ht'; simp at ht'; subst ht'
        rw [hR.pos_iff]; exact h2
      · obtain ⟨t0, ht0, v1, v2, v3⟩ := hf.verts_other his hio ht
        have := hv.pos _ _ ht0
        unfold Pos at this ⊢
        rw [v1, v2, v3]; exact this
  · refine adj_of_local hv (fun i => i = s ∨ i = o) ?_ ?_ ?_
    · intro i x y j hi h
      have his : i ≠ s := fun h => hi (.inl h)
      have hio : i ≠ o := fun h => hi (.inr h)
      have hin : i ≠ NONE := by
        have := h.lt; rw [hf.len] at this; have := hv.len; omega
      obtain ⟨j0, h0, hj⟩ := (hf.ent_other hv his hio).1 h
      by_cases hj0 : j0 = s ∨ j0 = o
      · right
        have hr := hv.ent_pos h0 (by rcases hj0 with rfl | rfl <;> omega)
        rcases hj0 with rfl | rfl
        · rcases hf.ent_s.1 hr with ⟨rfl, rfl, rfl⟩ | ⟨_, _, r⟩ | ⟨rfl, rfl, rfl⟩
          · have : ¬ (n1 ≠ NONE ∧ n2 = n1) := fun h => c12 h.1 h.2.symm
            rw [if_neg this] at hj
            have : j = j0 := by rw [hj]; split <;> [rw [if_neg (by omega)]; rfl]
            subst this
            exact ⟨by omega, hf.ent_s'.2 (by simp)⟩
          · exact absurd r.symm hio
          · rw [if_pos ⟨hin, rfl⟩, if_pos rfl] at hj
            subst hj
            exact ⟨by omega, hf.ent_o'.2 (by simp)⟩
        · rcases hf.ent_o.1 hr with ⟨_, _, r⟩ | ⟨rfl, rfl, rfl⟩ | ⟨rfl, rfl, rfl⟩
          · exact absurd r.symm his
          · have : ¬ (n1 ≠ NONE ∧ n3 = n1) := fun h => c13 h.1 h.2.symm
            rw [if_neg this, if_pos ⟨hin, rfl⟩, if_pos rfl] at hj
            subst hj
            exact ⟨by omega, hf.ent_s'.2 (by simp)⟩
          · have : j = j0 := by
              rw [hj]
              split
              · rfl
              · rw [if_neg (fun h => c34 h.1 h.2.symm)]
            subst this
            exact ⟨by omega, hf.ent_o'.2 (by simp)⟩
      · left
        have hjj : j = j0 := by
          rw [hj]
          split
          · rw [if_neg (fun h => hj0 (.inl h))]
          · split
            · rw [if_neg (fun h => hj0 (.inr h))]
            · rfl
        subst hjj
        exact ⟨hj0, h0⟩
    · intro i x y j hi hj h
      rw [hf.ent_other hv (fun h => hi (.inl h)) (fun h => hi (.inr h))]
      refine ⟨j, h, ?_⟩
      split
      · rw [if_neg (fun h => hj (.inl h))]
      · split
        · rw [if_neg (fun h => hj (.inr h))]
        · rfl
    · intro i x y j hi h
      rcases hi with rfl | rfl
      · rcases hf.ent_s'.1 h with ⟨rfl, rfl, rfl⟩ | ⟨rfl, rfl, rfl⟩ | ⟨rfl, rfl, rfl⟩
        · rcases hv.adj _ _ _ _ e2 with r | ⟨r1, r2⟩
          · exact .inl r
          · refine .inr ⟨r1, (hf.ent_other hv a2 b2).2 ⟨_, r2, ?_⟩⟩
            rw [if_neg (fun h => c12 h.1 h.2.symm)]
            split <;> [rw [if_neg (by omega)]; rfl]
        · rcases hv.adj _ _ _ _ e3 with r | ⟨r1, r2⟩
          · exact .inl r
          · refine .inr ⟨r1, (hf.ent_other hv a3 b3).2 ⟨_, r2, ?_⟩⟩
            rw [if_neg (fun h => c13 h.1 h.2.symm), if_pos ⟨r1, rfl⟩, if_pos rfl]
        · exact .inr ⟨by omega, hf.ent_o'.2 (by simp)⟩
      · rcases hf.ent_o'.1 h with ⟨rfl, rfl, rfl⟩ | ⟨rfl, rfl, rfl⟩ | ⟨rfl, rfl, rfl⟩
        · exact .inr ⟨by omega, hf.ent_s'.2 (by simp)⟩
        · rcases hv.adj _ _ _ _ e4 with r | ⟨r1, r2⟩
          · exact .inl r
          · refine .inr ⟨r1, (hf.ent_other hv a4 b4).2 ⟨_, r2, ?_⟩⟩
            split
            · rfl
            · rw [if_neg (fun h => c34 h.1 h.2.symm)]
        · rcases hv.adj _ _ _ _ e1 with r | ⟨r1, r2⟩
          · exact .inl r
          · refine .inr ⟨r1, (hf.ent_other hv a1 b1).2 ⟨_, r2, ?_⟩⟩
            rw [if_pos ⟨r1, rfl⟩, if_pos rfl]

end

end CDT

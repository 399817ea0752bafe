import Verif.Geo.Restore

/-!
# Meshes as combinatorial objects

The same bookkeeping as in `Verif.Geo.Mesh`, `Ops`, `Splits`, `Flip`, without geometry: instead of "every triangle is
clockwise" only "the vertices of a triangle are different, and no two triangles have the same three vertices" is known.
Nothing here depends on arithmetic.
-/

set_option linter.unusedSectionVars false
set_option linter.unusedSimpArgs false
set_option linter.unusedVariables false

namespace CDT
namespace Comb

variable [IdCfg]

/-- The three vertices are different. -/
def Ne3 (t : Tri) : Prop := t.v1 ≠ t.v2 ∧ t.v2 ≠ t.v3 ∧ t.v3 ≠ t.v1

theorem Ne3.ne {t : Tri} (h : Ne3 t) : t.v1 ≠ t.v2 ∧ t.v2 ≠ t.v3 ∧ t.v3 ≠ t.v1 := h

theorem Ne3.has_ne {t : Tri} (h : Ne3 t) {a b j : Nat} (hh : Has t a b j) : a ≠ b := by
  obtain ⟨h1, h2, h3⟩ := h
  rcases hh with ⟨rfl, rfl, rfl⟩ | ⟨rfl, rfl, rfl⟩ | ⟨rfl, rfl, rfl⟩ <;> assumption

/-- Two triangles on the same three vertices. -/
def Same (t u : Tri) : Prop := ∀ v, t.hasVert v = true ↔ u.hasVert v = true

/-- A triangle with the edges `a → b`, `b → c` has the vertices `a`, `b`, `c`. -/
theorem Ne3.hasVert {t : Tri} (ht : Ne3 t) {a b c j1 j2 : Nat} (h1 : Has t a b j1) (h2 : Has t b c j2) (v : Nat) :
    t.hasVert v = true ↔ v = a ∨ v = b ∨ v = c := by
  obtain ⟨n1, n2, n3⟩ := ht
  simp only [Tri.hasVert, Bool.or_eq_true, beq_iff_eq, decide_eq_true_eq]
  rcases h1 with ⟨rfl, rfl, rfl⟩ | ⟨rfl, rfl, rfl⟩ | ⟨rfl, rfl, rfl⟩ <;>
    rcases h2 with ⟨e1, rfl, rfl⟩ | ⟨e1, rfl, rfl⟩ | ⟨e1, rfl, rfl⟩ <;>
    first
    | exact absurd e1 ‹_›
    | exact absurd e1.symm ‹_›
    | (constructor <;> rintro (h | h) <;> try rcases h with h | h
       all_goals simp_all)

theorem Ne3.of_rot {t : Tri} {a b c j1 j2 j3 : Nat} (h : Rot t a b c j1 j2 j3) (h1 : a ≠ b) (h2 : b ≠ c) (h3 : c ≠ a) :
    Ne3 t := by
  rcases h with rfl | rfl | rfl
  · exact ⟨h1, h2, h3⟩
  · exact ⟨h3, h1, h2⟩
  · exact ⟨h2, h3, h1⟩

theorem same_of_rev {t u : Tri} (ht : Ne3 t) (hu : Ne3 u) {a b c j1 j2 j3 j4 : Nat}
    (h1 : Has t a b j1) (h2 : Has t b c j2) (h3 : Has u b a j3) (h4 : Has u c b j4) : Same t u := by
  intro v
  rw [ht.hasVert h1 h2, hu.hasVert h4 h3]
  tauto

/-- No triangle has the vertex `p`. -/
def Fresh (ts : List Tri) (p : Nat) : Prop := ∀ (i : Nat) (t : Tri), ts[i]? = some t → ¬ t.hasVert p = true

theorem Fresh.ne {ts : List Tri} {p : Nat} (h : Fresh ts p) {i : Nat} {t : Tri} (ht : ts[i]? = some t) :
    p ≠ t.v1 ∧ p ≠ t.v2 ∧ p ≠ t.v3 := by
  have := h i t ht
  rw [hasVert_iff] at this
  exact ⟨fun e => this (.inl e.symm), fun e => this (.inr (.inl e.symm)), fun e => this (.inr (.inr e.symm))⟩

theorem not_same_old {u w : Tri} {p : Nat} (h : ¬ w.hasVert p = true) (e : u.v1 = w.v1 ∧ u.v2 = w.v2 ∧ u.v3 = w.v3) :
    ¬ u.hasVert p = true := by
  rw [hasVert_iff] at h ⊢
  rwa [e.1, e.2.1, e.2.2]

theorem Same.congr {t u t0 u0 : Tri} (h : Same t u) (e : t.v1 = t0.v1 ∧ t.v2 = t0.v2 ∧ t.v3 = t0.v3)
    (e' : u.v1 = u0.v1 ∧ u.v2 = u0.v2 ∧ u.v3 = u0.v3) : Same t0 u0 := by
  intro v
  have := h v
  simp only [hasVert_iff] at this ⊢
  rwa [e.1, e.2.1, e.2.2, e'.1, e'.2.1, e'.2.2] at this

/-- The mesh invariant. -/
structure Valid (ts : List Tri) : Prop where
  pos : ∀ (i : Nat) (t : Tri), ts[i]? = some t → Ne3 t
  adj : ∀ (i a b j : Nat), Ent ts i a b j → (j = NONE ∧ ¬ a < INF0 ∧ ¬ b < INF0) ∨ (j ≠ NONE ∧ Ent ts j b a i)
  len : ts.length ≤ NONE
  single : ∀ (i j : Nat) (t u : Tri), ts[i]? = some t → ts[j]? = some u → i ≠ j → ¬ Same t u

variable {ts ts' : List Tri}

theorem Valid.ent_pos (hv : Valid ts) {i a b j : Nat} (h : Ent ts i a b j) (hj : j ≠ NONE) :
    Ent ts j b a i := by
  rcases hv.adj i a b j h with h' | h'
  · exact absurd h'.1 hj
  · exact h'.2

theorem Valid.ne_self (hv : Valid ts) {i a b j : Nat} (h : Ent ts i a b j) : j ≠ i := by
  rintro rfl
  have h0 := h
  obtain ⟨t, ht, hh⟩ := h
  have hl := lt_of_getElem? ht
  have hjn : j ≠ NONE := by have := hv.len; omega
  obtain ⟨u, hu, hh'⟩ := hv.ent_pos h0 hjn
  rw [ht] at hu; simp at hu; subst hu
  have hp := hv.pos _ _ ht
  obtain ⟨n1, n2, n3⟩ := hp.ne
  rcases hh with ⟨rfl, rfl, -⟩ | ⟨rfl, rfl, -⟩ | ⟨rfl, rfl, -⟩ <;>
    rcases hh' with ⟨e1, e2, -⟩ | ⟨e1, e2, -⟩ | ⟨e1, e2, -⟩ <;>
    first
    | exact absurd e1 ‹_›
    | exact absurd e1.symm ‹_›
    | exact absurd e2 ‹_›

/-- Two edges of one triangle have different neighbors. -/
theorem Valid.nb_unique (hv : Valid ts) {i a b a' b' j : Nat} (h : Ent ts i a b j)
    (h' : Ent ts i a' b' j) (hj : j ≠ NONE) : a = a' ∧ b = b' := by
  obtain ⟨u, hu, r⟩ := hv.ent_pos h hj
  obtain ⟨u', hu', r'⟩ := hv.ent_pos h' hj
  rw [hu] at hu'; simp at hu'; subst hu'
  obtain ⟨t, ht, hh⟩ := h
  obtain ⟨t', ht', hh'⟩ := h'
  rw [ht] at ht'; simp at ht'; subst ht'
  have pt := hv.pos _ _ ht
  have pu := hv.pos _ _ hu
  have hij : i ≠ j := fun e => by
    subst e
    exact hv.ne_self ⟨t, ht, hh⟩ rfl
  have hs := hv.single _ _ _ _ ht hu hij
  have H1 := hh
  have H2 := hh'
  rcases hh with ⟨rfl, rfl, -⟩ | ⟨rfl, rfl, -⟩ | ⟨rfl, rfl, -⟩ <;>
    rcases hh' with ⟨rfl, rfl, -⟩ | ⟨rfl, rfl, -⟩ | ⟨rfl, rfl, -⟩ <;>
    first
    | exact ⟨rfl, rfl⟩
    | exact (hs (same_of_rev pt pu H1 H2 r r')).elim
    | exact (hs (same_of_rev pt pu H2 H1 r' r)).elim

/-- Slot-level version: equal neighbors sit in equal slots. -/
theorem Valid.n_inj (hv : Valid ts) {i : Nat} {t : Tri} (ht : ts[i]? = some t) {k m : Fin 3}
    (h : t.n k = t.n m) (hn : t.n k ≠ NONE) : k = m := by
  have h1 : Ent ts i _ _ _ := ⟨t, ht, has_k t k⟩
  have h2 : Ent ts i _ _ _ := ⟨t, ht, has_k t m⟩
  rw [← h] at h2
  obtain ⟨e, _⟩ := hv.nb_unique h1 h2 hn
  obtain ⟨n1, n2, n3⟩ := (hv.pos _ _ ht).ne
  fin_cases k <;> fin_cases m <;> simp_all

/-- A neighbor id is `NONE` or in range. -/
theorem Valid.nb_range (hv : Valid ts) {i a b j : Nat} (h : Ent ts i a b j) : j = NONE ∨ j < ts.length := by
  by_cases hj : j = NONE
  · exact .inl hj
  · exact .inr (hv.ent_pos h hj).lt

/-- Locality: adjacency has to be checked only around the changed triangles `D`. -/
theorem adj_of_local (hv : Valid ts) (D : Nat → Prop)
    (ext1 : ∀ i a b j', ¬ D i → Ent ts' i a b j' →
      (¬ D j' ∧ Ent ts i a b j') ∨ (j' ≠ NONE ∧ Ent ts' j' b a i))
    (ext2 : ∀ i a b j, ¬ D i → ¬ D j → Ent ts i a b j → Ent ts' i a b j)
    (int : ∀ i a b j, D i → Ent ts' i a b j →
      (j = NONE ∧ ¬ a < INF0 ∧ ¬ b < INF0) ∨ (j ≠ NONE ∧ Ent ts' j b a i)) :
    ∀ i a b j, Ent ts' i a b j → (j = NONE ∧ ¬ a < INF0 ∧ ¬ b < INF0) ∨ (j ≠ NONE ∧ Ent ts' j b a i) := by
  intro i a b j h
  by_cases hi : D i
  · exact int i a b j hi h
  · rcases ext1 i a b j hi h with ⟨hj, h'⟩ | h'
    · rcases hv.adj i a b j h' with h2 | ⟨h2, h3⟩
      · exact .inl h2
      · exact .inr ⟨h2, ext2 j b a i hj hi h3⟩
    · exact .inr h'

theorem Valid.has_updN (hv : Valid ts) {i : Nat} {t : Tri} (ht : ts[i]? = some t) {old new : Nat}
    (ho : old ≠ NONE) {a b j : Nat} :
    Has (t.updN old new) a b j ↔ ∃ j0, Has t a b j0 ∧ j = if j0 = old then new else j0 := by
  refine CDT.has_updN (fun k m hk hm => hv.n_inj ht (hk.trans hm.symm) (by rw [hk]; exact ho))

/-! ## Diagonal swap -/

/-- The swap of the diagonal `a b` shared by the triangles `s = (p a b)` and `o = (b a c)`. -/
structure FlipSpec (ts ts' : List Tri) (s o p a b c n1 n2 n3 n4 : Nat) : Prop where
  hs : ∃ t, ts[s]? = some t ∧ Rot t p a b n2 o n1
  ho : ∃ t, ts[o]? = some t ∧ Rot t b a c s n3 n4
  hs' : ∃ t, ts'[s]? = some t ∧ Rot t p a c n2 n3 o
  ho' : ∃ t, ts'[o]? = some t ∧ Rot t p c b s n4 n1
  len : ts'.length = ts.length
  other : ∀ i, i ≠ s → i ≠ o → ts'[i]? =
    if n1 ≠ NONE ∧ i = n1 then ts[i]?.map (·.updN s o)
    else if n3 ≠ NONE ∧ i = n3 then ts[i]?.map (·.updN o s)
    else ts[i]?

/-- The two triangles receiving a new neighbor are different. -/
theorem flip_n1_ne_n3 (hv : Valid ts) {s o p a b c n1 n2 n3 n4 : Nat} {t u : Tri}
    (ht : ts[s]? = some t) (hR : Rot t p a b n2 o n1) (hu : ts[o]? = some u) (hRu : Rot u b a c s n3 n4)
    (hpc : p ≠ c) (hn : n1 ≠ NONE) : n1 ≠ n3 := by
  intro he
  obtain ⟨x, hx, h1⟩ := hv.ent_pos ⟨t, ht, hR.has3⟩ hn
  obtain ⟨x', hx', h3⟩ := hv.ent_pos ⟨u, hu, hRu.has2⟩ (he ▸ hn)
  rw [he, hx'] at hx; simp at hx; subst hx
  have p1 := (hv.pos _ _ ht)
  have p2 := (hv.pos _ _ hu)
  have hab := p1.has_ne hR.has2
  have hpa := p1.has_ne hR.has1
  have hbc := (p2.has_ne hRu.has3)
  obtain ⟨d, j2, j3, hR3⟩ := h1.rot
  rcases hR3.has_iff.1 h3 with ⟨e1, e2, _⟩ | ⟨e1, e2, _⟩ | ⟨e1, e2, _⟩
  · exact hpc e1
  · exact hbc e1.symm
  · exact hpa e2

section
variable {s o p a b c n1 n2 n3 n4 : Nat}

theorem FlipSpec.s_ne_o (hf : FlipSpec ts ts' s o p a b c n1 n2 n3 n4) (hv : Valid ts) : o ≠ s := by
  obtain ⟨t, ht, hR⟩ := hf.hs
  exact hv.ne_self ⟨t, ht, hR.has2⟩

theorem FlipSpec.lt_none (hf : FlipSpec ts ts' s o p a b c n1 n2 n3 n4) (hv : Valid ts) :
    s < NONE ∧ o < NONE := by
  obtain ⟨t, ht, _⟩ := hf.hs
  obtain ⟨u, hu, _⟩ := hf.ho
  have := lt_of_getElem? ht
  have := lt_of_getElem? hu
  have := hv.len
  omega

/-- Edges of the triangles outside the quad: same edges, the neighbor is renamed. -/
theorem FlipSpec.ent_other (hf : FlipSpec ts ts' s o p a b c n1 n2 n3 n4) (hv : Valid ts)
    {i x y j : Nat} (his : i ≠ s) (hio : i ≠ o) :
    Ent ts' i x y j ↔ ∃ j0, Ent ts i x y j0 ∧
      j = if n1 ≠ NONE ∧ i = n1 then (if j0 = s then o else j0)
          else if n3 ≠ NONE ∧ i = n3 then (if j0 = o then s else j0) else j0 := by
  obtain ⟨l1, l2⟩ := hf.lt_none hv
  have ho := hf.other i his hio
  by_cases h1 : n1 ≠ NONE ∧ i = n1
  · rw [if_pos h1] at ho
    simp only [if_pos h1]
    constructor
    · rintro ⟨t', ht', hh⟩
      rw [ho, Option.map_eq_some_iff] at ht'
      obtain ⟨t, ht, rfl⟩ := ht'
      rw [hv.has_updN ht (by omega)] at hh
      obtain ⟨j0, h0, hj⟩ := hh
      exact ⟨j0, ⟨t, ht, h0⟩, hj⟩
    · rintro ⟨j0, ⟨t, ht, h0⟩, hj⟩
      exact ⟨_, by rw [ho, ht]; rfl, (hv.has_updN ht (by omega)).2 ⟨j0, h0, hj⟩⟩
  · rw [if_neg h1] at ho
    simp only [if_neg h1]
    by_cases h3 : n3 ≠ NONE ∧ i = n3
    · rw [if_pos h3] at ho
      simp only [if_pos h3]
      constructor
      · rintro ⟨t', ht', hh⟩
        rw [ho, Option.map_eq_some_iff] at ht'
        obtain ⟨t, ht, rfl⟩ := ht'
        rw [hv.has_updN ht (by omega)] at hh
        obtain ⟨j0, h0, hj⟩ := hh
        exact ⟨j0, ⟨t, ht, h0⟩, hj⟩
      · rintro ⟨j0, ⟨t, ht, h0⟩, hj⟩
        exact ⟨_, by rw [ho, ht]; rfl, (hv.has_updN ht (by omega)).2 ⟨j0, h0, hj⟩⟩
    · rw [if_neg h3] at ho
      simp only [if_neg h3]
      constructor
      · rintro ⟨t', ht', hh⟩
        rw [ho] at ht'
        exact ⟨j, ⟨t', ht', hh⟩, rfl⟩
      · rintro ⟨j0, ⟨t, ht, h0⟩, rfl⟩
        exact ⟨t, by rw [ho, ht], h0⟩

/-- Vertices of the triangles outside the quad are unchanged. -/
theorem FlipSpec.verts_other (hf : FlipSpec ts ts' s o p a b c n1 n2 n3 n4)
    {i : Nat} (his : i ≠ s) (hio : i ≠ o) {t' : Tri} (ht' : ts'[i]? = some t') :
    ∃ t, ts[i]? = some t ∧ t'.v1 = t.v1 ∧ t'.v2 = t.v2 ∧ t'.v3 = t.v3 := by
  rw [hf.other i his hio] at ht'
  split at ht'
  · rw [Option.map_eq_some_iff] at ht'
    obtain ⟨t, ht, rfl⟩ := ht'
    exact ⟨t, ht, t.updN_verts _ _⟩
  · split at ht'
    · rw [Option.map_eq_some_iff] at ht'
      obtain ⟨t, ht, rfl⟩ := ht'
      exact ⟨t, ht, t.updN_verts _ _⟩
    · exact ⟨t', ht', rfl, rfl, rfl⟩

theorem FlipSpec.ent_s (hf : FlipSpec ts ts' s o p a b c n1 n2 n3 n4) {x y j : Nat} :
    Ent ts s x y j ↔ (p = x ∧ a = y ∧ n2 = j) ∨ (a = x ∧ b = y ∧ o = j) ∨ (b = x ∧ p = y ∧ n1 = j) := by
  obtain ⟨t, ht, hR⟩ := hf.hs
  constructor
  · rintro ⟨t', ht', hh⟩
    rw [ht] at ht'; simp at ht'; subst ht'
    exact hR.has_iff.1 hh
  · intro h; exact ⟨t, ht, hR.has_iff.2 h⟩

theorem FlipSpec.ent_o (hf : FlipSpec ts ts' s o p a b c n1 n2 n3 n4) {x y j : Nat} :
    Ent ts o x y j ↔ (b = x ∧ a = y ∧ s = j) ∨ (a = x ∧ c = y ∧ n3 = j) ∨ (c = x ∧ b = y ∧ n4 = j) := by
  obtain ⟨t, ht, hR⟩ := hf.ho
  constructor
  · rintro ⟨t', ht', hh⟩
    rw [ht] at ht'; simp at ht'; subst ht'
    exact hR.has_iff.1 hh
  · intro h; exact ⟨t, ht, hR.has_iff.2 h⟩

theorem FlipSpec.ent_s' (hf : FlipSpec ts ts' s o p a b c n1 n2 n3 n4) {x y j : Nat} :
    Ent ts' s x y j ↔ (p = x ∧ a = y ∧ n2 = j) ∨ (a = x ∧ c = y ∧ n3 = j) ∨ (c = x ∧ p = y ∧ o = j) := by
  obtain ⟨t, ht, hR⟩ := hf.hs'
  constructor
  · rintro ⟨t', ht', hh⟩
    rw [ht] at ht'; simp at ht'; subst ht'
    exact hR.has_iff.1 hh
  · intro h; exact ⟨t, ht, hR.has_iff.2 h⟩

theorem FlipSpec.ent_o' (hf : FlipSpec ts ts' s o p a b c n1 n2 n3 n4) {x y j : Nat} :
    Ent ts' o x y j ↔ (p = x ∧ c = y ∧ s = j) ∨ (c = x ∧ b = y ∧ n4 = j) ∨ (b = x ∧ p = y ∧ n1 = j) := by
  obtain ⟨t, ht, hR⟩ := hf.ho'
  constructor
  · rintro ⟨t', ht', hh⟩
    rw [ht] at ht'; simp at ht'; subst ht'
    exact hR.has_iff.1 hh
  · intro h; exact ⟨t, ht, hR.has_iff.2 h⟩

/-- Facts about the outer neighbors of a quad. -/
theorem FlipSpec.outer_ne (hf : FlipSpec ts ts' s o p a b c n1 n2 n3 n4) (hv : Valid ts)
    (hpc : p ≠ c) :
    (n1 ≠ s ∧ n2 ≠ s ∧ n3 ≠ s ∧ n4 ≠ s) ∧ (n1 ≠ o ∧ n2 ≠ o ∧ n3 ≠ o ∧ n4 ≠ o) ∧
    (n1 ≠ NONE → n1 ≠ n2) ∧ (n3 ≠ NONE → n3 ≠ n4) ∧ (n1 ≠ NONE → n1 ≠ n3) := by
  obtain ⟨l1, l2⟩ := hf.lt_none hv
  obtain ⟨t, ht, hR⟩ := hf.hs
  obtain ⟨u, hu, hRu⟩ := hf.ho
  have e1 : Ent ts s b p n1 := hf.ent_s.2 (by simp)
  have e2 : Ent ts s p a n2 := hf.ent_s.2 (by simp)
  have eo : Ent ts s a b o := hf.ent_s.2 (by simp)
  have e3 : Ent ts o a c n3 := hf.ent_o.2 (by simp)
  have e4 : Ent ts o c b n4 := hf.ent_o.2 (by simp)
  have es : Ent ts o b a s := hf.ent_o.2 (by simp)
  have hpa := (hv.pos _ _ ht).has_ne hR.has1
  have hab := (hv.pos _ _ ht).has_ne hR.has2
  have hbp := (hv.pos _ _ ht).has_ne hR.has3
  have hac := (hv.pos _ _ hu).has_ne hRu.has2
  have hcb := (hv.pos _ _ hu).has_ne hRu.has3
  refine ⟨⟨hv.ne_self e1, hv.ne_self e2, ?_, ?_⟩, ⟨?_, ?_, hv.ne_self e3, hv.ne_self e4⟩, ?_, ?_, ?_⟩
  · rintro rfl; exact hab.symm (hv.nb_unique es e3 (by omega)).1
  · rintro rfl; exact hcb.symm (hv.nb_unique es e4 (by omega)).1
  · rintro rfl; exact hab (hv.nb_unique eo e1 (by omega)).1
  · rintro rfl; exact hpa.symm (hv.nb_unique eo e2 (by omega)).1
  · rintro hn rfl; exact hbp (hv.nb_unique e1 e2 hn).1
  · rintro hn rfl; exact hac (hv.nb_unique e3 e4 hn).1
  · intro hn; exact flip_n1_ne_n3 hv ht hR hu hRu hpc hn

/-- The diagonal swap keeps the mesh valid if it does not create a triangle on three vertices which already have one. -/
theorem FlipSpec.valid (hf : FlipSpec ts ts' s o p a b c n1 n2 n3 n4) (hv : Valid ts) (hpc : p ≠ c)
    (hs1 : ∀ (i j : Nat) (t u : Tri), ts'[i]? = some t → ts'[j]? = some u → i ≠ j → ¬ Same t u) : Valid ts' := by
  have hso := hf.s_ne_o hv
  obtain ⟨l1, l2⟩ := hf.lt_none hv
  obtain ⟨⟨a1, a2, a3, a4⟩, ⟨b1, b2, b3, b4⟩, c12, c34, c13⟩ := hf.outer_ne hv hpc
  have e1 : Ent ts s b p n1 := hf.ent_s.2 (by simp)
  have e2 : Ent ts s p a n2 := hf.ent_s.2 (by simp)
  have e3 : Ent ts o a c n3 := hf.ent_o.2 (by simp)
  have e4 : Ent ts o c b n4 := hf.ent_o.2 (by simp)
  refine ⟨?_, ?_, by rw [hf.len]; exact hv.len, hs1⟩
  · intro i t ht
    obtain ⟨S, hS, hRS⟩ := hf.hs
    obtain ⟨U, hU, hRU⟩ := hf.ho
    have pS := hv.pos _ _ hS
    have pU := hv.pos _ _ hU
    have hpa := pS.has_ne hRS.has1
    have hbp := pS.has_ne hRS.has3
    have hac := pU.has_ne hRU.has2
    have hcb := pU.has_ne hRU.has3
    by_cases his : i = s
    · subst his
      obtain ⟨t', ht', hR⟩ := hf.hs'
      rw [ht] at ht'; simp at ht'; subst ht'
      exact Ne3.of_rot hR hpa hac hpc.symm
    · by_cases hio : i = o
      · subst hio
        obtain ⟨t', ht', hR⟩ := hf.ho'
        rw [ht] at ht'; simp at ht'; subst ht'
        exact Ne3.of_rot hR hpc hcb hbp
      · obtain ⟨t0, ht0, v1, v2, v3⟩ := hf.verts_other his hio ht
        have := hv.pos _ _ ht0
        unfold Ne3 at this ⊢
        rw [v1, v2, v3]; exact this
  · refine adj_of_local hv (fun i => i = s ∨ i = o) ?_ ?_ ?_
    · intro i x y j hi h
      have his : i ≠ s := fun h => hi (.inl h)
      have hio : i ≠ o := fun h => hi (.inr h)
      have hin : i ≠ NONE := by
        have := h.lt; rw [hf.len] at this; have := hv.len; omega
      obtain ⟨j0, h0, hj⟩ := (hf.ent_other hv his hio).1 h
      by_cases hj0 : j0 = s ∨ j0 = o
      · right
        have hr := hv.ent_pos h0 (by rcases hj0 with rfl | rfl <;> omega)
        rcases hj0 with rfl | rfl
        · rcases hf.ent_s.1 hr with ⟨rfl, rfl, rfl⟩ | ⟨_, _, r⟩ | ⟨rfl, rfl, rfl⟩
          · have : ¬ (n1 ≠ NONE ∧ n2 = n1) := fun h => c12 h.1 h.2.symm
            rw [if_neg this] at hj
            have : j = j0 := by rw [hj]; split <;> [rw [if_neg (by omega)]; rfl]
            subst this
            exact ⟨by omega, hf.ent_s'.2 (by simp)⟩
          · exact absurd r.symm hio
          · rw [if_pos ⟨hin, rfl⟩, if_pos rfl] at hj
            subst hj
            exact ⟨by omega, hf.ent_o'.2 (by simp)⟩
        · rcases hf.ent_o.1 hr with ⟨_, _, r⟩ | ⟨rfl, rfl, rfl⟩ | ⟨rfl, rfl, rfl⟩
          · exact absurd r.symm his
          · have : ¬ (n1 ≠ NONE ∧ n3 = n1) := fun h => c13 h.1 h.2.symm
            rw [if_neg this, if_pos ⟨hin, rfl⟩, if_pos rfl] at hj
            subst hj
            exact ⟨by omega, hf.ent_s'.2 (by simp)⟩
          · have : j = j0 := by
              rw [hj]
              split
              · rfl
              · rw [if_neg (fun h => c34 h.1 h.2.symm)]
            subst this
            exact ⟨by omega, hf.ent_o'.2 (by simp)⟩
      · left
        have hjj : j = j0 := by
          rw [hj]
          split
          · rw [if_neg (fun h => hj0 (.inl h))]
          · split
            · rw [if_neg (fun h => hj0 (.inr h))]
            · rfl
        subst hjj
        exact ⟨hj0, h0⟩
    · intro i x y j hi hj h
      rw [hf.ent_other hv (fun h => hi (.inl h)) (fun h => hi (.inr h))]
      refine ⟨j, h, ?_⟩
      split
      · rw [if_neg (fun h => hj (.inl h))]
      · split
        · rw [if_neg (fun h => hj (.inr h))]
        · rfl
    · intro i x y j hi h
      rcases hi with rfl | rfl
      · rcases hf.ent_s'.1 h with ⟨rfl, rfl, rfl⟩ | ⟨rfl, rfl, rfl⟩ | ⟨rfl, rfl, rfl⟩
        · rcases hv.adj _ _ _ _ e2 with r | ⟨r1, r2⟩
          · exact .inl r
          · refine .inr ⟨r1, (hf.ent_other hv a2 b2).2 ⟨_, r2, ?_⟩⟩
            rw [if_neg (fun h => c12 h.1 h.2.symm)]
            split <;> [rw [if_neg (by omega)]; rfl]
        · rcases hv.adj _ _ _ _ e3 with r | ⟨r1, r2⟩
          · exact .inl r
          · refine .inr ⟨r1, (hf.ent_other hv a3 b3).2 ⟨_, r2, ?_⟩⟩
            rw [if_neg (fun h => c13 h.1 h.2.symm), if_pos ⟨r1, rfl⟩, if_pos rfl]
        · exact .inr ⟨by omega, hf.ent_o'.2 (by simp)⟩
      · rcases hf.ent_o'.1 h with ⟨rfl, rfl, rfl⟩ | ⟨rfl, rfl, rfl⟩ | ⟨rfl, rfl, rfl⟩
        · exact .inr ⟨by omega, hf.ent_s'.2 (by simp)⟩
        · rcases hv.adj _ _ _ _ e4 with r | ⟨r1, r2⟩
          · exact .inl r
          · refine .inr ⟨r1, (hf.ent_other hv a4 b4).2 ⟨_, r2, ?_⟩⟩
            split
            · rfl
            · rw [if_neg (fun h => c34 h.1 h.2.symm)]
        · rcases hv.adj _ _ _ _ e1 with r | ⟨r1, r2⟩
          · exact .inl r
          · refine .inr ⟨r1, (hf.ent_other hv a1 b1).2 ⟨_, r2, ?_⟩⟩
            rw [if_pos ⟨r1, rfl⟩, if_pos rfl]

end

/-- Result of `split_triangle_into_three_triangles`. -/
structure Split3Spec (ts ts' : List Tri) (t1 p : Nat) (t : Tri) : Prop where
  len : ts'.length = ts.length + 2
  h1 : ts'[t1]? = some ⟨p, t.v3, t.v1, ts.length, t.n31, ts.length + 1⟩
  h2 : ts'[ts.length]? = some ⟨p, t.v2, t.v3, ts.length + 1, t.n23, t1⟩
  h3 : ts'[ts.length + 1]? = some ⟨p, t.v1, t.v2, t1, t.n12, ts.length⟩
  other : ∀ i, i < ts.length → i ≠ t1 → ts'[i]? =
    if t.n12 ≠ NONE ∧ i = t.n12 then ts[i]?.map (·.updN t1 (ts.length + 1))
    else if t.n23 ≠ NONE ∧ i = t.n23 then ts[i]?.map (·.updN t1 ts.length)
    else ts[i]?

theorem split3_total (hv : Valid ts) (hlen : ts.length + 2 ≤ NONE) {t1 p : Nat} {t : Tri}
    (ht : ts[t1]? = some t) :
    ∃ ts', split3 ts t1 p = .ok (ts', pushQ (pushQ (pushQ [] (ts.length + 1) t.n12) ts.length t.n23)
        t1 t.n31) ∧ Split3Spec ts ts' t1 p t := by
  obtain ⟨e1, e2⟩ := nextId_eq (ts := ts) (by omega)
  have hl := lt_of_getElem? ht
  have r12 := hv.nb_range ⟨t, ht, has_0 t⟩
  have r23 := hv.nb_range ⟨t, ht, has_1 t⟩
  have s12 := hv.ne_self ⟨t, ht, has_0 t⟩
  have s23 := hv.ne_self ⟨t, ht, has_1 t⟩
  have hne : t.n12 ≠ NONE → t.n12 ≠ t.n23 := fun h e =>
    absurd (hv.n_inj ht (k := 0) (m := 1) e h) (by decide)
  rw [e1] at e2
  unfold split3
  simp only [e1, e2, Res.ok_bind, getI_of ht]
  set A : Tri := ⟨p, t.v2, t.v3, ts.length + 1, t.n23, t1⟩ with hA
  set B : Tri := ⟨p, t.v1, t.v2, t1, t.n12, ts.length⟩ with hB
  set C : Tri := ⟨p, t.v3, t.v1, ts.length, t.n31, ts.length + 1⟩ with hC
  have hget : ∀ i, ((ts ++ [A, B]).set t1 C)[i]? = if i = t1 then some C else if i < ts.length then ts[i]?
      else if i = ts.length then some A else if i = ts.length + 1 then some B else none := by
    intro i
    by_cases hi : i = t1
    · subst hi; rw [List.getElem?_set_self (by simp; omega), if_pos rfl]
    · rw [List.getElem?_set_ne (Ne.symm hi), if_neg hi]
      by_cases hi2 : i < ts.length
      · rw [if_pos hi2, List.getElem?_append_left hi2]
      · rw [if_neg hi2, List.getElem?_append_right (by omega)]
        by_cases hi3 : i = ts.length
        · subst hi3; simp
        · rw [if_neg hi3]
          by_cases hi4 : i = ts.length + 1
          · subst hi4; simp
          · rw [if_neg hi4]
            rw [List.getElem?_eq_none]; simp; omega
  obtain ⟨ts1, u1, l1, g1⟩ := updNb_total ((ts ++ [A, B]).set t1 C) (n := t.n12) (old := t1)
    (new := ts.length + 1) (by simp; omega)
  obtain ⟨ts2, u2, l2, g2⟩ := updNb_total ts1 (n := t.n23) (old := t1)
    (new := ts.length) (by rw [l1]; simp; omega)
  rw [u1]; simp only [Res.ok_bind]; rw [u2]; simp only [Res.ok_bind]
  have hN : ts.length + 2 ≤ NONE := hlen
  refine ⟨ts2, rfl, ?_, ?_, ?_, ?_, ?_⟩
  · rw [l2, l1]; simp
  · rw [g2, g1, hget]
    rw [if_neg (fun h => s23 h.2.symm), if_neg (fun h => s12 h.2.symm), if_pos rfl]
  · rw [g2, g1, hget]
    rw [if_neg (by omega), if_neg (by omega), if_neg (by omega), if_neg (by omega), if_pos rfl]
  · rw [g2, g1, hget]
    rw [if_neg (by omega), if_neg (by omega), if_neg (by omega), if_neg (by omega), if_neg (by omega),
      if_pos rfl]
  · intro i hi hi1
    rw [g2, g1, hget, if_neg hi1, if_pos hi]
    by_cases h12 : t.n12 ≠ NONE ∧ i = t.n12
    · have : ¬ (t.n23 ≠ NONE ∧ i = t.n23) := fun h => hne h12.1 (h12.2.symm.trans h.2)
      rw [if_neg this, if_pos h12, if_pos h12]
    · rw [if_neg h12, if_neg h12]

section
variable {t1 p : Nat} {t : Tri}

theorem ent_of_get {ts : List Tri} {i : Nat} {t : Tri} (ht : ts[i]? = some t) {x y j : Nat} :
    Ent ts i x y j ↔ (t.v1 = x ∧ t.v2 = y ∧ t.n12 = j) ∨ (t.v2 = x ∧ t.v3 = y ∧ t.n23 = j) ∨
      (t.v3 = x ∧ t.v1 = y ∧ t.n31 = j) := by
  constructor
  · rintro ⟨t', ht', hh⟩
    rw [ht] at ht'; simp at ht'; subst ht'
    exact hh
  · intro h; exact ⟨t, ht, h⟩

theorem Split3Spec.ent_other (hf : Split3Spec ts ts' t1 p t) (hv : Valid ts) (ht : ts[t1]? = some t)
    {i x y j : Nat} (hi : i < ts.length) (hi1 : i ≠ t1) :
    Ent ts' i x y j ↔ ∃ j0, Ent ts i x y j0 ∧
      j = if t.n12 ≠ NONE ∧ i = t.n12 then (if j0 = t1 then ts.length + 1 else j0)
          else if t.n23 ≠ NONE ∧ i = t.n23 then (if j0 = t1 then ts.length else j0) else j0 := by
  have hl := lt_of_getElem? ht
  have hN := hv.len
  have ho := hf.other i hi hi1
  by_cases h1 : t.n12 ≠ NONE ∧ i = t.n12
  · rw [if_pos h1] at ho
    simp only [if_pos h1]
    constructor
    · rintro ⟨t', ht', hh⟩
      rw [ho, Option.map_eq_some_iff] at ht'
      obtain ⟨u, hu, rfl⟩ := ht'
      rw [hv.has_updN hu (by omega)] at hh
      obtain ⟨j0, h0, hj⟩ := hh
      exact ⟨j0, ⟨u, hu, h0⟩, hj⟩
    · rintro ⟨j0, ⟨u, hu, h0⟩, hj⟩
      exact ⟨_, by rw [ho, hu]; rfl, (hv.has_updN hu (by omega)).2 ⟨j0, h0, hj⟩⟩
  · rw [if_neg h1] at ho
    simp only [if_neg h1]
    by_cases h3 : t.n23 ≠ NONE ∧ i = t.n23
    · rw [if_pos h3] at ho
      simp only [if_pos h3]
      constructor
      · rintro ⟨t', ht', hh⟩
        rw [ho, Option.map_eq_some_iff] at ht'
        obtain ⟨u, hu, rfl⟩ := ht'
        rw [hv.has_updN hu (by omega)] at hh
        obtain ⟨j0, h0, hj⟩ := hh
        exact ⟨j0, ⟨u, hu, h0⟩, hj⟩
      · rintro ⟨j0, ⟨u, hu, h0⟩, hj⟩
        exact ⟨_, by rw [ho, hu]; rfl, (hv.has_updN hu (by omega)).2 ⟨j0, h0, hj⟩⟩
    · rw [if_neg h3] at ho
      simp only [if_neg h3]
      constructor
      · rintro ⟨t', ht', hh⟩
        rw [ho] at ht'
        exact ⟨j, ⟨t', ht', hh⟩, rfl⟩
      · rintro ⟨j0, ⟨u, hu, h0⟩, rfl⟩
        exact ⟨u, by rw [ho, hu], h0⟩

theorem Split3Spec.verts_other (hf : Split3Spec ts ts' t1 p t) {i : Nat} (hi : i < ts.length)
    (hi1 : i ≠ t1) {t' : Tri} (ht' : ts'[i]? = some t') :
    ∃ u, ts[i]? = some u ∧ t'.v1 = u.v1 ∧ t'.v2 = u.v2 ∧ t'.v3 = u.v3 := by
  rw [hf.other i hi hi1] at ht'
  split at ht'
  · rw [Option.map_eq_some_iff] at ht'
    obtain ⟨t, ht, rfl⟩ := ht'
    exact ⟨t, ht, t.updN_verts _ _⟩
  · split at ht'
    · rw [Option.map_eq_some_iff] at ht'
      obtain ⟨t, ht, rfl⟩ := ht'
      exact ⟨t, ht, t.updN_verts _ _⟩
    · exact ⟨t', ht', rfl, rfl, rfl⟩

/-- Splitting a triangle at a new vertex keeps the mesh valid. -/
theorem Split3Spec.valid (hf : Split3Spec ts ts' t1 p t) (hv : Valid ts) (ht : ts[t1]? = some t)
    (hlen : ts.length + 2 ≤ NONE) (hfresh : Fresh ts p) : Valid ts' := by
  have hl := lt_of_getElem? ht
  have e12 : Ent ts t1 t.v1 t.v2 t.n12 := ⟨t, ht, has_0 t⟩
  have e23 : Ent ts t1 t.v2 t.v3 t.n23 := ⟨t, ht, has_1 t⟩
  have e31 : Ent ts t1 t.v3 t.v1 t.n31 := ⟨t, ht, has_2 t⟩
  have s12 := hv.ne_self e12
  have s23 := hv.ne_self e23
  have s31 := hv.ne_self e31
  have c1 : t.n12 ≠ NONE → t.n12 ≠ t.n23 := fun h e =>
    absurd (hv.n_inj ht (k := 0) (m := 1) e h) (by decide)
  have c2 : t.n12 ≠ NONE → t.n12 ≠ t.n31 := fun h e =>
    absurd (hv.n_inj ht (k := 0) (m := 2) e h) (by decide)
  have c3 : t.n23 ≠ NONE → t.n23 ≠ t.n31 := fun h e =>
    absurd (hv.n_inj ht (k := 1) (m := 2) e h) (by decide)
  have E1 : ∀ {x y j}, Ent ts' t1 x y j ↔ _ := fun {x y j} => ent_of_get hf.h1
  have E2 : ∀ {x y j}, Ent ts' ts.length x y j ↔ _ := fun {x y j} => ent_of_get hf.h2
  have E3 : ∀ {x y j}, Ent ts' (ts.length + 1) x y j ↔ _ := fun {x y j} => ent_of_get hf.h3
  simp only at E1 E2 E3
  have pt := hv.pos _ _ ht
  obtain ⟨q1, q2, q3⟩ := hfresh.ne ht
  have cls : ∀ (i : Nat) (u : Tri), ts'[i]? = some u → (i = t1 ∧ u = ⟨p, t.v3, t.v1, ts.length, t.n31, ts.length + 1⟩) ∨
      (i = ts.length ∧ u = ⟨p, t.v2, t.v3, ts.length + 1, t.n23, t1⟩) ∨
      (i = ts.length + 1 ∧ u = ⟨p, t.v1, t.v2, t1, t.n12, ts.length⟩) ∨
      ∃ w, ts[i]? = some w ∧ u.v1 = w.v1 ∧ u.v2 = w.v2 ∧ u.v3 = w.v3 := by
    intro i u hu
    have hil := lt_of_getElem? hu
    rw [hf.len] at hil
    by_cases hi1 : i = t1
    · subst hi1; rw [hf.h1] at hu; simp at hu; exact .inl ⟨rfl, hu.symm⟩
    by_cases hi2 : i = ts.length
    · subst hi2; rw [hf.h2] at hu; simp at hu; exact .inr (.inl ⟨rfl, hu.symm⟩)
    by_cases hi3 : i = ts.length + 1
    · subst hi3; rw [hf.h3] at hu; simp at hu; exact .inr (.inr (.inl ⟨rfl, hu.symm⟩))
    · exact .inr (.inr (.inr (hf.verts_other (by omega) hi1 hu)))
  refine ⟨?_, ?_, by rw [hf.len]; exact hlen, ?_⟩
  rotate_left 2
  · have n1 := pt.1
    have n2 := pt.2.1
    have n3 := pt.2.2
    intro i j u w hu hw hij hs
    rcases cls i u hu with ⟨rfl, rfl⟩ | ⟨rfl, rfl⟩ | ⟨rfl, rfl⟩ | ⟨u0, hu0, x⟩ <;>
      rcases cls j w hw with ⟨rfl, rfl⟩ | ⟨rfl, rfl⟩ | ⟨rfl, rfl⟩ | ⟨w0, hw0, y⟩
    all_goals
      first
      | exact absurd rfl hij
      | exact hv.single _ _ _ _ hu0 hw0 hij (hs.congr x y)
      | exact not_same_old (hfresh _ _ hw0) y ((hs p).1 (by simp [Tri.hasVert]))
      | exact not_same_old (hfresh _ _ hu0) x ((hs p).2 (by simp [Tri.hasVert]))
      | skip
    all_goals
      have e1 := hs t.v1
      have e2 := hs t.v2
      have e3 := hs t.v3
      simp [Tri.hasVert, n1, n2, n3, n1.symm, n2.symm, n3.symm, q1, q2, q3, q1.symm, q2.symm, q3.symm] at e1 e2 e3
  · intro i u hu
    rcases cls i u hu with ⟨rfl, rfl⟩ | ⟨rfl, rfl⟩ | ⟨rfl, rfl⟩ | ⟨u0, hu0, x1, x2, x3⟩
    · exact ⟨q3, pt.2.2, q1.symm⟩
    · exact ⟨q2, pt.2.1, q3.symm⟩
    · exact ⟨q1, pt.1, q2.symm⟩
    · have := hv.pos _ _ hu0
      unfold Ne3 at this ⊢
      rw [x1, x2, x3]; exact this
  · refine adj_of_local hv (fun i => i = t1 ∨ i = ts.length ∨ i = ts.length + 1) ?_ ?_ ?_
    · intro i x y j hi h
      have hil := h.lt
      rw [hf.len] at hil
      have hi1 : i ≠ t1 := fun h => hi (.inl h)
      have hi2 : i < ts.length := by
        by_contra hc; apply hi; omega
      obtain ⟨j0, h0, hj⟩ := (hf.ent_other hv ht hi2 hi1).1 h
      by_cases hj0 : j0 = t1
      · right
        subst hj0
        have hr := hv.ent_pos h0 (by omega)
        rcases (ent_of_get ht).1 hr with ⟨rfl, rfl, r⟩ | ⟨rfl, rfl, r⟩ | ⟨rfl, rfl, r⟩
        · rw [if_pos ⟨by omega, r.symm⟩, if_pos rfl] at hj
          subst hj
          refine ⟨by omega, E3.2 ?_⟩
          simp only [true_and, and_true]
          omega
        · subst r
          rw [if_neg (fun h => c1 h.1 h.2.symm), if_pos ⟨by omega, rfl⟩, if_pos rfl] at hj
          subst hj
          exact ⟨by omega, E2.2 (by simp)⟩
        · subst r
          rw [if_neg (fun h => c2 h.1 h.2.symm), if_neg (fun h => c3 h.1 h.2.symm)] at hj
          subst hj
          exact ⟨by omega, E1.2 (by simp)⟩
      · left
        have hjj : j = j0 := by
          rw [hj]; simp only [if_neg hj0, ite_self]
        subst hjj
        refine ⟨?_, h0⟩
        rcases hv.nb_range h0 with r | r
        · have := hv.len; omega
        · omega
    · intro i x y j hi hj h
      have hil := h.lt
      rw [hf.ent_other hv ht hil (fun h => hi (.inl h))]
      refine ⟨j, h, ?_⟩
      have hj0 : j ≠ t1 := fun h => hj (.inl h)
      simp only [if_neg hj0, ite_self]
    · have old : ∀ {x y j0}, Ent ts t1 x y j0 → ∀ j', Ent ts' j' x y j0 →
          (j0 ≠ NONE → (if t.n12 ≠ NONE ∧ j0 = t.n12 then ts.length + 1
            else if t.n23 ≠ NONE ∧ j0 = t.n23 then ts.length else t1) = j') →
          (j0 = NONE ∧ ¬ x < INF0 ∧ ¬ y < INF0) ∨ (j0 ≠ NONE ∧ Ent ts' j0 y x j') := by
        intro x y j0 h j' _ hj'
        rcases hv.adj _ _ _ _ h with r | ⟨r1, r2⟩
        · exact .inl r
        · refine .inr ⟨r1, (hf.ent_other hv ht r2.lt (hv.ne_self h)).2 ⟨_, r2, ?_⟩⟩
          simp only [if_true]
          exact (hj' r1).symm
      intro i x y j hi h
      rcases hi with rfl | rfl | rfl
      · have h' := h
        rcases E1.1 h with ⟨rfl, rfl, rfl⟩ | ⟨rfl, rfl, rfl⟩ | ⟨rfl, rfl, rfl⟩
        · exact .inr ⟨by omega, E2.2 (by simp)⟩
        · exact old e31 i h' (fun h => by
            rw [if_neg (fun h => c2 h.1 h.2.symm), if_neg (fun h => c3 h.1 h.2.symm)])
        · exact .inr ⟨by omega, E3.2 (by simp)⟩
      · have h' := h
        rcases E2.1 h with ⟨rfl, rfl, rfl⟩ | ⟨rfl, rfl, rfl⟩ | ⟨rfl, rfl, rfl⟩
        · exact .inr ⟨by omega, E3.2 (by simp)⟩
        · exact old e23 _ h' (fun h => by
            rw [if_neg (fun h => c1 h.1 h.2.symm), if_pos ⟨h, rfl⟩])
        · exact .inr ⟨by omega, E1.2 (by simp)⟩
      · have h' := h
        rcases E3.1 h with ⟨rfl, rfl, rfl⟩ | ⟨rfl, rfl, rfl⟩ | ⟨rfl, rfl, rfl⟩
        · exact .inr ⟨by omega, E1.2 (by simp)⟩
        · exact old e12 _ h' (fun h => by rw [if_pos ⟨h, rfl⟩])
        · exact .inr ⟨by omega, E2.2 (by simp)⟩

end

/-! ## Split on an edge -/

theorem has_upd2 (hv : Valid ts) {i : Nat} {u : Tri} (hu : ts[i]? = some u) {c1 c2 : Prop}
    [Decidable c1] [Decidable c2] {o1 w1 o2 w2 : Nat} (h1 : o1 ≠ NONE) (h2 : o2 ≠ NONE) (h12 : o1 ≠ o2)
    (hw : w1 ≠ o2) {x y j : Nat} :
    Has (if c2 then (if c1 then u.updN o1 w1 else u).updN o2 w2 else (if c1 then u.updN o1 w1 else u)) x y j ↔
      ∃ j0, Has u x y j0 ∧ j = if c1 ∧ j0 = o1 then w1 else if c2 ∧ j0 = o2 then w2 else j0 := by
  have inner : ∀ {x y j}, Has (if c1 then u.updN o1 w1 else u) x y j ↔
      ∃ j0, Has u x y j0 ∧ j = if c1 ∧ j0 = o1 then w1 else j0 := by
    intro x y j
    by_cases hc : c1
    · simp only [hc, if_true, true_and]; exact hv.has_updN hu h1
    · simp only [hc, if_false, false_and]
      constructor
      · intro h; exact ⟨j, h, rfl⟩
      · rintro ⟨j0, h, rfl⟩; exact h
  by_cases hc : c2
  · simp only [hc, if_true, true_and]
    rw [CDT.has_updN]
    · constructor
      · rintro ⟨j1, h, hj⟩
        obtain ⟨j0, h0, hj1⟩ := inner.1 h
        refine ⟨j0, h0, ?_⟩
        rw [hj, hj1]
        split
        · rfl
        · rfl
      · rintro ⟨j0, h0, hj⟩
        refine ⟨_, inner.2 ⟨j0, h0, rfl⟩, ?_⟩
        rw [hj]
        split
        · rfl
        · rfl
    · intro k m hk hm
      have key : ∀ k, (if c1 then u.updN o1 w1 else u).n k = o2 → u.n k = o2 := by
        intro k hk
        by_cases hc1 : c1
        · simp only [hc1, if_true] at hk
          rcases u.updN_n o1 w1 k with e | e
          · rw [← e]; exact hk
          · rw [e] at hk; exact absurd hk hw
        · simpa only [hc1, if_false] using hk
      have hk' := key k hk
      have hm' := key m hm
      exact hv.n_inj hu (hk'.trans hm'.symm) (by rw [hk']; exact h2)
  · simp only [hc, if_false, false_and]
    exact inner

/-- Result of `split_quad_into_four_triangles` on the quad made of `t1 = (x y o1)` and
`t2 = (y x o2)`. -/
structure Split4Spec (ts ts' : List Tri) (t1 t2 p x y o1 o2 n1 n2 n3 n4 : Nat) : Prop where
  len : ts'.length = ts.length + 2
  g1 : ∃ a, ts[t1]? = some a ∧ Rot a x y o1 t2 n1 n2
  g2 : ∃ b, ts[t2]? = some b ∧ Rot b y x o2 t1 n3 n4
  h1 : ts'[t1]? = some ⟨p, o1, x, ts.length, n2, t2⟩
  h2 : ts'[t2]? = some ⟨p, x, o2, t1, n3, ts.length + 1⟩
  h3 : ts'[ts.length]? = some ⟨p, y, o1, ts.length + 1, n1, t1⟩
  h4 : ts'[ts.length + 1]? = some ⟨p, o2, y, t2, n4, ts.length⟩
  other : ∀ i, i < ts.length → i ≠ t1 → i ≠ t2 → ts'[i]? = ts[i]?.map fun u =>
    if n4 ≠ NONE ∧ i = n4 then (if n1 ≠ NONE ∧ i = n1 then u.updN t1 ts.length else u).updN t2 (ts.length + 1)
    else (if n1 ≠ NONE ∧ i = n1 then u.updN t1 ts.length else u)

theorem oppVertexId_rot {b : Tri} {x y o2 j1 j2 j3 : Nat} (h : Rot b y x o2 j1 j2 j3)
    (hxy : x ≠ y) (hx : x ≠ o2) (hy : y ≠ o2) :
    b.oppVertexId ⟨x, y⟩ = o2 ∧ b.n (vertNextCcwEdge (b.vertexIndex o2)) = j2 ∧
      b.n (vertNextCwEdge (b.vertexIndex o2)) = j3 := by
  rcases h with rfl | rfl | rfl <;>
    simp [Tri.oppVertexId, Edge.contains, Tri.vertexIndex, hxy, hx, hy, hx.symm, hy.symm, hxy.symm,
      vertNextCcwEdge, vertNextCwEdge, Tri.n]

theorem split4_total (hv : Valid ts) (hlen : ts.length + 2 ≤ NONE) {t1 p : Nat} {ei : Fin 3}
    {x y o1 n1 n2 o2 n3 n4 : Nat} {a b : Tri}
    (ha : ts[t1]? = some a) (hx : a.v ei = x) (hy : a.v (ei + 1) = y)
    (hRa : Rot a x y o1 (a.n ei) n1 n2) (hb : ts[a.n ei]? = some b) (hRb : Rot b y x o2 t1 n3 n4) :
    ∃ ts', split4 ts t1 ei ⟨x, y⟩ p = .ok (ts', pushQ (pushQ (pushQ (pushQ [] ts.length n1) (ts.length + 1) n4)
        t1 n2) (a.n ei) n3) ∧ Split4Spec ts ts' t1 (a.n ei) p x y o1 o2 n1 n2 n3 n4 := by
  obtain ⟨e1, e2⟩ := nextId_eq (ts := ts) (by omega)
  have hl1 := lt_of_getElem? ha
  have hl2 := lt_of_getElem? hb
  have pa := hv.pos _ _ ha
  have pb := hv.pos _ _ hb
  have hxy := pa.has_ne hRa.has1
  have hx2 := pb.has_ne hRb.has2
  have hy2 := pb.has_ne hRb.has3
  have hyo := pa.has_ne hRa.has2
  have hox := pa.has_ne hRa.has3
  obtain ⟨q1, q2, q3⟩ := oppVertexId_rot hRb hxy hx2 hy2.symm
  have E1 : Ent ts t1 y o1 n1 := ⟨a, ha, hRa.has2⟩
  have E2 : Ent ts t1 o1 x n2 := ⟨a, ha, hRa.has3⟩
  have E3 : Ent ts (a.n ei) x o2 n3 := ⟨b, hb, hRb.has2⟩
  have E4 : Ent ts (a.n ei) o2 y n4 := ⟨b, hb, hRb.has3⟩
  have E0 : Ent ts t1 x y (a.n ei) := ⟨a, ha, hRa.has1⟩
  have E0' : Ent ts (a.n ei) y x t1 := ⟨b, hb, hRb.has1⟩
  have r1 := hv.nb_range E1
  have r4 := hv.nb_range E4
  have ne21 := hv.ne_self E0
  have n1t1 := hv.ne_self E1
  have n4t2 := hv.ne_self E4
  have hN := hv.len
  have n1t2 : n1 ≠ a.n ei := by
    intro h; rw [h] at E1; exact hxy (hv.nb_unique E0 E1 (by omega)).1
  have n4t1 : n4 ≠ t1 := by
    intro h; rw [h] at E4; exact hy2 (hv.nb_unique E0' E4 (by omega)).1.symm
  have hnb : a.v (oppVertIdx ei) = o1 ∧ a.n (nextCwEdge ei) = n1 ∧ a.n (nextCcwEdge ei) = n2 := by
    have hk := has_k a ei
    rw [hx, hy] at hk
    have hk2 := has_k a (ei + 1)
    have hk3 := has_k a (ei + 1 + 1)
    have hne := pa.ne
    have hxv : a.v (ei + 1 + 1 + 1) = x := by rw [← hx]; congr 1; fin_cases ei <;> rfl
    rw [hxv] at hk3
    rw [hy] at hk2
    have h2 := hRa.has_iff.1 hk2
    have h3 := hRa.has_iff.1 hk3
    have o : oppVertIdx ei = ei + 1 + 1 := by fin_cases ei <;> rfl
    have c : nextCwEdge ei = ei + 1 := by fin_cases ei <;> rfl
    have cc : nextCcwEdge ei = ei + 1 + 1 := by fin_cases ei <;> rfl
    rw [o, c, cc]
    rcases h2 with ⟨r, _, _⟩ | ⟨_, r, r'⟩ | ⟨r, _, _⟩
    · exact absurd r hxy
    · refine ⟨r.symm, r'.symm, ?_⟩
      rcases h3 with ⟨s, s', _⟩ | ⟨s, s', _⟩ | ⟨_, _, s⟩
      · exact absurd s' hxy.symm
      · exact absurd s' hox
      · exact s.symm
    · exact absurd r hyo.symm
  rw [e1] at e2
  unfold split4
  simp only [e1, e2, Res.ok_bind, getI_of ha, getI_of hb, q1, q2, q3, hnb.1, hnb.2.1, hnb.2.2]
  generalize ht2 : a.n ei = t2 at *
  set C : Tri := ⟨p, y, o1, ts.length + 1, n1, t1⟩ with hC
  set D : Tri := ⟨p, o2, y, t2, n4, ts.length⟩ with hD
  set A : Tri := ⟨p, o1, x, ts.length, n2, t2⟩ with hA
  set B : Tri := ⟨p, x, o2, t1, n3, ts.length + 1⟩ with hB
  have hget : ∀ i, (((ts ++ [C, D]).set t1 A).set t2 B)[i]? = if i = t2 then some B
      else if i = t1 then some A else if i < ts.length then ts[i]?
      else if i = ts.length then some C else if i = ts.length + 1 then some D else none := by
    intro i
    by_cases hi0 : i = t2
    · subst hi0; rw [List.getElem?_set_self (by simp; omega), if_pos rfl]
    rw [List.getElem?_set_ne (Ne.symm hi0), if_neg hi0]
    by_cases hi : i = t1
    · subst hi; rw [List.getElem?_set_self (by simp; omega), if_pos rfl]
    · rw [List.getElem?_set_ne (Ne.symm hi), if_neg hi]
      by_cases hi2 : i < ts.length
      · rw [if_pos hi2, List.getElem?_append_left hi2]
      · rw [if_neg hi2, List.getElem?_append_right (by omega)]
        by_cases hi3 : i = ts.length
        · subst hi3; simp
        · rw [if_neg hi3]
          by_cases hi4 : i = ts.length + 1
          · subst hi4; simp
          · rw [if_neg hi4]
            rw [List.getElem?_eq_none]; simp; omega
  obtain ⟨ts1, u1, l1, g1⟩ := updNb_total (((ts ++ [C, D]).set t1 A).set t2 B) (n := n1) (old := t1)
    (new := ts.length) (by simp; omega)
  obtain ⟨ts2, u2, l2, g2⟩ := updNb_total ts1 (n := n4) (old := t2)
    (new := ts.length + 1) (by rw [l1]; simp; omega)
  rw [u1]; simp only [Res.ok_bind]; rw [u2]; simp only [Res.ok_bind]
  refine ⟨ts2, rfl, ?_, ⟨a, ha, hRa⟩, ⟨b, hb, hRb⟩, ?_, ?_, ?_, ?_, ?_⟩
  · rw [l2, l1]; simp
  · rw [g2, g1, hget]
    rw [if_neg (fun h => n4t1 h.2.symm), if_neg (fun h => n1t1 h.2.symm), if_neg ne21.symm, if_pos rfl]
  · rw [g2, g1, hget]
    rw [if_neg (fun h => n4t2 h.2.symm), if_neg (fun h => n1t2 h.2.symm), if_pos rfl]
  · rw [g2, g1, hget]
    rw [if_neg (by omega), if_neg (by omega), if_neg (by omega), if_neg (by omega), if_neg (by omega),
      if_pos rfl]
  · rw [g2, g1, hget]
    rw [if_neg (by omega), if_neg (by omega), if_neg (by omega), if_neg (by omega), if_neg (by omega),
      if_neg (by omega), if_pos rfl]
  · intro i hi hi1 hi2
    rw [g2, g1, hget, if_neg hi2, if_neg hi1, if_pos hi]
    by_cases h4 : n4 ≠ NONE ∧ i = n4
    · simp only [if_pos h4]
      by_cases h1 : n1 ≠ NONE ∧ i = n1
      · simp only [if_pos h1, Option.map_map]; rfl
      · simp only [if_neg h1]
    · simp only [if_neg h4]
      by_cases h1 : n1 ≠ NONE ∧ i = n1
      · simp only [if_pos h1]
      · simp only [if_neg h1]
        cases ts[i]? <;> rfl

section
variable {t1 t2 p x y o1 o2 n1 n2 n3 n4 : Nat}

theorem Split4Spec.facts (hf : Split4Spec ts ts' t1 t2 p x y o1 o2 n1 n2 n3 n4) (hv : Valid ts) :
    Ent ts t1 x y t2 ∧ Ent ts t1 y o1 n1 ∧ Ent ts t1 o1 x n2 ∧ Ent ts t2 y x t1 ∧ Ent ts t2 x o2 n3 ∧
    Ent ts t2 o2 y n4 ∧ t1 ≠ t2 ∧ t1 < ts.length ∧ t2 < ts.length ∧
    (n1 ≠ t1 ∧ n1 ≠ t2) ∧ (n2 ≠ t1 ∧ n2 ≠ t2) ∧ (n3 ≠ t1 ∧ n3 ≠ t2) ∧ (n4 ≠ t1 ∧ n4 ≠ t2) ∧
    (n1 ≠ NONE → n1 ≠ n2) ∧ (n3 ≠ NONE → n3 ≠ n4) ∧
    x ≠ y ∧ y ≠ o1 ∧ o1 ≠ x ∧ x ≠ o2 ∧ o2 ≠ y := by
  obtain ⟨a, ha, hRa⟩ := hf.g1
  obtain ⟨b, hb, hRb⟩ := hf.g2
  have hl1 := lt_of_getElem? ha
  have hl2 := lt_of_getElem? hb
  have pa := hv.pos _ _ ha
  have pb := hv.pos _ _ hb
  have hxy := pa.has_ne hRa.has1
  have hx2 := pb.has_ne hRb.has2
  have hy2 := pb.has_ne hRb.has3
  have hyo := pa.has_ne hRa.has2
  have hox := pa.has_ne hRa.has3
  have E1 : Ent ts t1 y o1 n1 := ⟨a, ha, hRa.has2⟩
  have E2 : Ent ts t1 o1 x n2 := ⟨a, ha, hRa.has3⟩
  have E3 : Ent ts t2 x o2 n3 := ⟨b, hb, hRb.has2⟩
  have E4 : Ent ts t2 o2 y n4 := ⟨b, hb, hRb.has3⟩
  have E0 : Ent ts t1 x y t2 := ⟨a, ha, hRa.has1⟩
  have E0' : Ent ts t2 y x t1 := ⟨b, hb, hRb.has1⟩
  have hN := hv.len
  refine ⟨E0, E1, E2, E0', E3, E4, (hv.ne_self E0).symm, hl1, hl2, ⟨hv.ne_self E1, ?_⟩, ⟨hv.ne_self E2, ?_⟩,
    ⟨?_, hv.ne_self E3⟩, ⟨?_, hv.ne_self E4⟩, ?_, ?_, hxy, hyo, hox, hx2, hy2⟩
  · rintro rfl; exact hxy (hv.nb_unique E0 E1 (by omega)).1
  · rintro rfl; exact hox.symm (hv.nb_unique E0 E2 (by omega)).1
  · rintro rfl; exact hxy (hv.nb_unique E0' E3 (by omega)).1.symm
  · rintro rfl; exact hy2 (hv.nb_unique E0' E4 (by omega)).1.symm
  · rintro h rfl; exact hyo (hv.nb_unique E1 E2 h).1
  · rintro h rfl; exact hx2 (hv.nb_unique E3 E4 h).1

theorem Split4Spec.ent_other (hf : Split4Spec ts ts' t1 t2 p x y o1 o2 n1 n2 n3 n4) (hv : Valid ts)
    {i u v j : Nat} (hi : i < ts.length) (hi1 : i ≠ t1) (hi2 : i ≠ t2) :
    Ent ts' i u v j ↔ ∃ j0, Ent ts i u v j0 ∧
      j = if (n1 ≠ NONE ∧ i = n1) ∧ j0 = t1 then ts.length
          else if (n4 ≠ NONE ∧ i = n4) ∧ j0 = t2 then ts.length + 1 else j0 := by
  obtain ⟨_, _, _, _, _, _, ne, l1, l2, _⟩ := hf.facts hv
  have hN := hv.len
  have ho := hf.other i hi hi1 hi2
  obtain ⟨w, hw, _⟩ := getI_lt hi
  rw [hw] at ho
  constructor
  · rintro ⟨t', ht', hh⟩
    rw [ho] at ht'
    simp only [Option.map_some, Option.some.injEq] at ht'
    subst ht'
    obtain ⟨j0, h0, hj⟩ := (has_upd2 hv hw (by omega) (by omega) ne (by omega)).1 hh
    exact ⟨j0, ⟨w, hw, h0⟩, hj⟩
  · rintro ⟨j0, ⟨w', hw', h0⟩, hj⟩
    rw [hw] at hw'; simp at hw'; subst hw'
    exact ⟨_, ho, (has_upd2 hv hw (by omega) (by omega) ne (by omega)).2 ⟨j0, h0, hj⟩⟩

theorem Split4Spec.verts_other (hf : Split4Spec ts ts' t1 t2 p x y o1 o2 n1 n2 n3 n4) {i : Nat}
    (hi : i < ts.length) (hi1 : i ≠ t1) (hi2 : i ≠ t2) {t' : Tri} (ht' : ts'[i]? = some t') :
    ∃ u, ts[i]? = some u ∧ t'.v1 = u.v1 ∧ t'.v2 = u.v2 ∧ t'.v3 = u.v3 := by
  rw [hf.other i hi hi1 hi2] at ht'
  rw [Option.map_eq_some_iff] at ht'
  obtain ⟨t, ht, rfl⟩ := ht'
  refine ⟨t, ht, ?_⟩
  split <;> split <;> simp [Tri.updN_verts]

/-- Splitting a quad at a new vertex keeps the mesh valid. -/
theorem Split4Spec.valid (hf : Split4Spec ts ts' t1 t2 p x y o1 o2 n1 n2 n3 n4) (hv : Valid ts)
    (hlen : ts.length + 2 ≤ NONE) (hfresh : Fresh ts p) : Valid ts' := by
  obtain ⟨e0, e1, e2, e0', e3, e4, ne, l1, l2, ⟨a1, a1'⟩, ⟨a2, a2'⟩, ⟨a3, a3'⟩, ⟨a4, a4'⟩, c12, c34, nxy, nyo, nox, nxo2, no2y⟩ :=
    hf.facts hv
  obtain ⟨ta, hta, hRa⟩ := hf.g1
  obtain ⟨tb, htb, hRb⟩ := hf.g2
  have G1 : ∀ {u v j}, Ent ts t1 u v j → _ := fun {u v j} h => hRa.has_iff.1 (by
    obtain ⟨t', ht', hh⟩ := h
    rw [hta] at ht'; simp at ht'; subst ht'; exact hh : Has ta u v j)
  have G2 : ∀ {u v j}, Ent ts t2 u v j → _ := fun {u v j} h => hRb.has_iff.1 (by
    obtain ⟨t', ht', hh⟩ := h
    rw [htb] at ht'; simp at ht'; subst ht'; exact hh : Has tb u v j)
  have E1 : ∀ {u v j}, Ent ts' t1 u v j ↔ _ := fun {u v j} => ent_of_get hf.h1
  have E2 : ∀ {u v j}, Ent ts' t2 u v j ↔ _ := fun {u v j} => ent_of_get hf.h2
  have E3 : ∀ {u v j}, Ent ts' ts.length u v j ↔ _ := fun {u v j} => ent_of_get hf.h3
  have E4 : ∀ {u v j}, Ent ts' (ts.length + 1) u v j ↔ _ := fun {u v j} => ent_of_get hf.h4
  simp only at E1 E2 E3 E4
  have q := hfresh _ _ hta
  have q' := hfresh _ _ htb
  rw [hRa.hasVert] at q
  rw [hRb.hasVert] at q'
  have qx : p ≠ x := fun e => q (.inl e.symm)
  have qy : p ≠ y := fun e => q (.inr (.inl e.symm))
  have q1 : p ≠ o1 := fun e => q (.inr (.inr e.symm))
  have q2 : p ≠ o2 := fun e => q' (.inr (.inr e.symm))
  have ho : o1 ≠ o2 := by
    intro e
    refine hv.single _ _ _ _ hta htb ne fun v => ?_
    rw [hRa.hasVert, hRb.hasVert, e]
    tauto
  have cls : ∀ (i : Nat) (u : Tri), ts'[i]? = some u → (i = t1 ∧ u = ⟨p, o1, x, ts.length, n2, t2⟩) ∨
      (i = t2 ∧ u = ⟨p, x, o2, t1, n3, ts.length + 1⟩) ∨
      (i = ts.length ∧ u = ⟨p, y, o1, ts.length + 1, n1, t1⟩) ∨
      (i = ts.length + 1 ∧ u = ⟨p, o2, y, t2, n4, ts.length⟩) ∨
      ∃ w, ts[i]? = some w ∧ u.v1 = w.v1 ∧ u.v2 = w.v2 ∧ u.v3 = w.v3 := by
    intro i u hu
    have hil := lt_of_getElem? hu
    rw [hf.len] at hil
    by_cases hi1 : i = t1
    · subst hi1; rw [hf.h1] at hu; simp at hu; exact .inl ⟨rfl, hu.symm⟩
    by_cases hi2 : i = t2
    · subst hi2; rw [hf.h2] at hu; simp at hu; exact .inr (.inl ⟨rfl, hu.symm⟩)
    by_cases hi3 : i = ts.length
    · subst hi3; rw [hf.h3] at hu; simp at hu; exact .inr (.inr (.inl ⟨rfl, hu.symm⟩))
    by_cases hi4 : i = ts.length + 1
    · subst hi4; rw [hf.h4] at hu; simp at hu; exact .inr (.inr (.inr (.inl ⟨rfl, hu.symm⟩)))
    · exact .inr (.inr (.inr (.inr (hf.verts_other (by omega) hi1 hi2 hu))))
  refine ⟨?_, ?_, by rw [hf.len]; exact hlen, ?_⟩
  rotate_left 2
  · intro i j u w hu hw hij hs
    rcases cls i u hu with ⟨rfl, rfl⟩ | ⟨rfl, rfl⟩ | ⟨rfl, rfl⟩ | ⟨rfl, rfl⟩ | ⟨u0, hu0, x⟩ <;>
      rcases cls j w hw with ⟨rfl, rfl⟩ | ⟨rfl, rfl⟩ | ⟨rfl, rfl⟩ | ⟨rfl, rfl⟩ | ⟨w0, hw0, y⟩
    all_goals
      first
      | exact absurd rfl hij
      | exact hv.single _ _ _ _ hu0 hw0 hij (hs.congr x y)
      | exact not_same_old (hfresh _ _ hw0) y ((hs p).1 (by simp [Tri.hasVert]))
      | exact not_same_old (hfresh _ _ hu0) x ((hs p).2 (by simp [Tri.hasVert]))
      | skip
    all_goals
      have e1 := hs x
      have e2 := hs y
      have e3 := hs o1
      have e4 := hs o2
      simp [Tri.hasVert, nxy, nxy.symm, nyo, nyo.symm, nox, nox.symm, nxo2, nxo2.symm, no2y, no2y.symm, ho, ho.symm,
        qx, qx.symm, qy, qy.symm, q1, q1.symm, q2, q2.symm] at e1 e2 e3 e4
  · intro i u hu
    rcases cls i u hu with ⟨rfl, rfl⟩ | ⟨rfl, rfl⟩ | ⟨rfl, rfl⟩ | ⟨rfl, rfl⟩ | ⟨u0, hu0, x1, x2, x3⟩
    · exact ⟨q1, nox, qx.symm⟩
    · exact ⟨qx, nxo2, q2.symm⟩
    · exact ⟨qy, nyo, q1.symm⟩
    · exact ⟨q2, no2y, qy.symm⟩
    · have := hv.pos _ _ hu0
      unfold Ne3 at this ⊢
      rw [x1, x2, x3]; exact this
  · refine adj_of_local hv (fun i => i = t1 ∨ i = t2 ∨ i = ts.length ∨ i = ts.length + 1) ?_ ?_ ?_
    · intro i u v j hi h
      have hil := h.lt
      rw [hf.len] at hil
      have hi1 : i ≠ t1 := fun h => hi (.inl h)
      have hi2 : i ≠ t2 := fun h => hi (.inr (.inl h))
      have hi3 : i < ts.length := by
        by_contra hc; apply hi; omega
      obtain ⟨j0, h0, hj⟩ := (hf.ent_other hv hi3 hi1 hi2).1 h
      by_cases hj1 : j0 = t1
      · right
        subst hj1
        have hr := hv.ent_pos h0 (by omega)
        rcases G1 hr with ⟨_, _, r⟩ | ⟨rfl, rfl, r⟩ | ⟨rfl, rfl, r⟩
        · exact absurd r.symm hi2
        · rw [if_pos ⟨⟨by omega, r.symm⟩, rfl⟩] at hj
          subst hj
          exact ⟨by omega, E3.2 (by simp [r])⟩
        · rw [if_neg (fun h => c12 h.1.1 (h.1.2.symm.trans r.symm)), if_neg (fun h => ne h.2)] at hj
          subst hj
          exact ⟨by omega, E1.2 (by simp [r])⟩
      by_cases hj2 : j0 = t2
      · right
        subst hj2
        have hr := hv.ent_pos h0 (by omega)
        rcases G2 hr with ⟨_, _, r⟩ | ⟨rfl, rfl, r⟩ | ⟨rfl, rfl, r⟩
        · exact absurd r.symm hi1
        · rw [if_neg (fun h => hj1 h.2), if_neg (fun h => c34 (by omega) (r.trans h.1.2))] at hj
          subst hj
          exact ⟨by omega, E2.2 (by simp [r])⟩
        · rw [if_neg (fun h => hj1 h.2), if_pos ⟨⟨by omega, r.symm⟩, rfl⟩] at hj
          subst hj
          exact ⟨by omega, E4.2 (by simp [r])⟩
      · left
        rw [if_neg (fun h => hj1 h.2), if_neg (fun h => hj2 h.2)] at hj
        subst hj
        refine ⟨?_, h0⟩
        rcases hv.nb_range h0 with r | r
        · have := hv.len; omega
        · omega
    · intro i u v j hi hj h
      have hil := h.lt
      rw [hf.ent_other hv hil (fun h => hi (.inl h)) (fun h => hi (.inr (.inl h)))]
      refine ⟨j, h, ?_⟩
      rw [if_neg (fun h => hj (.inl h.2)), if_neg (fun h => hj (.inr (.inl h.2)))]
    · have old : ∀ {i u v j0}, (i = t1 ∨ i = t2) → Ent ts i u v j0 → j0 ≠ t1 → j0 ≠ t2 → ∀ j',
          (j0 ≠ NONE → (if (n1 ≠ NONE ∧ j0 = n1) ∧ i = t1 then ts.length
            else if (n4 ≠ NONE ∧ j0 = n4) ∧ i = t2 then ts.length + 1 else i) = j') →
          (j0 = NONE ∧ ¬ u < INF0 ∧ ¬ v < INF0) ∨ (j0 ≠ NONE ∧ Ent ts' j0 v u j') := by
        intro i u v j0 hi h hj1 hj2 j' hj'
        rcases hv.adj _ _ _ _ h with r | ⟨r1, r2⟩
        · exact .inl r
        · exact .inr ⟨r1, (hf.ent_other hv r2.lt hj1 hj2).2 ⟨_, r2, (hj' r1).symm⟩⟩
      intro i u v j hi h
      rcases hi with rfl | rfl | rfl | rfl
      · rcases E1.1 h with ⟨rfl, rfl, rfl⟩ | ⟨rfl, rfl, rfl⟩ | ⟨rfl, rfl, rfl⟩
        · exact .inr ⟨by omega, E3.2 (by simp)⟩
        · exact old (.inl rfl) e2 a2 a2' i (fun h => by
            rw [if_neg (fun h => c12 h.1.1 h.1.2.symm), if_neg (fun h => ne h.2)])
        · exact .inr ⟨by omega, E2.2 (by simp)⟩
      · rcases E2.1 h with ⟨rfl, rfl, rfl⟩ | ⟨rfl, rfl, rfl⟩ | ⟨rfl, rfl, rfl⟩
        · exact .inr ⟨by omega, E1.2 (by simp)⟩
        · exact old (.inr rfl) e3 a3 a3' i (fun h => by
            rw [if_neg (fun h => ne h.2.symm), if_neg (fun h' => c34 h h'.1.2)])
        · exact .inr ⟨by omega, E4.2 (by simp)⟩
      · rcases E3.1 h with ⟨rfl, rfl, rfl⟩ | ⟨rfl, rfl, rfl⟩ | ⟨rfl, rfl, rfl⟩
        · exact .inr ⟨by omega, E4.2 (by simp)⟩
        · exact old (.inl rfl) e1 a1 a1' _ (fun h => by rw [if_pos ⟨⟨h, rfl⟩, rfl⟩])
        · exact .inr ⟨by omega, E1.2 (by simp)⟩
      · rcases E4.1 h with ⟨rfl, rfl, rfl⟩ | ⟨rfl, rfl, rfl⟩ | ⟨rfl, rfl, rfl⟩
        · exact .inr ⟨by omega, E2.2 (by simp)⟩
        · exact old (.inr rfl) e4 a4 a4' _ (fun h => by
            rw [if_neg (fun h => ne h.2.symm), if_pos ⟨⟨h, rfl⟩, rfl⟩])
        · exact .inr ⟨by omega, E3.2 (by simp)⟩

end

/-! ## What the code of the swap does -/

section
variable {s o p a b c n1 n2 n3 n4 : Nat}

theorem flip_of_get (hv : Valid ts) {S U S' U' : Tri} (hS : ts[s]? = some S) (hRS : Rot S p a b n2 o n1)
    (hU : ts[o]? = some U) (hRU : Rot U b a c s n3 n4) (hRS' : Rot S' p a c n2 n3 o)
    (hRU' : Rot U' p c b s n4 n1) (hpc : p ≠ c) (hl : ts'.length = ts.length)
    (hget : ∀ i, ts'[i]? = if n1 ≠ NONE ∧ i = n1 then ((ts.set s S').set o U')[i]?.map (·.updN s o)
      else if n3 ≠ NONE ∧ i = n3 then ((ts.set s S').set o U')[i]?.map (·.updN o s)
      else ((ts.set s S').set o U')[i]?) : FlipSpec ts ts' s o p a b c n1 n2 n3 n4 := by
  have hls := lt_of_getElem? hS
  have hlo := lt_of_getElem? hU
  have hN := hv.len
  have pS := hv.pos _ _ hS
  have pU := hv.pos _ _ hU
  have E1 : Ent ts s b p n1 := ⟨S, hS, hRS.has3⟩
  have E0 : Ent ts s a b o := ⟨S, hS, hRS.has2⟩
  have F0 : Ent ts o b a s := ⟨U, hU, hRU.has1⟩
  have E3 : Ent ts o a c n3 := ⟨U, hU, hRU.has2⟩
  have hso := hv.ne_self E0
  have hab := pS.has_ne hRS.has2
  have hbp := pS.has_ne hRS.has3
  have hac := pU.has_ne hRU.has2
  have n1s := hv.ne_self E1
  have n3o := hv.ne_self E3
  have n1o : n1 ≠ o := by
    rintro rfl; exact hab (hv.nb_unique E0 E1 (by omega)).1
  have n3s : n3 ≠ s := by
    rintro rfl; exact hab (hv.nb_unique F0 E3 (by omega)).1.symm
  have base : ∀ i, ((ts.set s S').set o U')[i]? = if i = o then some U' else if i = s then some S' else ts[i]? := by
    intro i
    by_cases hi : i = o
    · subst hi; rw [List.getElem?_set_self (by simpa using hlo), if_pos rfl]
    · rw [List.getElem?_set_ne (Ne.symm hi), if_neg hi]
      by_cases hi : i = s
      · subst hi; rw [List.getElem?_set_self (by simpa using hls), if_pos rfl]
      · rw [List.getElem?_set_ne (Ne.symm hi), if_neg hi]
  refine ⟨⟨S, hS, hRS⟩, ⟨U, hU, hRU⟩, ⟨S', ?_, hRS'⟩, ⟨U', ?_, hRU'⟩, hl, ?_⟩
  · rw [hget, if_neg (fun h => n1s h.2.symm), if_neg (fun h => n3s h.2.symm), base, if_neg hso.symm, if_pos rfl]
  · rw [hget, if_neg (fun h => n1o h.2.symm), if_neg (fun h => n3o h.2.symm), base, if_pos rfl]
  · intro i his hio
    rw [hget, base, if_neg hio, if_neg his]

/-- The updates done by `check_and_swap_quad_diagonal` succeed and swap the diagonal. -/
theorem flip_total (hv : Valid ts) {S U S' U' : Tri} (hS : ts[s]? = some S) (hRS : Rot S p a b n2 o n1)
    (hU : ts[o]? = some U) (hRU : Rot U b a c s n3 n4) (hRS' : Rot S' p a c n2 n3 o)
    (hRU' : Rot U' p c b s n4 n1) (hpc : p ≠ c) :
    ∃ ts1 ts', updNb ((ts.set s S').set o U') n1 s o = .ok ts1 ∧ updNb ts1 n3 o s = .ok ts' ∧
      FlipSpec ts ts' s o p a b c n1 n2 n3 n4 := by
  have c13 := flip_n1_ne_n3 hv hS hRS hU hRU hpc
  have r1 := hv.nb_range ⟨S, hS, hRS.has3⟩
  have r3 := hv.nb_range ⟨U, hU, hRU.has2⟩
  obtain ⟨ts1, u1, l1, g1⟩ := updNb_total ((ts.set s S').set o U') (n := n1) (old := s) (new := o) (by simpa using r1)
  obtain ⟨ts2, u2, l2, g2⟩ := updNb_total ts1 (n := n3) (old := o) (new := s) (by rw [l1]; simpa using r3)
  refine ⟨ts1, ts2, u1, u2, flip_of_get hv hS hRS hU hRU hRS' hRU' hpc (by rw [l2, l1]; simp) ?_⟩
  intro i
  rw [g2, g1]
  by_cases h1 : n1 ≠ NONE ∧ i = n1
  · rw [if_pos h1, if_pos h1, if_neg (fun h => c13 h1.1 (h1.2.symm.trans h.2))]
  · rw [if_neg h1, if_neg h1]

/-- The same updates in the order used by `swap_quad_diagonal`. -/
theorem flip_total' (hv : Valid ts) {S U S' U' : Tri} (hS : ts[s]? = some S) (hRS : Rot S p a b n2 o n1)
    (hU : ts[o]? = some U) (hRU : Rot U b a c s n3 n4) (hRS' : Rot S' p a c n2 n3 o)
    (hRU' : Rot U' p c b s n4 n1) (hpc : p ≠ c) :
    ∃ ts1 ts', updNb ((ts.set s S').set o U') n3 o s = .ok ts1 ∧ updNb ts1 n1 s o = .ok ts' ∧
      FlipSpec ts ts' s o p a b c n1 n2 n3 n4 := by
  have c13 := flip_n1_ne_n3 hv hS hRS hU hRU hpc
  have r1 := hv.nb_range ⟨S, hS, hRS.has3⟩
  have r3 := hv.nb_range ⟨U, hU, hRU.has2⟩
  obtain ⟨ts1, u1, l1, g1⟩ := updNb_total ((ts.set s S').set o U') (n := n3) (old := o) (new := s) (by simpa using r3)
  obtain ⟨ts2, u2, l2, g2⟩ := updNb_total ts1 (n := n1) (old := s) (new := o) (by rw [l1]; simpa using r1)
  refine ⟨ts1, ts2, u1, u2, flip_of_get hv hS hRS hU hRU hRS' hRU' hpc (by rw [l2, l1]; simp) ?_⟩
  intro i
  rw [g2, g1]
  by_cases h1 : n1 ≠ NONE ∧ i = n1
  · rw [if_pos h1, if_pos h1, if_neg (fun h => c13 h1.1 (h1.2.symm.trans h.2))]
  · rw [if_neg h1, if_neg h1]

/-- The quad read by `check_and_swap_quad_diagonal`. -/
theorem quadOf_rot (hv : Valid ts) {U : Tri} (hU : ts[o]? = some U) (hRU : Rot U b a c s n3 n4)
    (hs : s ≠ NONE) (p : Nat) : quadOf U s p = (⟨a, b, c, p⟩, n3, n4) := by
  have k01 : U.n 0 = U.n 1 → U.n 0 ≠ NONE → False := fun h h' => absurd (hv.n_inj hU (k := 0) (m := 1) h h') (by decide)
  have k02 : U.n 0 = U.n 2 → U.n 0 ≠ NONE → False := fun h h' => absurd (hv.n_inj hU (k := 0) (m := 2) h h') (by decide)
  have k12 : U.n 1 = U.n 2 → U.n 1 ≠ NONE → False := fun h h' => absurd (hv.n_inj hU (k := 1) (m := 2) h h') (by decide)
  simp only [Tri.n_0, Tri.n_1, Tri.n_2] at k01 k02 k12
  unfold quadOf
  rcases hRU with rfl | rfl | rfl
  · simp
  · simp only at k01 k02 k12 ⊢
    rw [if_neg (fun h => k01 h (h ▸ hs)), if_pos trivial]
  · simp only at k01 k02 k12 ⊢
    rw [if_neg (fun h => k02 h (h ▸ hs)), if_neg (fun h => k12 h (h ▸ hs))]


end

end Comb
end CDT

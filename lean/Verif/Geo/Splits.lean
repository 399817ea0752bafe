import Verif.Geo.Ops

/-! # Splitting triangles of valid meshes -/

set_option linter.unusedSectionVars false
set_option linter.unusedSimpArgs false
set_option linter.unusedVariables false

namespace CDT

variable {K : Type} [Field K] [LinearOrder K] [IsStrictOrderedRing K] [IdCfg]
variable {H : Nat → HP K} {ts ts' : List Tri}

theorem nextId_eq {ts : List Tri} (h : ts.length + 1 ≤ NONE) :
    nextId ts = ts.length ∧ addId (nextId ts) 1 = .ok (ts.length + 1) := by
  have h1 : nextId ts = ts.length := by
    unfold nextId toId; exact Nat.mod_eq_of_lt (by unfold NONE at h; omega)
  refine ⟨h1, ?_⟩
  rw [h1]; unfold addId; unfold NONE at h; rw [if_pos (by omega)]

/-- Result of `split_triangle_into_three_triangles`. -/
structure Split3Spec (ts ts' : List Tri) (t1 p : Nat) (t : Tri) : Prop where
  len : ts'.length = ts.length + 2
  h1 : ts'[t1]? = some ⟨p, t.v3, t.v1, ts.length, t.n31, ts.length + 1⟩
  h2 : ts'[ts.length]? = some ⟨p, t.v2, t.v3, ts.length + 1, t.n23, t1⟩
  h3 : ts'[ts.length + 1]? = some ⟨p, t.v1, t.v2, t1, t.n12, ts.length⟩
  other : ∀ i, i < ts.length → i ≠ t1 → ts'[i]? =
    if t.n12 ≠ NONE ∧ i = t.n12 then ts[i]?.map (·.updN t1 (ts.length + 1))
    else if t.n23 ≠ NONE ∧ i = t.n23 then ts[i]?.map (·.updN t1 ts.length)
    else ts[i]?

theorem split3_total (hv : Valid H ts) (hlen : ts.length + 2 ≤ NONE) {t1 p : Nat} {t : Tri}
    (ht : ts[t1]? = some t) :
    ∃ ts', split3 ts t1 p = .ok (ts', pushQ (pushQ (pushQ [] (ts.length + 1) t.n12) ts.length t.n23)
        t1 t.n31) ∧ Split3Spec ts ts' t1 p t := by
  obtain ⟨e1, e2⟩ := nextId_eq (ts := ts) (by omega)
  have hl := lt_of_getElem? ht
  have r12 := hv.nb_range ⟨t, ht, has_0 t⟩
  have r23 := hv.nb_range ⟨t, ht, has_1 t⟩
  have s12 := hv.ne_self ⟨t, ht, has_0 t⟩
  have s23 := hv.ne_self ⟨t, ht, has_1 t⟩
  have hne : t.n12 ≠ NONE → t.n12 ≠ t.n23 := fun h e =>
    absurd (hv.n_inj ht (k := 0) (m := 1) e h) (by decide)
  rw [e1] at e2
  unfold split3
  simp only [e1, e2, Res.ok_bind, getI_of ht]
  set A : Tri := ⟨p, t.v2, t.v3, ts.length + 1, t.n23, t1⟩ with hA
  set B : Tri := ⟨p, t.v1, t.v2, t1, t.n12, ts.length⟩ with hB
  set C : Tri := ⟨p, t.v3, t.v1, ts.length, t.n31, ts.length + 1⟩ with hC
  have hget : ∀ i, ((ts ++ [A, B]).set t1 C)[i]? = if i = t1 then some C else if i < ts.length then ts[i]?
      else if i = ts.length then some A else if i = ts.length + 1 then some B else none := by
    intro i
    by_cases hi : i = t1
    · subst hi; rw [List.getElem?_set_self (by simp; omega), if_pos rfl]
    · rw [List.getElem?_set_ne (Ne.symm hi), if_neg hi]
      by_cases hi2 : i < ts.length
      · rw [if_pos hi2, List.getElem?_append_left hi2]
      · rw [if_neg hi2, List.getElem?_append_right (by omega)]
        by_cases hi3 : i = ts.length
        · subst hi3; simp
        · rw [if_neg hi3]
          by_cases hi4 : i = ts.length + 1
          · subst hi4; simp
          · rw [if_neg hi4]
            rw [List.getElem?_eq_none]; simp; omega
  obtain ⟨ts1, u1, l1, g1⟩ := updNb_total ((ts ++ [A, B]).set t1 C) (n := t.n12) (old := t1)
    (new := ts.length + 1) (by simp; omega)
  obtain ⟨ts2, u2, l2, g2⟩ := updNb_total ts1 (n := t.n23) (old := t1)
    (new := ts.length) (by rw [l1]; simp; omega)
  rw [u1]; simp only [Res.ok_bind]; rw [u2]; simp only [Res.ok_bind]
  have hN : ts.length + 2 ≤ NONE := hlen
  refine ⟨ts2, rfl, ?_, ?_, ?_, ?_, ?_⟩
  · rw [l2, l1]; simp
  · rw [g2, g1, hget]
    rw [if_neg (fun h => s23 h.2.symm), if_neg (fun h => s12 h.2.symm), if_pos rfl]
  · rw [g2, g1, hget]
    rw [if_neg (by omega), if_neg (by omega), if_neg (by omega), if_neg (by omega), if_pos rfl]
  · rw [g2, g1, hget]
    rw [if_neg (by omega), if_neg (by omega), if_neg (by omega), if_neg (by omega), if_neg (by omega),
      if_pos rfl]
  · intro i hi hi1
    rw [g2, g1, hget, if_neg hi1, if_pos hi]
    by_cases h12 : t.n12 ≠ NONE ∧ i = t.n12
    · have : ¬ (t.n23 ≠ NONE ∧ i = t.n23) := fun h => hne h12.1 (h12.2.symm.trans h.2)
      rw [if_neg this, if_pos h12, if_pos h12]
    · rw [if_neg h12, if_neg h12]

section
variable {t1 p : Nat} {t : Tri}

theorem ent_of_get {ts : List Tri} {i : Nat} {t : Tri} (ht : ts[i]? = some t) {x y j : Nat} :
    Ent ts i x y j ↔ (t.v1 = x ∧ t.v2 = y ∧ t.n12 = j) ∨ (t.v2 = x ∧ t.v3 = y ∧ t.n23 = j) ∨
      (t.v3 = x ∧ t.v1 = y ∧ t.n31 = j) := by
  constructor
  · rintro ⟨t', ht', hh⟩
    rw [ht] at ht'; simp at ht'; subst ht'
    exact hh
  · intro h; exact ⟨t, ht, h⟩

theorem Split3Spec.ent_other (hf : Split3Spec ts ts' t1 p t) (hv : Valid H ts) (ht : ts[t1]? = some t)
    {i x y j : Nat} (hi : i < ts.length) (hi1 : i ≠ t1) :
    Ent ts' i x y j ↔ ∃ j0, Ent ts i x y j0 ∧
      j = if t.n12 ≠ NONE ∧ i = t.n12 then (if j0 = t1 then ts.length + 1 else j0)
          else if t.n23 ≠ NONE ∧ i = t.n23 then (if j0 = t1 then ts.length else j0) else j0 := by
  have hl := lt_of_getElem? ht
  have hN := hv.len
  have ho := hf.other i hi hi1
  by_cases h1 : t.n12 ≠ NONE ∧ i = t.n12
  · rw [if_pos h1] at ho
    simp only [if_pos h1]
    constructor
    · rintro ⟨t', ht', hh⟩
      rw [ho, Option.map_eq_some_iff] at ht'
      obtain ⟨u, hu, rfl⟩ := ht'
      rw [hv.has_updN hu (by omega)] at hh
      obtain ⟨j0, h0, hj⟩ := hh
      exact ⟨j0, ⟨u, hu, h0⟩, hj⟩
    · rintro ⟨j0, ⟨u, hu, h0⟩, hj⟩
      exact ⟨_, by rw [ho, hu]; rfl, (hv.has_updN hu (by omega)).2 ⟨j0, h0, hj⟩⟩
  · rw [if_neg h1] at ho
    simp only [if_neg h1]
    by_cases h3 : t.n23 ≠ NONE ∧ i = t.n23
    · rw [if_pos h3] at ho
      simp only [if_pos h3]
      constructor
      · rintro ⟨t', ht', hh⟩
        rw [ho, Option.map_eq_some_iff] at ht'
        obtain ⟨u, hu, rfl⟩ := ht'
        rw [hv.has_updN hu (by omega)] at hh
        obtain ⟨j0, h0, hj⟩ := hh
        exact ⟨j0, ⟨u, hu, h0⟩, hj⟩
      · rintro ⟨j0, ⟨u, hu, h0⟩, hj⟩
        exact ⟨_, by rw [ho, hu]; rfl, (hv.has_updN hu (by omega)).2 ⟨j0, h0, hj⟩⟩
    · rw [if_neg h3] at ho
      simp only [if_neg h3]
      constructor
      · rintro ⟨t', ht', hh⟩
        rw [ho] at ht'
        exact ⟨j, ⟨t', ht', hh⟩, rfl⟩
      · rintro ⟨j0, ⟨u, hu, h0⟩, rfl⟩
        exact ⟨u, by rw [ho, hu], h0⟩

theorem Split3Spec.verts_other (hf : Split3Spec ts ts' t1 p t) {i : Nat} (hi : i < ts.length)
    (hi1 : i ≠ t1) {t' : Tri} (ht' : ts'[i]? = some t') :
    ∃ u, ts[i]? = some u ∧ t'.v1 = u.v1 ∧ t'.v2 = u.v2 ∧ t'.v3 = u.v3 := by
  rw [hf.other i hi hi1] at ht'
  split at ht'
  · rw [Option.map_eq_some_iff] at ht'
    obtain ⟨t, ht, rfl⟩ := ht'
    exact ⟨t, ht, t.updN_verts _ _⟩
  · split at ht'
    · rw [Option.map_eq_some_iff] at ht'
      obtain ⟨t, ht, rfl⟩ := ht'
      exact ⟨t, ht, t.updN_verts _ _⟩
    · exact ⟨t', ht', rfl, rfl, rfl⟩

/-- Splitting a triangle at a point strictly inside keeps the mesh valid. -/
theorem Split3Spec.valid (hf : Split3Spec ts ts' t1 p t) (hv : Valid H ts) (ht : ts[t1]? = some t)
    (hlen : ts.length + 2 ≤ NONE)
    (p1 : 0 < HP.o (H t.v1) (H t.v2) (H p)) (p2 : 0 < HP.o (H t.v2) (H t.v3) (H p))
    (p3 : 0 < HP.o (H t.v3) (H t.v1) (H p)) : Valid H ts' := by
  have hl := lt_of_getElem? ht
  have e12 : Ent ts t1 t.v1 t.v2 t.n12 := ⟨t, ht, has_0 t⟩
  have e23 : Ent ts t1 t.v2 t.v3 t.n23 := ⟨t, ht, has_1 t⟩
  have e31 : Ent ts t1 t.v3 t.v1 t.n31 := ⟨t, ht, has_2 t⟩
  have s12 := hv.ne_self e12
  have s23 := hv.ne_self e23
  have s31 := hv.ne_self e31
  have c1 : t.n12 ≠ NONE → t.n12 ≠ t.n23 := fun h e =>
    absurd (hv.n_inj ht (k := 0) (m := 1) e h) (by decide)
  have c2 : t.n12 ≠ NONE → t.n12 ≠ t.n31 := fun h e =>
    absurd (hv.n_inj ht (k := 0) (m := 2) e h) (by decide)
  have c3 : t.n23 ≠ NONE → t.n23 ≠ t.n31 := fun h e =>
    absurd (hv.n_inj ht (k := 1) (m := 2) e h) (by decide)
  have E1 : ∀ {x y j}, Ent ts' t1 x y j ↔ _ := fun {x y j} => ent_of_get hf.h1
  have E2 : ∀ {x y j}, Ent ts' ts.length x y j ↔ _ := fun {x y j} => ent_of_get hf.h2
  have E3 : ∀ {x y j}, Ent ts' (ts.length + 1) x y j ↔ _ := fun {x y j} => ent_of_get hf.h3
  simp only at E1 E2 E3
  refine ⟨?_, ?_, by rw [hf.len]; exact hlen⟩
  · intro i u hu
    have hil := lt_of_getElem? hu
    rw [hf.len] at hil
    by_cases hi1 : i = t1
    · subst hi1
      rw [hf.h1] at hu; simp at hu; subst hu
      unfold Pos; simp only; rw [HP.o_cyc']; exact p3
    · by_cases hi : i < ts.length
      · obtain ⟨t0, ht0, v1, v2, v3⟩ := hf.verts_other hi hi1 hu
        have := hv.pos _ _ ht0
        unfold Pos at this ⊢
        rw [v1, v2, v3]; exact this
      · by_cases hi2 : i = ts.length
        · subst hi2
          rw [hf.h2] at hu; simp at hu; subst hu
          unfold Pos; simp only; rw [HP.o_cyc']; exact p2
        · have hi3 : i = ts.length + 1 := by omega
          subst hi3
          rw [hf.h3] at hu; simp at hu; subst hu
          unfold Pos; simp only; rw [HP.o_cyc']; exact p1
  · refine adj_of_local hv (fun i => i = t1 ∨ i = ts.length ∨ i = ts.length + 1) ?_ ?_ ?_
    · intro i x y j hi h
      have hil := h.lt
      rw [hf.len] at hil
      have hi1 : i ≠ t1 := fun h => hi (.inl h)
      have hi2 : i < ts.length := by
        by_contra hc; apply hi; omega
      obtain ⟨j0, h0, hj⟩ := (hf.ent_other hv ht hi2 hi1).1 h
      by_cases hj0 : j0 = t1
      · right
        subst hj0
        have hr := hv.ent_pos h0 (by omega)
        rcases (ent_of_get ht).1 hr with ⟨rfl, rfl, r⟩ | ⟨rfl, rfl, r⟩ | ⟨rfl, rfl, r⟩
        · rw [if_pos ⟨by omega, r.symm⟩, if_pos rfl] at hj
          subst hj
          refine ⟨by omega, E3.2 ?_⟩
          simp only [true_and, and_true]
          omega
        · subst r
          rw [if_neg (fun h => c1 h.1 h.2.symm), if_pos ⟨by omega, rfl⟩, if_pos rfl] at hj
          subst hj
          exact ⟨by omega, E2.2 (by simp)⟩
        · subst r
          rw [if_neg (fun h => c2 h.1 h.2.symm), if_neg (fun h => c3 h.1 h.2.symm)] at hj
          subst hj
          exact ⟨by omega, E1.2 (by simp)⟩
      · left
        have hjj : j = j0 := by
          rw [hj]; simp only [if_neg hj0, ite_self]
        subst hjj
        refine ⟨?_, h0⟩
        rcases hv.nb_range h0 with r | r
        · have := hv.len; omega
        · omega
    · intro i x y j hi hj h
      have hil := h.lt
      rw [hf.ent_other hv ht hil (fun h => hi (.inl h))]
      refine ⟨j, h, ?_⟩
      have hj0 : j ≠ t1 := fun h => hj (.inl h)
      simp only [if_neg hj0, ite_self]
    · have old : ∀ {x y j0}, Ent ts t1 x y j0 → ∀ j', Ent ts' j' x y j0 →
          (j0 ≠ NONE → (if t.n12 ≠ NONE ∧ j0 = t.n12 then ts.length + 1
            else if t.n23 ≠ NONE ∧ j0 = t.n23 then ts.length else t1) = j') →
          (j0 = NONE ∧ ¬ x < INF0 ∧ ¬ y < INF0) ∨ (j0 ≠ NONE ∧ Ent ts' j0 y x j') := by
        intro x y j0 h j' _ hj'
        rcases hv.adj _ _ _ _ h with r | ⟨r1, r2⟩
        · exact .inl r
        · refine .inr ⟨r1, (hf.ent_other hv ht r2.lt (hv.ne_self h)).2 ⟨_, r2, ?_⟩⟩
          simp only [if_true]
          exact (hj' r1).symm
      intro i x y j hi h
      rcases hi with rfl | rfl | rfl
      · have h' := h
        rcases E1.1 h with ⟨rfl, rfl, rfl⟩ | ⟨rfl, rfl, rfl⟩ | ⟨rfl, rfl, rfl⟩
        · exact .inr ⟨by omega, E2.2 (by simp)⟩
        · exact old e31 i h' (fun h => by
            rw [if_neg (fun h => c2 h.1 h.2.symm), if_neg (fun h => c3 h.1 h.2.symm)])
        · exact .inr ⟨by omega, E3.2 (by simp)⟩
      · have h' := h
        rcases E2.1 h with ⟨rfl, rfl, rfl⟩ | ⟨rfl, rfl, rfl⟩ | ⟨rfl, rfl, rfl⟩
        · exact .inr ⟨by omega, E3.2 (by simp)⟩
        · exact old e23 _ h' (fun h => by
            rw [if_neg (fun h => c1 h.1 h.2.symm), if_pos ⟨h, rfl⟩])
        · exact .inr ⟨by omega, E1.2 (by simp)⟩
      · have h' := h
        rcases E3.1 h with ⟨rfl, rfl, rfl⟩ | ⟨rfl, rfl, rfl⟩ | ⟨rfl, rfl, rfl⟩
        · exact .inr ⟨by omega, E1.2 (by simp)⟩
        · exact old e12 _ h' (fun h => by rw [if_pos ⟨h, rfl⟩])
        · exact .inr ⟨by omega, E2.2 (by simp)⟩

end

/-! ## Split on an edge -/

theorem has_upd2 (hv : Valid H ts) {i : Nat} {u : Tri} (hu : ts[i]? = some u) {c1 c2 : Prop}
    [Decidable c1] [Decidable c2] {o1 w1 o2 w2 : Nat} (h1 : o1 ≠ NONE) (h2 : o2 ≠ NONE) (h12 : o1 ≠ o2)
    (hw : w1 ≠ o2) {x y j : Nat} :
    Has (if c2 then (if c1 then u.updN o1 w1 else u).updN o2 w2 else (if c1 then u.updN o1 w1 else u)) x y j ↔
      ∃ j0, Has u x y j0 ∧ j = if c1 ∧ j0 = o1 then w1 else if c2 ∧ j0 = o2 then w2 else j0 := by
  have inner : ∀ {x y j}, Has (if c1 then u.updN o1 w1 else u) x y j ↔
      ∃ j0, Has u x y j0 ∧ j = if c1 ∧ j0 = o1 then w1 else j0 := by
    intro x y j
    by_cases hc : c1
    · simp only [hc, if_true, true_and]; exact hv.has_updN hu h1
    · simp only [hc, if_false, false_and]
      constructor
      · intro h; exact ⟨j, h, rfl⟩
      · rintro ⟨j0, h, rfl⟩; exact h
  by_cases hc : c2
  · simp only [hc, if_true, true_and]
    rw [CDT.has_updN]
    · constructor
      · rintro ⟨j1, h, hj⟩
        obtain ⟨j0, h0, hj1⟩ := inner.1 h
        refine ⟨j0, h0, ?_⟩
        rw [hj, hj1]
        split
        · rfl
        · rfl
      · rintro ⟨j0, h0, hj⟩
        refine ⟨_, inner.2 ⟨j0, h0, rfl⟩, ?_⟩
        rw [hj]
        split
        · rfl
        · rfl
    · intro k m hk hm
      have key : ∀ k, (if c1 then u.updN o1 w1 else u).n k = o2 → u.n k = o2 := by
        intro k hk
        by_cases hc1 : c1
        · simp only [hc1, if_true] at hk
          rcases u.updN_n o1 w1 k with e | e
          · rw [← e]; exact hk
          · rw [e] at hk; exact absurd hk hw
        · simpa only [hc1, if_false] using hk
      have hk' := key k hk
      have hm' := key m hm
      exact hv.n_inj hu (hk'.trans hm'.symm) (by rw [hk']; exact h2)
  · simp only [hc, if_false, false_and]
    exact inner

/-- Result of `split_quad_into_four_triangles` on the quad made of `t1 = (x y o1)` and
`t2 = (y x o2)`. -/
structure Split4Spec (ts ts' : List Tri) (t1 t2 p x y o1 o2 n1 n2 n3 n4 : Nat) : Prop where
  len : ts'.length = ts.length + 2
  g1 : ∃ a, ts[t1]? = some a ∧ Rot a x y o1 t2 n1 n2
  g2 : ∃ b, ts[t2]? = some b ∧ Rot b y x o2 t1 n3 n4
  h1 : ts'[t1]? = some ⟨p, o1, x, ts.length, n2, t2⟩
  h2 : ts'[t2]? = some ⟨p, x, o2, t1, n3, ts.length + 1⟩
  h3 : ts'[ts.length]? = some ⟨p, y, o1, ts.length + 1, n1, t1⟩
  h4 : ts'[ts.length + 1]? = some ⟨p, o2, y, t2, n4, ts.length⟩
  other : ∀ i, i < ts.length → i ≠ t1 → i ≠ t2 → ts'[i]? = ts[i]?.map fun u =>
    if n4 ≠ NONE ∧ i = n4 then (if n1 ≠ NONE ∧ i = n1 then u.updN t1 ts.length else u).updN t2 (ts.length + 1)
    else (if n1 ≠ NONE ∧ i = n1 then u.updN t1 ts.length else u)

theorem oppVertexId_rot {b : Tri} {x y o2 j1 j2 j3 : Nat} (h : Rot b y x o2 j1 j2 j3)
    (hxy : x ≠ y) (hx : x ≠ o2) (hy : y ≠ o2) :
    b.oppVertexId ⟨x, y⟩ = o2 ∧ b.n (vertNextCcwEdge (b.vertexIndex o2)) = j2 ∧
      b.n (vertNextCwEdge (b.vertexIndex o2)) = j3 := by
  rcases h with rfl | rfl | rfl <;>
    simp [Tri.oppVertexId, Edge.contains, Tri.vertexIndex, hxy, hx, hy, hx.symm, hy.symm, hxy.symm,
      vertNextCcwEdge, vertNextCwEdge, Tri.n]

theorem split4_total (hv : Valid H ts) (hlen : ts.length + 2 ≤ NONE) {t1 p : Nat} {ei : Fin 3}
    {x y o1 n1 n2 o2 n3 n4 : Nat} {a b : Tri}
    (ha : ts[t1]? = some a) (hx : a.v ei = x) (hy : a.v (ei + 1) = y)
    (hRa : Rot a x y o1 (a.n ei) n1 n2) (hb : ts[a.n ei]? = some b) (hRb : Rot b y x o2 t1 n3 n4) :
    ∃ ts', split4 ts t1 ei ⟨x, y⟩ p = .ok (ts', pushQ (pushQ (pushQ (pushQ [] ts.length n1) (ts.length + 1) n4)
        t1 n2) (a.n ei) n3) ∧ Split4Spec ts ts' t1 (a.n ei) p x y o1 o2 n1 n2 n3 n4 := by
  obtain ⟨e1, e2⟩ := nextId_eq (ts := ts) (by omega)
  have hl1 := lt_of_getElem? ha
  have hl2 := lt_of_getElem? hb
  have pa := hv.pos _ _ ha
  have pb := hv.pos _ _ hb
  have hxy := pa.has_ne hRa.has1
  have hx2 := pb.has_ne hRb.has2
  have hy2 := pb.has_ne hRb.has3
  have hyo := pa.has_ne hRa.has2
  have hox := pa.has_ne hRa.has3
  obtain ⟨q1, q2, q3⟩ := oppVertexId_rot hRb hxy hx2 hy2.symm
  have E1 : Ent ts t1 y o1 n1 := ⟨a, ha, hRa.has2⟩
  have E2 : Ent ts t1 o1 x n2 := ⟨a, ha, hRa.has3⟩
  have E3 : Ent ts (a.n ei) x o2 n3 := ⟨b, hb, hRb.has2⟩
  have E4 : Ent ts (a.n ei) o2 y n4 := ⟨b, hb, hRb.has3⟩
  have E0 : Ent ts t1 x y (a.n ei) := ⟨a, ha, hRa.has1⟩
  have E0' : Ent ts (a.n ei) y x t1 := ⟨b, hb, hRb.has1⟩
  have r1 := hv.nb_range E1
  have r4 := hv.nb_range E4
  have ne21 := hv.ne_self E0
  have n1t1 := hv.ne_self E1
  have n4t2 := hv.ne_self E4
  have hN := hv.len
  have n1t2 : n1 ≠ a.n ei := by
    intro h; rw [h] at E1; exact hxy (hv.nb_unique E0 E1 (by omega)).1
  have n4t1 : n4 ≠ t1 := by
    intro h; rw [h] at E4; exact hy2 (hv.nb_unique E0' E4 (by omega)).1.symm
  have hnb : a.v (oppVertIdx ei) = o1 ∧ a.n (nextCwEdge ei) = n1 ∧ a.n (nextCcwEdge ei) = n2 := by
    have hk := has_k a ei
    rw [hx, hy] at hk
    have hk2 := has_k a (ei + 1)
    have hk3 := has_k a (ei + 1 + 1)
    have hne := pa.ne
    have hxv : a.v (ei + 1 + 1 + 1) = x := by rw [← hx]; congr 1; fin_cases ei <;> rfl
    rw [hxv] at hk3
    rw [hy] at hk2
    have h2 := hRa.has_iff.1 hk2
    have h3 := hRa.has_iff.1 hk3
    have o : oppVertIdx ei = ei + 1 + 1 := by fin_cases ei <;> rfl
    have c : nextCwEdge ei = ei + 1 := by fin_cases ei <;> rfl
    have cc : nextCcwEdge ei = ei + 1 + 1 := by fin_cases ei <;> rfl
    rw [o, c, cc]
    rcases h2 with ⟨r, _, _⟩ | ⟨_, r, r'⟩ | ⟨r, _, _⟩
    · exact absurd r hxy
    · refine ⟨r.symm, r'.symm, ?_⟩
      rcases h3 with ⟨s, s', _⟩ | ⟨s, s', _⟩ | ⟨_, _, s⟩
      · exact absurd s' hxy.symm
      · exact absurd s' hox
      · exact s.symm
    · exact absurd r hyo.symm
  rw [e1] at e2
  unfold split4
  simp only [e1, e2, Res.ok_bind, getI_of ha, getI_of hb, q1, q2, q3, hnb.1, hnb.2.1, hnb.2.2]
  generalize ht2 : a.n ei = t2 at *
  set C : Tri := ⟨p, y, o1, ts.length + 1, n1, t1⟩ with hC
  set D : Tri := ⟨p, o2, y, t2, n4, ts.length⟩ with hD
  set A : Tri := ⟨p, o1, x, ts.length, n2, t2⟩ with hA
  set B : Tri := ⟨p, x, o2, t1, n3, ts.length + 1⟩ with hB
  have hget : ∀ i, (((ts ++ [C, D]).set t1 A).set t2 B)[i]? = if i = t2 then some B
      else if i = t1 then some A else if i < ts.length then ts[i]?
      else if i = ts.length then some C else if i = ts.length + 1 then some D else none := by
    intro i
    by_cases hi0 : i = t2
    · subst hi0; rw [List.getElem?_set_self (by simp; omega), if_pos rfl]
    rw [List.getElem?_set_ne (Ne.symm hi0), if_neg hi0]
    by_cases hi : i = t1
    · subst hi; rw [List.getElem?_set_self (by simp; omega), if_pos rfl]
    · rw [List.getElem?_set_ne (Ne.symm hi), if_neg hi]
      by_cases hi2 : i < ts.length
      · rw [if_pos hi2, List.getElem?_append_left hi2]
      · rw [if_neg hi2, List.getElem?_append_right (by omega)]
        by_cases hi3 : i = ts.length
        · subst hi3; simp
        · rw [if_neg hi3]
          by_cases hi4 : i = ts.length + 1
          · subst hi4; simp
          · rw [if_neg hi4]
            rw [List.getElem?_eq_none]; simp; omega
  obtain ⟨ts1, u1, l1, g1⟩ := updNb_total (((ts ++ [C, D]).set t1 A).set t2 B) (n := n1) (old := t1)
    (new := ts.length) (by simp; omega)
  obtain ⟨ts2, u2, l2, g2⟩ := updNb_total ts1 (n := n4) (old := t2)
    (new := ts.length + 1) (by rw [l1]; simp; omega)
  rw [u1]; simp only [Res.ok_bind]; rw [u2]; simp only [Res.ok_bind]
  refine ⟨ts2, rfl, ?_, ⟨a, ha, hRa⟩, ⟨b, hb, hRb⟩, ?_, ?_, ?_, ?_, ?_⟩
  · rw [l2, l1]; simp
  · rw [g2, g1, hget]
    rw [if_neg (fun h => n4t1 h.2.symm), if_neg (fun h => n1t1 h.2.symm), if_neg ne21.symm, if_pos rfl]
  · rw [g2, g1, hget]
    rw [if_neg (fun h => n4t2 h.2.symm), if_neg (fun h => n1t2 h.2.symm), if_pos rfl]
  · rw [g2, g1, hget]
    rw [if_neg (by omega), if_neg (by omega), if_neg (by omega), if_neg (by omega), if_neg (by omega),
      if_pos rfl]
  · rw [g2, g1, hget]
    rw [if_neg (by omega), if_neg (by omega), if_neg (by omega), if_neg (by omega), if_neg (by omega),
      if_neg (by omega), if_pos rfl]
  · intro i hi hi1 hi2
    rw [g2, g1, hget, if_neg hi2, if_neg hi1, if_pos hi]
    by_cases h4 : n4 ≠ NONE ∧ i = n4
    · simp only [if_pos h4]
      by_cases h1 : n1 ≠ NONE ∧ i = n1
      · simp only [if_pos h1, Option.map_map]; rfl
      · simp only [if_neg h1]
    · simp only [if_neg h4]
      by_cases h1 : n1 ≠ NONE ∧ i = n1
      · simp only [if_pos h1]
      · simp only [if_neg h1]
        cases ts[i]? <;> rfl

section
variable {t1 t2 p x y o1 o2 n1 n2 n3 n4 : Nat}

theorem Split4Spec.facts (hf : Split4Spec ts ts' t1 t2 p x y o1 o2 n1 n2 n3 n4) (hv : Valid H ts) :
    Ent ts t1 x y t2 ∧ Ent ts t1 y o1 n1 ∧ Ent ts t1 o1 x n2 ∧ Ent ts t2 y x t1 ∧ Ent ts t2 x o2 n3 ∧
    Ent ts t2 o2 y n4 ∧ t1 ≠ t2 ∧ t1 < ts.length ∧ t2 < ts.length ∧
    (n1 ≠ t1 ∧ n1 ≠ t2) ∧ (n2 ≠ t1 ∧ n2 ≠ t2) ∧ (n3 ≠ t1 ∧ n3 ≠ t2) ∧ (n4 ≠ t1 ∧ n4 ≠ t2) ∧
    (n1 ≠ NONE → n1 ≠ n2) ∧ (n3 ≠ NONE → n3 ≠ n4) ∧
    x ≠ y ∧ y ≠ o1 ∧ o1 ≠ x ∧ x ≠ o2 ∧ o2 ≠ y := by
  obtain ⟨a, ha, hRa⟩ := hf.g1
  obtain ⟨b, hb, hRb⟩ := hf.g2
  have hl1 := lt_of_getElem? ha
  have hl2 := lt_of_getElem? hb
  have pa := hv.pos _ _ ha
  have pb := hv.pos _ _ hb
  have hxy := pa.has_ne hRa.has1
  have hx2 := pb.has_ne hRb.has2
  have hy2 := pb.has_ne hRb.has3
  have hyo := pa.has_ne hRa.has2
  have hox := pa.has_ne hRa.has3
  have E1 : Ent ts t1 y o1 n1 := ⟨a, ha, hRa.has2⟩
  have E2 : Ent ts t1 o1 x n2 := ⟨a, ha, hRa.has3⟩
  have E3 : Ent ts t2 x o2 n3 := ⟨b, hb, hRb.has2⟩
  have E4 : Ent ts t2 o2 y n4 := ⟨b, hb, hRb.has3⟩
  have E0 : Ent ts t1 x y t2 := ⟨a, ha, hRa.has1⟩
  have E0' : Ent ts t2 y x t1 := ⟨b, hb, hRb.has1⟩
  have hN := hv.len
  refine ⟨E0, E1, E2, E0', E3, E4, (hv.ne_self E0).symm, hl1, hl2, ⟨hv.ne_self E1, ?_⟩, ⟨hv.ne_self E2, ?_⟩,
    ⟨?_, hv.ne_self E3⟩, ⟨?_, hv.ne_self E4⟩, ?_, ?_, hxy, hyo, hox, hx2, hy2⟩
  · rintro rfl; exact hxy (hv.nb_unique E0 E1 (by omega)).1
  · rintro rfl; exact hox.symm (hv.nb_unique E0 E2 (by omega)).1
  · rintro rfl; exact hxy (hv.nb_unique E0' E3 (by omega)).1.symm
  · rintro rfl; exact hy2 (hv.nb_unique E0' E4 (by omega)).1.symm
  · rintro h rfl; exact hyo (hv.nb_unique E1 E2 h).1
  · rintro h rfl; exact hx2 (hv.nb_unique E3 E4 h).1

theorem Split4Spec.ent_other (hf : Split4Spec ts ts' t1 t2 p x y o1 o2 n1 n2 n3 n4) (hv : Valid H ts)
    {i u v j : Nat} (hi : i < ts.length) (hi1 : i ≠ t1) (hi2 : i ≠ t2) :
    Ent ts' i u v j ↔ ∃ j0, Ent ts i u v j0 ∧
      j = if (n1 ≠ NONE ∧ i = n1) ∧ j0 = t1 then ts.length
          else if (n4 ≠ NONE ∧ i = n4) ∧ j0 = t2 then ts.length + 1 else j0 := by
  obtain ⟨_, _, _, _, _, _, ne, l1, l2, _⟩ := hf.facts hv
  have hN := hv.len
  have ho := hf.other i hi hi1 hi2
  obtain ⟨w, hw, _⟩ := getI_lt hi
  rw [hw] at ho
  constructor
  · rintro ⟨t', ht', hh⟩
    rw [ho] at ht'
    simp only [Option.map_some, Option.some.injEq] at ht'
    subst ht'
    obtain ⟨j0, h0, hj⟩ := (has_upd2 hv hw (by omega) (by omega) ne (by omega)).1 hh
    exact ⟨j0, ⟨w, hw, h0⟩, hj⟩
  · rintro ⟨j0, ⟨w', hw', h0⟩, hj⟩
    rw [hw] at hw'; simp at hw'; subst hw'
    exact ⟨_, ho, (has_upd2 hv hw (by omega) (by omega) ne (by omega)).2 ⟨j0, h0, hj⟩⟩

theorem Split4Spec.verts_other (hf : Split4Spec ts ts' t1 t2 p x y o1 o2 n1 n2 n3 n4) {i : Nat}
    (hi : i < ts.length) (hi1 : i ≠ t1) (hi2 : i ≠ t2) {t' : Tri} (ht' : ts'[i]? = some t') :
    ∃ u, ts[i]? = some u ∧ t'.v1 = u.v1 ∧ t'.v2 = u.v2 ∧ t'.v3 = u.v3 := by
  rw [hf.other i hi hi1 hi2] at ht'
  rw [Option.map_eq_some_iff] at ht'
  obtain ⟨t, ht, rfl⟩ := ht'
  refine ⟨t, ht, ?_⟩
  split <;> split <;> simp [Tri.updN_verts]

/-- Splitting the quad at a point in the interior of its diagonal keeps the mesh valid. -/
theorem Split4Spec.valid (hf : Split4Spec ts ts' t1 t2 p x y o1 o2 n1 n2 n3 n4) (hv : Valid H ts)
    (hlen : ts.length + 2 ≤ NONE)
    (p1 : 0 < HP.o (H p) (H o1) (H x)) (p2 : 0 < HP.o (H p) (H x) (H o2))
    (p3 : 0 < HP.o (H p) (H y) (H o1)) (p4 : 0 < HP.o (H p) (H o2) (H y)) : Valid H ts' := by
  obtain ⟨e0, e1, e2, e0', e3, e4, ne, l1, l2, ⟨a1, a1'⟩, ⟨a2, a2'⟩, ⟨a3, a3'⟩, ⟨a4, a4'⟩, c12, c34, _⟩ :=
    hf.facts hv
  obtain ⟨ta, hta, hRa⟩ := hf.g1
  obtain ⟨tb, htb, hRb⟩ := hf.g2
  have G1 : ∀ {u v j}, Ent ts t1 u v j → _ := fun {u v j} h => hRa.has_iff.1 (by
    obtain ⟨t', ht', hh⟩ := h
    rw [hta] at ht'; simp at ht'; subst ht'; exact hh : Has ta u v j)
  have G2 : ∀ {u v j}, Ent ts t2 u v j → _ := fun {u v j} h => hRb.has_iff.1 (by
    obtain ⟨t', ht', hh⟩ := h
    rw [htb] at ht'; simp at ht'; subst ht'; exact hh : Has tb u v j)
  have E1 : ∀ {u v j}, Ent ts' t1 u v j ↔ _ := fun {u v j} => ent_of_get hf.h1
  have E2 : ∀ {u v j}, Ent ts' t2 u v j ↔ _ := fun {u v j} => ent_of_get hf.h2
  have E3 : ∀ {u v j}, Ent ts' ts.length u v j ↔ _ := fun {u v j} => ent_of_get hf.h3
  have E4 : ∀ {u v j}, Ent ts' (ts.length + 1) u v j ↔ _ := fun {u v j} => ent_of_get hf.h4
  simp only at E1 E2 E3 E4
  refine ⟨?_, ?_, by rw [hf.len]; exact hlen⟩
  · intro i u hu
    have hil := lt_of_getElem? hu
    rw [hf.len] at hil
    by_cases hi1 : i = t1
    · subst hi1
      rw [hf.h1] at hu; simp at hu; subst hu; exact p1
    by_cases hi2 : i = t2
    · subst hi2
      rw [hf.h2] at hu; simp at hu; subst hu; exact p2
    by_cases hi : i < ts.length
    · obtain ⟨t0, ht0, v1, v2, v3⟩ := hf.verts_other hi hi1 hi2 hu
      have := hv.pos _ _ ht0
      unfold Pos at this ⊢
      rw [v1, v2, v3]; exact this
    by_cases hi3 : i = ts.length
    · subst hi3
      rw [hf.h3] at hu; simp at hu; subst hu; exact p3
    · have hi4 : i = ts.length + 1 := by omega
      subst hi4
      rw [hf.h4] at hu; simp at hu; subst hu; exact p4
  · refine adj_of_local hv (fun i => i = t1 ∨ i = t2 ∨ i = ts.length ∨ i = ts.length + 1) ?_ ?_ ?_
    · intro i u v j hi h
      have hil := h.lt
      rw [hf.len] at hil
      have hi1 : i ≠ t1 := fun h => hi (.inl h)
      have hi2 : i ≠ t2 := fun h => hi (.inr (.inl h))
      have hi3 : i < ts.length := by
        by_contra hc; apply hi; omega
      obtain ⟨j0, h0, hj⟩ := (hf.ent_other hv hi3 hi1 hi2).1 h
      by_cases hj1 : j0 = t1
      · right
        subst hj1
        have hr := hv.ent_pos h0 (by omega)
        rcases G1 hr with ⟨_, _, r⟩ | ⟨rfl, rfl, r⟩ | ⟨rfl, rfl, r⟩
        · exact absurd r.symm hi2
        · rw [if_pos ⟨⟨by omega, r.symm⟩, rfl⟩] at hj
          subst hj
          exact ⟨by omega, E3.2 (by simp [r])⟩
        · rw [if_neg (fun h => c12 h.1.1 (h.1.2.symm.trans r.symm)), if_neg (fun h => ne h.2)] at hj
          subst hj
          exact ⟨by omega, E1.2 (by simp [r])⟩
      by_cases hj2 : j0 = t2
      · right
        subst hj2
        have hr := hv.ent_pos h0 (by omega)
        rcases G2 hr with ⟨_, _, r⟩ | ⟨rfl, rfl, r⟩ | ⟨rfl, rfl, r⟩
        · exact absurd r.symm hi1
        · rw [if_neg (fun h => hj1 h.2), if_neg (fun h => c34 (by omega) (r.trans h.1.2))] at hj
          subst hj
          exact ⟨by omega, E2.2 (by simp [r])⟩
        · rw [if_neg (fun h => hj1 h.2), if_pos ⟨⟨by omega, r.symm⟩, rfl⟩] at hj
          subst hj
          exact ⟨by omega, E4.2 (by simp [r])⟩
      · left
        rw [if_neg (fun h => hj1 h.2), if_neg (fun h => hj2 h.2)] at hj
        subst hj
        refine ⟨?_, h0⟩
        rcases hv.nb_range h0 with r | r
        · have := hv.len; omega
        · omega
    · intro i u v j hi hj h
      have hil := h.lt
      rw [hf.ent_other hv hil (fun h => hi (.inl h)) (fun h => hi (.inr (.inl h)))]
      refine ⟨j, h, ?_⟩
      rw [if_neg (fun h => hj (.inl h.2)), if_neg (fun h => hj (.inr (.inl h.2)))]
    · have old : ∀ {i u v j0}, (i = t1 ∨ i = t2) → Ent ts i u v j0 → j0 ≠ t1 → j0 ≠ t2 → ∀ j',
          (j0 ≠ NONE → (if (n1 ≠ NONE ∧ j0 = n1) ∧ i = t1 then ts.length
            else if (n4 ≠ NONE ∧ j0 = n4) ∧ i = t2 then ts.length + 1 else i) = j') →
          (j0 = NONE ∧ ¬ u < INF0 ∧ ¬ v < INF0) ∨ (j0 ≠ NONE ∧ Ent ts' j0 v u j') := by
        intro i u v j0 hi h hj1 hj2 j' hj'
        rcases hv.adj _ _ _ _ h with r | ⟨r1, r2⟩
        · exact .inl r
        · exact .inr ⟨r1, (hf.ent_other hv r2.lt hj1 hj2).2 ⟨_, r2, (hj' r1).symm⟩⟩
      intro i u v j hi h
      rcases hi with rfl | rfl | rfl | rfl
      · rcases E1.1 h with ⟨rfl, rfl, rfl⟩ | ⟨rfl, rfl, rfl⟩ | ⟨rfl, rfl, rfl⟩
        · exact .inr ⟨by omega, E3.2 (by simp)⟩
        · exact old (.inl rfl) e2 a2 a2' i (fun h => by
            rw [if_neg (fun h => c12 h.1.1 h.1.2.symm), if_neg (fun h => ne h.2)])
        · exact .inr ⟨by omega, E2.2 (by simp)⟩
      · rcases E2.1 h with ⟨rfl, rfl, rfl⟩ | ⟨rfl, rfl, rfl⟩ | ⟨rfl, rfl, rfl⟩
        · exact .inr ⟨by omega, E1.2 (by simp)⟩
        · exact old (.inr rfl) e3 a3 a3' i (fun h => by
            rw [if_neg (fun h => ne h.2.symm), if_neg (fun h' => c34 h h'.1.2)])
        · exact .inr ⟨by omega, E4.2 (by simp)⟩
      · rcases E3.1 h with ⟨rfl, rfl, rfl⟩ | ⟨rfl, rfl, rfl⟩ | ⟨rfl, rfl, rfl⟩
        · exact .inr ⟨by omega, E4.2 (by simp)⟩
        · exact old (.inl rfl) e1 a1 a1' _ (fun h => by rw [if_pos ⟨⟨h, rfl⟩, rfl⟩])
        · exact .inr ⟨by omega, E1.2 (by simp)⟩
      · rcases E4.1 h with ⟨rfl, rfl, rfl⟩ | ⟨rfl, rfl, rfl⟩ | ⟨rfl, rfl, rfl⟩
        · exact .inr ⟨by omega, E2.2 (by simp)⟩
        · exact old (.inr rfl) e4 a4 a4' _ (fun h => by
            rw [if_neg (fun h => ne h.2.symm), if_pos ⟨⟨h, rfl⟩, rfl⟩])
        · exact .inr ⟨by omega, E3.2 (by simp)⟩

end

end CDT

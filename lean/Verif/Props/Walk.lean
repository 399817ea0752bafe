import Verif.Props.Run

/-! # C41: the only reason for a failure of the unconstrained triangulation is a search that walks in a circle -/

set_option linter.unusedSectionVars false
set_option linter.unusedSimpArgs false
set_option linter.unusedVariables false

namespace CDT
open Plane

variable {K : Type} [Field K] [LinearOrder K] [IsStrictOrderedRing K] [ExactParams K] [IdCfg]

namespace Spec

/-- Triangle `j` is behind an edge of triangle `i`, and `p` lies strictly on the other side of this edge. -/
def WalkStep (vs : List (Vtx K)) (ts : List Tri) (p : Vtx K) (i j : Nat) : Prop :=
  ∃ (t : Tri) (a b : Nat), ts[i]? = some t ∧ (a, b, j) ∈ edges t ∧
    ∃ R, ∀ r, R ≤ r → Clockwise (farPos vs r b) (farPos vs r a) p

/-- A walk towards `p` through existing triangles that comes back to a triangle it has already visited. -/
def CircularWalk (vs : List (Vtx K)) (ts : List Tri) (p : Vtx K) (start : Nat) : Prop :=
  ∃ l : List Nat, l.head? = some start ∧ l.IsChain (WalkStep vs ts p) ∧ (∀ i ∈ l, i < ts.length) ∧ ¬ l.Nodup

end Spec

variable {vs : List (Vtx K)} {ts : List Tri}

/-- Behind an edge with the point on its other side there is a triangle. -/
theorem behind_lt {p : Vtx K} (hv : Valid (hp vs) ts) {cur : Nat} {t : Tri} (ht : ts[cur]? = some t) {k : Fin 3}
    (hneg : sideO (hp vs) t (HP.ofVtx p) k < 0) : t.n k < ts.length := by
  have hpos := hv.pos _ _ ht
  have E : Ent ts cur (t.v k) (t.v (k + 1)) (t.n k) := ⟨t, ht, has_k t k⟩
  refine (hv.nb_range E).resolve_left fun hcn' => ?_
  rcases hv.adj _ _ _ _ E with ⟨_, i1, i2⟩ | h
  · unfold sideO at hneg
    have hfin := hpos.exists_fin
    have hf : t.v (k + 2) < INF0 := by
      fin_cases k
      · exact (hfin.resolve_left i1).resolve_left i2
      · rcases hfin with h | h | h
        · exact h
        · exact absurd h i1
        · exact absurd h i2
      · rcases hfin with h | h | h
        · exact absurd h i2
        · exact h
        · exact absurd h i1
    rw [HP.o_inf2 (hp_w_inf vs i1) (hp_w_inf vs i2) (p := HP.ofVtx p) (q := hp vs (t.v (k + 2))) rfl
      (hp_w_fin vs hf)] at hneg
    unfold Pos at hpos
    fin_cases k
    · exact absurd hneg (not_lt.2 hpos.le)
    · rw [← HP.o_cyc] at hpos; exact absurd hneg (not_lt.2 hpos.le)
    · rw [← HP.o_cyc'] at hpos; exact absurd hneg (not_lt.2 hpos.le)
  · exact h.1 hcn'

theorem findLoop_path {p : Vtx K} (hn : vs.length ≤ INF0) (hv : Valid (hp vs) ts)
    (hok : VertsIn (VOk vs.length) ts) (n : Nat) : ∀ prev cur, cur < ts.length →
      findLoop vs p ts n prev cur = .ok .notFound →
      ∃ l : List Nat, l.length = n + 1 ∧ l.head? = some cur ∧ l.IsChain (Spec.WalkStep vs ts p) ∧ ∀ i ∈ l, i < ts.length := by
  induction n with
  | zero => intro prev cur hc _; exact ⟨[cur], rfl, rfl, .singleton _, by simpa using hc⟩
  | succ n ih =>
    intro prev cur hc hf
    have hcn : cur ≠ NONE := by have := hv.len; omega
    obtain ⟨t, ht, _⟩ := getI_lt hc
    obtain ⟨w, h1, h2⟩ := findStep_total (p := p) (prev := prev) hn hv hok ht
    unfold findLoop at hf
    rw [if_neg hcn, h1] at hf
    simp only [Res.ok_bind] at hf
    cases w with
    | found pl =>
      simp at hf
      subst hf
      exact h2.elim
    | go p' c' =>
      obtain ⟨rfl, k, rfl, hk', hneg⟩ := h2
      obtain ⟨l, l1, l2, l3, l4⟩ := ih _ _ (behind_lt hv ht hneg) hf
      refine ⟨p' :: l, by simp [l1], rfl, ?_, ?_⟩
      · cases l with
        | nil => simp at l1
        | cons x l =>
          simp at l2; subst l2
          refine .cons_cons ⟨t, t.v k, t.v (k + 1), ht, ?_, ?_⟩ l3
          · fin_cases k <;> simp [Spec.edges, Tri.v, Tri.n]
          · have h0 : 0 < HP.o (hp vs (t.v (k + 1))) (hp vs (t.v k)) (HP.ofVtx p) := by
              rw [HP.o_swap]; unfold sideO at hneg; linarith
            obtain ⟨R, _, hR⟩ := far_o (hp_w vs _) (hp_w vs _) (.inr rfl) h0
            exact ⟨R, fun r hr => by simpa [far_hp, far_ofVtx] using hR r hr⟩
      · intro i hi
        rcases List.mem_cons.1 hi with rfl | hi
        · exact hc
        · exact l4 i hi

/-- **C41**, one search: on a valid mesh the search for a vertex only fails if the walk visits a triangle twice. -/
theorem C41_search_partial (vs : List (Vtx K)) (ts : List Tri) (p : Vtx K) (start : Nat)
    (hn : vs.length ≤ INF0) (hv : Valid (hp vs) ts) (hok : VertsIn (VOk vs.length) ts) (hs : start < ts.length)
    (hf : findPlacement vs p start ts = .ok .notFound) : Spec.CircularWalk vs ts p start := by
  obtain ⟨l, l1, l2, l3, l4⟩ := findLoop_path hn hv hok _ _ _ hs hf
  refine ⟨l, l2, l3, l4, fun hnd => ?_⟩
  have : l.Subperm (List.range ts.length) := hnd.subperm fun i hi => by simpa using l4 i hi
  have := this.length_le
  simp at this
  omega

theorem insertAll_err {F : Type} [FloatOps F] {vs : List (Vtx F)} {fuel : Nat} {e : Err} (rest : List Nat) (s : DT)
    (h : insertAll vs fuel rest s = .err e) :
    ∃ (k v : Nat) (s' : DT), rest[k]? = some v ∧ insertAll vs fuel (rest.take k) s = .ok s' ∧ insertVertex vs fuel s' v = .err e := by
  induction rest generalizing s with
  | nil => simp [insertAll] at h
  | cons v rest ih =>
    simp only [insertAll] at h
    cases hi : insertVertex vs fuel s v with
    | ok s1 =>
      rw [hi] at h
      simp only [Res.ok_bind] at h
      obtain ⟨k, w, s', h1, h2, h3⟩ := ih _ h
      exact ⟨k + 1, w, s', by simpa using h1, by simp [insertAll, hi, h2], h3⟩
    | err e' => rw [hi] at h; exact ⟨0, v, s, rfl, rfl, by simpa [hi] using h⟩
    | panic => rw [hi] at h; simp at h
    | diverge => rw [hi] at h; simp at h

/-- **C41**: the run succeeds unless, after some insertions, the search for the next vertex `v` walks in a circle. (The
full claim, that this does not happen, is false: `C41_succeeds_refuted`.) -/
theorem C41_succeeds_partial (fuel : Nat) (bins : Nat → Nat) (vs : List (Vtx K)) (h : Good fuel bins vs) :
    (∃ out, triangulation2d fuel bins vs = .ok out) ∨
    triangulation2d fuel bins vs = .err .placementNotFound ∧
    ∃ (first : Nat) (rest : List Nat) (k v : Nat) (s : DT) (P : Vtx K),
      binSort (bins vs.length) (normalizeVerts vs) = .ok (first :: rest) ∧ rest[k]? = some v ∧
      insertAll (normalizeVerts vs) fuel (rest.take k) ⟨initialTriangles first, 3, none⟩ = .ok s ∧
      (normalizeVerts vs)[v]? = some P ∧ Spec.CircularWalk (normalizeVerts vs) s.ts P s.tid := by
  rcases C10_no_panic_partial fuel bins vs h with h1 | h1
  · exact .inl h1
  refine .inr ⟨h1, ?_⟩
  have hB := IdCfg.big
  have hl : (normalizeVerts vs).length = vs.length := by rw [normalizeVerts_eq]; simp
  have hni : vs.length ≤ INF0 := by have := h.ids; unfold NONE at *; unfold INF0; omega
  unfold triangulation2d at h1
  split at h1
  · simp at h1
  rename_i hlen3
  have h2 : wrapAndTriangulate fuel (bins vs.length) (normalizeVerts vs) none = .err .placementNotFound := by
    have h1' : (wrapAndTriangulate fuel (bins vs.length) (normalizeVerts vs) none >>= fun s => Res.ok (filterSeq s.ts)) =
      .err .placementNotFound := h1
    generalize wrapAndTriangulate fuel (bins vs.length) (normalizeVerts vs) none = r at h1'
    cases r <;> simp at h1' ⊢
    exact h1'
  obtain ⟨order, hb, hperm⟩ := C13_binSort_unit (bins vs.length) (normalizeVerts vs) h.bins
    (by rw [hl]; have := h.ids; unfold NONE at this; omega) (by
      obtain ⟨a, ha, b, hb, hab⟩ := h.distinct
      exact normalized_unit h.range ha hb hab)
  unfold wrapAndTriangulate at h2
  rw [hb] at h2
  simp only [Res.ok_bind] at h2
  cases order with
  | nil => simp at h2
  | cons first rest =>
    simp only at h2
    rw [lastId_ok (by simp [initialTriangles]) (by simp [initialTriangles]; unfold NONE; omega)] at h2
    simp only [Res.ok_bind] at h2
    obtain ⟨k, v, s, k1, k2, k3⟩ := insertAll_err _ _ h2
    have k2 : insertAll (normalizeVerts vs) fuel (rest.take k) ⟨initialTriangles first, 3, none⟩ = .ok s := k2
    obtain ⟨ins, hI, -⟩ := h.prefix_run hb (mergeInit_none _) k k2
    have hlt : v < (normalizeVerts vs).length := by
      simpa using hperm.subset (List.mem_cons_of_mem _ (List.mem_of_getElem? k1))
    have hnd : (first :: rest).Nodup := hperm.nodup_iff.2 List.nodup_range
    have hvd : v ∉ (rest.take k).reverse ++ [first] := by
      rw [List.nodup_cons] at hnd
      intro hc
      rcases List.mem_append.1 hc with hc | hc
      · rw [List.mem_reverse, List.mem_take_iff_getElem] at hc
        obtain ⟨j, hj, hjv⟩ := hc
        have e1 : rest[j]? = some v := by rw [← hjv]; exact List.getElem?_eq_getElem _
        have := (List.nodup_iff_injective_getElem.1 hnd.2)
        have hkl := lt_of_getElem? k1
        have e2 : rest[k] = v := by rw [List.getElem?_eq_getElem hkl] at k1; exact Option.some.inj k1
        have := @this ⟨j, by omega⟩ ⟨k, hkl⟩ (by simp [e2, hjv])
        simp at this
        omega
      · simp at hc; subst hc
        exact hnd.1 (List.mem_of_getElem? k1)
    have hlen := hI.len
    have hpl := hperm.length_eq
    simp at hpl
    have hkl := lt_of_getElem? k1
    simp at hlen
    have hins := insertVertex_total (fuel := fuel) hI h.sep (by rw [hl]; exact hni) hlt hvd
      (by have := h.fuel; omega) (by have := h.ids; omega)
    generalize hr : insertVertex (normalizeVerts vs) fuel s v = r at hins k3
    cases hins with
    | notFound hp' hf =>
      exact ⟨first, rest, k, v, s, _, hb, k1, k2, hp', C41_search_partial _ _ _ _ (by rw [hl]; exact hni) hI.valid hI.ok hI.tid hf⟩
    | merged h ht => simp at k3
    | inserted h hs hr => simp at k3

end CDT

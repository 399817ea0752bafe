import Verif.Geo.Far
import Verif.Props.Local
import Verif.Witness.Upstream

/-! # C03, C08, C09, C10, C32, C33, C35: the unconstrained run in exact arithmetic -/

set_option linter.unusedSectionVars false
set_option linter.unusedSimpArgs false
set_option linter.unusedVariables false

namespace CDT
open Plane

variable {K : Type} [Field K] [LinearOrder K] [IsStrictOrderedRing K] [ExactParams K] [IdCfg]

/-- Hypotheses of `Good` are met by every list of integer points of moderate extent. -/
theorem good_of_int {fuel : Nat} {bins : Nat → Nat} {vs : List (Vtx K)} (hi : IntCoords vs) (hr : InRange vs)
    (hd : ∃ a ∈ vs, ∃ b ∈ vs, a ≠ b) (hw : ExactParams.eps * (scaleFactor vs) ^ 2 ≤ 1)
    (hb : 1 ≤ bins vs.length) (hn : 2 * vs.length + 2 ≤ NONE) (hf : 6 * vs.length + 10 ≤ fuel) : Good fuel bins vs := by
  obtain ⟨a, ha, b, hb', hab⟩ := hd
  exact ⟨hr, ⟨a, ha, b, hb', hab⟩, hb, hn, sep_of_int hi hr ha hb' hab hw, hf⟩

/-! ## C10, C09 -/

/-- **C10**, exact arithmetic: the unconstrained triangulation of at least three vertices, not all equal,
returns `Ok` or the error of an unsuccessful search. It does not panic. -/
theorem C10_no_panic_partial (fuel : Nat) (bins : Nat → Nat) (vs : List (Vtx K)) (h : Good fuel bins vs) :
    (∃ out, triangulation2d fuel bins vs = .ok out) ∨
      triangulation2d fuel bins vs = .err .placementNotFound := by
  unfold triangulation2d
  split
  · exact .inl ⟨_, rfl⟩
  · rcases h.run (mergeInit_none _) with h1 | ⟨s, _, _, _, h1, _⟩
    · right; simp only [h1, Res.err_bind]
    · left; exact ⟨_, by simp only [h1, Res.ok_bind]; rfl⟩

/-- **C09**, exact arithmetic: `6 n + 10` iterations of each restoration loop are enough. -/
theorem C09_terminates_partial (fuel : Nat) (bins : Nat → Nat) (vs : List (Vtx K)) (h : Good fuel bins vs) :
    triangulation2d fuel bins vs ≠ .diverge := by
  rcases C10_no_panic_partial fuel bins vs h with ⟨_, h⟩ | h <;> rw [h] <;> simp

/-! ## C03 -/

/-- **C03** -/
theorem C03_clockwise (fuel : Nat) (bins : Nat → Nat) (vs : List (Vtx K)) (h : Good fuel bins vs)
    (out : List Out) (ho : triangulation2d fuel bins vs = .ok out) :
    ∀ a b c, (a, b, c) ∈ out → ∃ A B C, vs[a]? = some A ∧ vs[b]? = some B ∧ vs[c]? = some C ∧ Clockwise A B C := by
  intro a b c hmem
  unfold triangulation2d at ho
  split at ho
  · simp at ho; subst ho; simp at hmem
  · rcases h.run (mergeInit_none _) with h1 | ⟨s, done, ins, first, h1, hI, hperm, -⟩
    · simp only [h1] at ho; simp at ho
    · simp only [h1, Res.ok_bind, Res.ok.injEq] at ho
      subst ho
      obtain ⟨t, ht, hf, e⟩ := mem_filterSeq hmem
      simp only [Tri.verts, Prod.mk.injEq] at e
      obtain ⟨rfl, rfl, rfl⟩ := e
      obtain ⟨i, hi⟩ := List.mem_iff_getElem?.1 ht
      have hpos := hI.valid.pos _ _ hi
      simp only [Tri.isFinite, Bool.and_eq_true, isFin_iff] at hf
      have hok := hI.ok.get hi
      obtain ⟨A, _, gA, eA⟩ := getI_fin (hok 0) hf.1.1
      obtain ⟨B, _, gB, eB⟩ := getI_fin (hok 1) hf.1.2
      obtain ⟨C, _, gC, eC⟩ := getI_fin (hok 2) hf.2
      simp only [Tri.v_0, Tri.v_1, Tri.v_2] at gA gB gC eA eB eC
      unfold Pos at hpos
      rw [eA, eB, eC, o_area2] at hpos
      obtain ⟨A', gA', rfl⟩ := normalizeVerts_get gA
      obtain ⟨B', gB', rfl⟩ := normalizeVerts_get gB
      obtain ⟨C', gC', rfl⟩ := normalizeVerts_get gC
      refine ⟨A', B', C', gA', gB', gC', ?_⟩
      have hs := h.scale
      rw [area2_normalized _ _ _ _ _ _ hs.ne'] at hpos
      have hs2 : 0 < scaleFactor vs ^ 2 := by positivity
      unfold Clockwise
      by_contra hc
      have := div_nonneg (not_lt.1 hc) hs2.le
      linarith

/-! ## C08 -/

theorem tooClose_eq {vs : List (Vtx K)} (hsep : Sep vs) {a b : Vtx K} (ha : a ∈ vs) (hb : b ∈ vs)
    (h : tooClose a b = true) : a = b := by
  rw [tooClose_iff] at h
  have h1 := hsep.x a ha b hb h.1
  have h2 := hsep.y a ha b hb h.2
  cases a; cases b; simp_all

/-- **C08**: after a successful run every vertex occurs in the mesh, or it is at the position of another
vertex that occurs in the mesh, does not occur itself, and the merge table (if there is one) says so. -/
theorem C08_merged_or_inserted_partial (fuel : Nat) (bins : Nat → Nat) (vs : List (Vtx K)) (h : Good fuel bins vs)
    (m : Option (List Nat)) (hm : m = none ∨ m = some ((List.range vs.length).map toId)) (s : DT)
    (hs : wrapAndTriangulate fuel (bins vs.length) (normalizeVerts vs) m = .ok s) :
    ∀ v, v < vs.length →
      ((∃ t ∈ s.ts, v = t.v1 ∨ v = t.v2 ∨ v = t.v3) ∧ ∀ l, s.merge = some l → l[v]? = some v) ∨
      ((¬ ∃ t ∈ s.ts, v = t.v1 ∨ v = t.v2 ∨ v = t.v3) ∧ ∃ x, x < vs.length ∧ x ≠ v ∧ vs[x]? = vs[v]? ∧
        (∃ t ∈ s.ts, x = t.v1 ∨ x = t.v2 ∨ x = t.v3) ∧ ∀ l, s.merge = some l → l[v]? = some x) := by
  have hmi : MergeInit vs.length m := by
    rcases hm with rfl | rfl
    · exact mergeInit_none _
    · exact mergeInit_range _ (by have := h.ids; omega)
  have hl : (normalizeVerts vs).length = vs.length := by rw [normalizeVerts_eq]; simp
  have hni : vs.length ≤ INF0 := by have := h.ids; have := IdCfg.big; unfold NONE at *; unfold INF0; omega
  rcases h.run hmi with h1 | ⟨s', done, ins, first, h1, hI, hperm, -⟩
  · rw [h1] at hs; simp at hs
  rw [h1] at hs; simp at hs; subst hs
  have hocc : ∀ {v}, v ∈ ins → ∃ t ∈ s'.ts, v = t.v1 ∨ v = t.v2 ∨ v = t.v3 := by
    intro v hv
    obtain ⟨i, t, ht, h⟩ := hI.occ v hv
    rw [hasVert_iff] at h
    exact ⟨t, List.mem_of_getElem? ht, by rcases h with h | h | h <;> simp [h]⟩
  intro v hv
  have hvd : v ∈ done := hperm.symm.subset (by simpa using hv)
  by_cases hvi : v ∈ ins
  · exact .inl ⟨hocc hvi, fun l hl' => (hI.kept l hl').2 v (by rw [hl]; exact hv) (.inr hvi)⟩
  · obtain ⟨x, hx, a, b, ga, gb, hc, hmv⟩ := hI.merged v hvd hvi
    have heq := tooClose_eq h.sep (List.mem_of_getElem? gb) (List.mem_of_getElem? ga) hc
    refine .inr ⟨?_, x, ?_, ?_, ?_, hocc hx, hmv⟩
    · rintro ⟨t, ht, hvt⟩
      obtain ⟨i, hi⟩ := List.mem_iff_getElem?.1 ht
      have := hI.verts.get hi
      have h0 := this 0; have h1 := this 1; have h2 := this 2
      simp only [Tri.v_0, Tri.v_1, Tri.v_2] at h0 h1 h2
      rcases hvt with rfl | rfl | rfl
      · rcases h0 with h | h
        · exact hvi h
        · omega
      · rcases h1 with h | h
        · exact hvi h
        · omega
      · rcases h2 with h | h
        · exact hvi h
        · omega
    · have := hI.dlt _ (hI.sub _ hx); rwa [hl] at this
    · rintro rfl; exact hvi hx
    · subst heq
      obtain ⟨A, gA, eA⟩ := normalizeVerts_get ga
      obtain ⟨B, gB, eB⟩ := normalizeVerts_get gb
      have hs := h.scale
      rw [eA] at eB
      simp only [Vtx.mk.injEq] at eB
      have e1 := (div_left_inj' hs.ne').1 eB.1
      have e2 := (div_left_inj' hs.ne').1 eB.2
      rw [gA, gB]
      cases A; cases B
      simp only [Option.some.injEq, Vtx.mk.injEq] at *
      constructor <;> linarith

/-! ## C32 -/

/-- **C32**: on any mesh of clockwise triangles with correct adjacency, from any start triangle, the search
does not panic; a triangle reported as containing the vertex contains it strictly; for a vertex reported on
an edge this is the edge of the triangle, it is not beyond any of the sides, and it is closer to the line than
`EPSILON` (in the unit of the side test). -/
theorem C32_placement (vs : List (Vtx K)) (ts : List Tri) (p : Vtx K) (start : Nat)
    (hn : vs.length ≤ INF0) (hv : Valid (hp vs) ts) (hok : VertsIn (VOk vs.length) ts) (hs : start < ts.length) :
    ∃ pl, findPlacement vs p start ts = .ok pl ∧
      (∀ i, pl = .inside i → ∃ t, ts[i]? = some t ∧ FarInTriangle vs t.v1 t.v2 t.v3 p) ∧
      (∀ i ei e, pl = .onEdge i ei e → ∃ t, ts[i]? = some t ∧ e = ⟨t.v ei, t.v (ei + 1)⟩ ∧
        (∀ k, 0 ≤ HP.o (hp vs (t.v k)) (hp vs (t.v (k + 1))) (HP.ofVtx p)) ∧
        |HP.o (hp vs e.src) (hp vs e.dst) (HP.ofVtx p)| < ExactParams.eps) := by
  obtain ⟨pl, h1, h2⟩ := findPlacement_total (p := p) hn hv hok hs
  refine ⟨pl, h1, ?_, ?_⟩
  · rintro i rfl
    obtain ⟨t, ht, h⟩ := h2
    exact ⟨t, ht, farInTriangle_of h⟩
  · rintro i ei e rfl
    obtain ⟨t, ht, he, h3, h4, h5⟩ := h2
    exact ⟨t, ht, he, h5, by rw [he]; exact h3⟩

/-! ## C33 -/

/-- The state after `k` further insertions of a run. -/
theorem Good.prefix_run {fuel : Nat} {bins : Nat → Nat} {vs : List (Vtx K)} (h : Good fuel bins vs)
    {first : Nat} {rest : List Nat} (hb : binSort (bins vs.length) (normalizeVerts vs) = .ok (first :: rest))
    {m : Option (List Nat)} (hm : MergeInit vs.length m) (k : Nat) {s : DT}
    (hs : insertAll (normalizeVerts vs) fuel (rest.take k) ⟨initialTriangles first, 3, m⟩ = .ok s) :
    ∃ ins, DInv (normalizeVerts vs) ((rest.take k).reverse ++ [first]) ins s ∧ first < vs.length ∧ first ∈ ins ∧
      Relation.ReflTransGen (MStep (hp (normalizeVerts vs))) (initialTriangles first) s.ts := by
  have hB := IdCfg.big
  have hl : (normalizeVerts vs).length = vs.length := by rw [normalizeVerts_eq]; simp
  have hni : vs.length ≤ INF0 := by have := h.ids; unfold NONE at *; unfold INF0; omega
  have hperm := binSort_perm (by rw [hl]; have := h.ids; unfold NONE at this; omega) hb
  have hnd : (first :: rest).Nodup := hperm.nodup_iff.2 List.nodup_range
  have hlt : ∀ v ∈ first :: rest, v < (normalizeVerts vs).length := fun v hv => by simpa using hperm.subset hv
  have hlen := hperm.length_eq
  simp at hlen
  rw [List.nodup_cons] at hnd
  have hsub : ∀ v ∈ rest.take k, v ∈ rest := fun v hv => List.mem_of_mem_take hv
  rcases insertAll_total (fuel := fuel) h.sep (by rw [hl]; exact h.ids) (by rw [hl]; exact h.fuel) (rest.take k) [first] [first] _
      (initial_dinv (hlt first (by simp)) (by rw [hl]; exact hni) m (by rw [hl]; exact hm)) (hnd.2.sublist (List.take_sublist _ _))
      (by intro v hv hc; simp at hc; subst hc; exact hnd.1 (hsub _ hv)) (fun v hv => hlt v (by simp [hsub v hv]))
      (by have : (rest.take k).length ≤ rest.length := by simp
          simp only [List.length_cons, List.length_nil]; omega) with h1 | ⟨s', ins', h1, h2, h3, h4⟩
  · rw [h1] at hs; simp at hs
  · rw [h1] at hs; simp at hs; subst hs
    exact ⟨ins', h2, by have := hlt first (by simp); rwa [hl] at this, h4 _ (by simp), h3⟩

/-- **C33**: after any number of insertions adjacency is symmetric, missing neighbors only occur behind edges
between artificial vertices, all ids are in range, and every triangle, including the unbounded ones, is
strictly clockwise. -/
theorem C33_adjacency_partial (fuel : Nat) (bins : Nat → Nat) (vs : List (Vtx K)) (h : Good fuel bins vs)
    (first : Nat) (rest : List Nat) (hb : binSort (bins vs.length) (normalizeVerts vs) = .ok (first :: rest))
    (k : Nat) (s : DT)
    (hs : insertAll (normalizeVerts vs) fuel (rest.take k) ⟨initialTriangles first, 3, none⟩ = .ok s) :
    Spec.Adjacency s.ts ∧ (∀ t ∈ s.ts, FarClockwise (normalizeVerts vs) t.v1 t.v2 t.v3) ∧
      (∀ t ∈ s.ts, ∀ v, v = t.v1 ∨ v = t.v2 ∨ v = t.v3 → v ∈ first :: rest.take k ∨ (INF0 ≤ v ∧ v ≤ INF3)) := by
  obtain ⟨ins, hI, -⟩ := h.prefix_run hb (mergeInit_none _) k hs
  refine ⟨adjacency_of hI.valid, ?_, ?_⟩
  · intro t ht
    obtain ⟨i, hi⟩ := List.mem_iff_getElem?.1 ht
    exact farClockwise_of (hI.valid.pos _ _ hi)
  · intro t ht v hv
    have := hI.verts t ht
    have : v ∈ ins ∨ (INF0 ≤ v ∧ v ≤ INF3) := by
      rcases hv with rfl | rfl | rfl
      · exact this 0
      · exact this 1
      · exact this 2
    refine this.imp (fun h => ?_) id
    have := hI.sub _ h
    simp at this ⊢
    tauto

/-- **C33**, every elementary change: each split and each swap of a diagonal, under its geometric
precondition, leads from a mesh with correct adjacency to one with correct adjacency. -/
theorem C33_steps_partial (vs : List (Vtx K)) (ts ts' : List Tri) (hv : Valid (hp vs) ts)
    (h : Relation.ReflTransGen (MStep (hp vs)) ts ts') :
    Spec.Adjacency ts' ∧ ∀ t ∈ ts', FarClockwise vs t.v1 t.v2 t.v3 := by
  have hv' := steps_valid h hv
  refine ⟨adjacency_of hv', fun t ht => ?_⟩
  obtain ⟨i, hi⟩ := List.mem_iff_getElem?.1 ht
  exact farClockwise_of (hv'.pos _ _ hi)

/-! ## C35 -/

/-- **C35**: after every insertion no edge opposite to the inserted vertex satisfies the swap test. For four
real vertices this means that the inserted vertex is not strictly inside the circumcircle of the triangle on
the other side of the edge. -/
theorem C35_settled_partial (fuel : Nat) (bins : Nat → Nat) (vs : List (Vtx K)) (h : Good fuel bins vs)
    (first : Nat) (rest : List Nat) (hb : binSort (bins vs.length) (normalizeVerts vs) = .ok (first :: rest))
    (k v : Nat) (hk : rest[k]? = some v) (s s' : DT)
    (hs : insertAll (normalizeVerts vs) fuel (rest.take k) ⟨initialTriangles first, 3, none⟩ = .ok s)
    (hi : insertVertex (normalizeVerts vs) fuel s v = .ok s') :
    ∀ (i j : Nat) (t u : Tri) (a b c : Nat), s'.ts[i]? = some t → s'.ts[j]? = some u →
      (v, a) ∈ (Spec.edges t).map (fun e => (e.1, e.2.1)) → (a, b, j) ∈ Spec.edges t →
      (b, a, i) ∈ Spec.edges u → (a, c) ∈ (Spec.edges u).map (fun e => (e.1, e.2.1)) →
      shouldSwap (normalizeVerts vs) ⟨a, b, c, v⟩ = .ok false ∧
        (a < INF0 → b < INF0 → c < INF0 → ∀ A B C P, vs[a]? = some A → vs[b]? = some B → vs[c]? = some C →
          vs[v]? = some P → ¬ InCircle A B C P) := by
  have hB := IdCfg.big
  have hl : (normalizeVerts vs).length = vs.length := by rw [normalizeVerts_eq]; simp
  have hni : vs.length ≤ INF0 := by have := h.ids; unfold NONE at *; unfold INF0; omega
  obtain ⟨ins, hI, -⟩ := h.prefix_run hb (mergeInit_none _) k hs
  have hperm := binSort_perm (by rw [hl]; have := h.ids; unfold NONE at this; omega) hb
  have hnd : (first :: rest).Nodup := hperm.nodup_iff.2 List.nodup_range
  have hlt : ∀ v ∈ first :: rest, v < (normalizeVerts vs).length := fun v hv => by simpa using hperm.subset hv
  have hlen := hperm.length_eq
  simp at hlen
  have hkl : k < rest.length := lt_of_getElem? hk
  have hvr : v ∈ rest := List.mem_of_getElem? hk
  have hvd : v ∉ (rest.take k).reverse ++ [first] := by
    simp only [List.mem_append, List.mem_reverse, List.mem_singleton]
    rw [List.nodup_cons] at hnd
    rintro (h' | h')
    · have hnd2 := hnd.2
      rw [← List.take_append_drop k rest, List.nodup_append] at hnd2
      refine hnd2.2.2 v h' v ?_ rfl
      rw [List.mem_iff_getElem?]
      exact ⟨0, by rw [List.getElem?_drop]; simpa using hk⟩
    · subst h'; exact hnd.1 hvr
  have hdl : ((rest.take k).reverse ++ [first]).length = k + 1 := by simp; omega
  have hIl := hI.len
  rw [hdl] at hIl
  have hids := h.ids
  have hfuel := h.fuel
  have htot := insertVertex_total (fuel := fuel) hI h.sep (by rw [hl]; exact hni) (hlt v (by simp [hvr])) hvd
    (by omega) (by omega)
  rw [hi] at htot
  intro i j t u a b c ht hu h1 h2 h3 h4
  have hvf : v < INF0 := by have := hlt v (by simp [hvr]); omega
  have noV : ∀ t ∈ s.ts, ∀ k, t.v k ≠ v := by
    intro t ht k e
    rcases hI.verts t ht k with h' | h'
    · rw [e] at h'; exact hvd (hI.sub _ h')
    · omega
  cases htot with
  | merged hI' hts =>
    exfalso
    rw [hts] at ht
    have := noV t (List.mem_of_getElem? ht)
    simp only [Spec.edges, List.map_cons, List.map_nil, List.mem_cons, Prod.mk.injEq, List.not_mem_nil, or_false] at h1
    rcases h1 with ⟨e, _⟩ | ⟨e, _⟩ | ⟨e, _⟩
    · exact this 0 e.symm
    · exact this 1 e.symm
    · exact this 2 e.symm
  | inserted hI' hst hR =>
    have hpt := hR.valid.pos _ _ ht
    have hpu := hR.valid.pos _ _ hu
    have hv1 : t.v1 = v := by
      apply hR.first i t ht
      rw [hasVert_iff]
      simp only [Spec.edges, List.map_cons, List.map_nil, List.mem_cons, Prod.mk.injEq, List.not_mem_nil, or_false] at h1
      rcases h1 with ⟨e, _⟩ | ⟨e, _⟩ | ⟨e, _⟩ <;> simp [e]
    obtain ⟨t1, t2, t3⟩ := hpt.ne
    obtain ⟨u1, u2, u3⟩ := hpu.ne
    have ha : a = t.v2 := by
      simp only [Spec.edges, List.map_cons, List.map_nil, List.mem_cons, Prod.mk.injEq, List.not_mem_nil, or_false] at h1
      rcases h1 with ⟨e, e'⟩ | ⟨e, e'⟩ | ⟨e, e'⟩
      · exact e'
      · rw [hv1] at t1; exact absurd e t1
      · rw [hv1] at t3; exact absurd e.symm t3
    have hb' : b = t.v3 ∧ j = t.n23 := by
      simp only [Spec.edges, List.mem_cons, Prod.mk.injEq, List.not_mem_nil, or_false] at h2
      rcases h2 with ⟨e, e', e2⟩ | ⟨e, e', e2⟩ | ⟨e, e', e2⟩
      · exact absurd (e.symm.trans ha) t1
      · exact ⟨e', e2⟩
      · exact absurd (ha.symm.trans e) t2
    have hRot : ∃ m1 m2 m3, Rot u b a c m1 m2 m3 := by
      simp only [Spec.edges, List.map_cons, List.map_nil, List.mem_cons, Prod.mk.injEq, List.not_mem_nil, or_false] at h3 h4
      rcases h3 with ⟨rfl, rfl, rfl⟩ | ⟨rfl, rfl, rfl⟩ | ⟨rfl, rfl, rfl⟩ <;>
        rcases h4 with ⟨e, rfl⟩ | ⟨e, rfl⟩ | ⟨e, rfl⟩ <;>
        first
        | exact absurd e u1
        | exact absurd e u2
        | exact absurd e u3
        | exact absurd e.symm u1
        | exact absurd e.symm u2
        | exact absurd e.symm u3
        | exact ⟨_, _, _, .inl rfl⟩
        | exact ⟨_, _, _, .inr (.inl rfl)⟩
        | exact ⟨_, _, _, .inr (.inr rfl)⟩
    obtain ⟨m1, m2, m3, hRot⟩ := hRot
    have hjn : j ≠ NONE := by have := lt_of_getElem? hu; have := hR.valid.len; omega
    have hset := (hR.settled i t ht hv1).resolve_left (by simp)
    have hsw : shouldSwap (normalizeVerts vs) ⟨a, b, c, v⟩ = .ok false := by
      refine hset a b t.n12 j t.n31 ?_ hjn u c m1 m2 m3 hu hRot
      rw [ht, ha, hb'.1, hb'.2, ← hv1]
    refine ⟨hsw, fun haf hbf hcf A B C P gA gB gC gP hcirc => ?_⟩
    have hs0 := h.scale
    have gN : ∀ {x : Nat} {X : Vtx K}, vs[x]? = some X → (normalizeVerts vs)[x]? =
        some ⟨(X.x - (bbox vs).1) / scaleFactor vs, (X.y - (bbox vs).2.1) / scaleFactor vs⟩ := by
      intro x X hx; rw [normalizeVerts_eq, List.getElem?_map, hx]; rfl
    unfold shouldSwap at hsw
    rw [if_neg (by rw [isInf_iff]; simpa using hcf), if_pos (by rw [Bool.and_eq_true, isFin_iff, isFin_iff]; exact ⟨haf, hbf⟩)] at hsw
    simp only [getI_of (gN gA), getI_of (gN gB), getI_of (gN gC), getI_of (gN gP), Res.ok_bind, Res.ok.injEq] at hsw
    have o1 := hRot.pos_iff.1 hpu
    have o2 : 0 < HP.o (hp (normalizeVerts vs) v) (hp (normalizeVerts vs) a) (hp (normalizeVerts vs) b) := by
      have := hpt; unfold Pos at this; rwa [hv1, ← ha, ← hb'.1] at this
    rw [hp_fin haf (gN gA), hp_fin hbf (gN gB), hp_fin hcf (gN gC), o_area2] at o1
    rw [hp_fin haf (gN gA), hp_fin hbf (gN gB), hp_fin hvf (gN gP), o_area2] at o2
    have hC := (C18_inCircumcircle _ _ _ _ (show Clockwise _ _ _ from neg_pos.1 o1)
      (show Clockwise _ _ _ from neg_pos.1 o2)).1
    obtain ⟨m, ⟨e1, e2⟩, e3⟩ := hcirc
    have : InCircle (⟨(A.x - (bbox vs).1) / scaleFactor vs, (A.y - (bbox vs).2.1) / scaleFactor vs⟩ : Vtx K)
        ⟨(B.x - (bbox vs).1) / scaleFactor vs, (B.y - (bbox vs).2.1) / scaleFactor vs⟩
        ⟨(C.x - (bbox vs).1) / scaleFactor vs, (C.y - (bbox vs).2.1) / scaleFactor vs⟩
        ⟨(P.x - (bbox vs).1) / scaleFactor vs, (P.y - (bbox vs).2.1) / scaleFactor vs⟩ := by
      have hs2 : 0 < scaleFactor vs ^ 2 := by positivity
      refine ⟨⟨(m.x - (bbox vs).1) / scaleFactor vs, (m.y - (bbox vs).2.1) / scaleFactor vs⟩, ⟨?_, ?_⟩, ?_⟩
      · rw [dist2_normalized _ _ _ _ _ hs0.ne', dist2_normalized _ _ _ _ _ hs0.ne', e1]
      · rw [dist2_normalized _ _ _ _ _ hs0.ne', dist2_normalized _ _ _ _ _ hs0.ne', e2]
      · rw [dist2_normalized _ _ _ _ _ hs0.ne', dist2_normalized _ _ _ _ _ hs0.ne']
        exact (div_lt_div_iff_of_pos_right hs2).2 e3
    rw [← hC, hsw] at this
    exact absurd this (by simp)

/-! ## The hypotheses are met -/

end CDT

namespace CDT
local instance : IdCfg := u32Cfg

/-- A concrete good input used as example below: a duplicate, collinear and cocircular points. -/
def samplePts : List (Vtx ℚ) := Witness.pts [(0,0),(0,10),(0,5),(5,0),(5,5),(5,10),(5,5),(2,7)]

theorem sample_good : Good 100 Witness.defaultBins samplePts := by
  refine good_of_int ?_ ?_ ⟨⟨0, 0⟩, by decide +kernel, ⟨0, 10⟩, by decide +kernel, by decide +kernel⟩
    (by decide +kernel) (by decide +kernel) (by decide +kernel) (by decide +kernel)
  · intro v hv
    simp only [samplePts, Witness.pts, List.mem_map] at hv
    obtain ⟨q, _, rfl⟩ := hv
    exact ⟨q.1, q.2, rfl, rfl⟩
  · unfold InRange
    decide +kernel

/-- The run on the sample succeeds. -/
example : Good 100 Witness.defaultBins samplePts ∧
    triangulation2d 100 Witness.defaultBins samplePts = .ok [(0,2,3),(2,6,3),(7,6,2),(1,5,7),(1,7,2),(5,6,7)] :=
  ⟨sample_good, by decide +kernel⟩

/-- The vertices 4 and 6 of the sample coincide; 4 is merged with 6. -/
example : (do
      let s ← wrapAndTriangulate 100 2 (normalizeVerts samplePts) (some ((List.range 8).map toId))
      Res.ok s.merge) = .ok (some [0, 1, 2, 3, 6, 5, 6, 7]) := by decide +kernel

end CDT

import Verif.Geo.Tile
import Verif.Props.Run
import Verif.Props.Counts

/-! # C04, C05, C11 (exact bound), C34: the mesh tiles the plane -/

set_option linter.unusedSectionVars false
set_option linter.unusedSimpArgs false
set_option linter.unusedVariables false

namespace CDT
open Plane

variable {K : Type} [Field K] [LinearOrder K] [IsStrictOrderedRing K] [ExactParams K] [IdCfg]

theorem Good.ids_inf {fuel : Nat} {bins : Nat → Nat} {vs : List (Vtx K)} (h : Good fuel bins vs) :
    (normalizeVerts vs).length ≤ INF0 := by
  have hl : (normalizeVerts vs).length = vs.length := by rw [normalizeVerts_eq]; simp
  have := h.ids; have := IdCfg.big; unfold NONE at *; unfold INF0; omega

/-! ## C34 -/

/-- `q` is in general position with respect to the vertices with ids in `ids`: on no line through two
different vertices and on no axis-parallel line through a vertex. -/
def Generic (vs : List (Vtx K)) (ids : List Nat) (q : Vtx K) : Prop :=
  (∀ a ∈ ids, ∀ A, vs[a]? = some A → q.x ≠ A.x ∧ q.y ≠ A.y) ∧
  (∀ a ∈ ids, ∀ b ∈ ids, ∀ A B, vs[a]? = some A → vs[b]? = some B → A ≠ B → area2 A B q ≠ 0)

theorem genV_of_generic {vs : List (Vtx K)} {ids : List Nat} {ts : List Tri} {q : Vtx K} (h : Generic vs ids q)
    (hn : vs.length ≤ INF0) (hlt : ∀ v ∈ ids, v < vs.length)
    (hv : VertsIn (fun v => v ∈ ids ∨ (INF0 ≤ v ∧ v ≤ INF3)) ts) : GenV vs ts (HP.ofVtx q) := by
  have occ : ∀ {v}, Occ ts v → v ∈ ids ∨ (INF0 ≤ v ∧ v ≤ INF3) := by
    rintro v ⟨i, t, ht, hh⟩
    rw [hasVert_iff] at hh
    have := hv.get ht
    rcases hh with rfl | rfl | rfl
    · exact this 0
    · exact this 1
    · exact this 2
  have fin : ∀ {v}, v ∈ ids ∨ (INF0 ≤ v ∧ v ≤ INF3) → v < INF0 → v ∈ ids ∧ ∃ A, vs[v]? = some A ∧ hp vs v = HP.ofVtx A := by
    intro v hv hl
    have hm : v ∈ ids := hv.resolve_right (by omega)
    obtain ⟨A, hA, _⟩ := getI_lt (hlt v hm)
    exact ⟨hm, A, hA, hp_fin hl hA⟩
  have dir : ∀ {v}, v ∈ ids ∨ (INF0 ≤ v ∧ v ≤ INF3) → ¬ v < INF0 → ∃ k, hp vs v = HP.dir k := by
    intro v hv hl
    have hr := hv.resolve_left (fun hm => by have := hlt v hm; omega)
    obtain ⟨k, hk⟩ := infLocal_ok hr.1 hr.2
    exact ⟨k, (infLocal_hp vs hk).1⟩
  have semi : ∀ (A : Vtx K) (k : Fin 4), q.x ≠ A.x → q.y ≠ A.y → HP.o (HP.ofVtx A) (HP.dir k) (HP.ofVtx q) ≠ 0 := by
    intro A k hx hy h0
    fin_cases k <;> simp [HP.o, HP.ofVtx, HP.dir] at h0
    · exact hy (by linarith)
    · exact hx (by linarith)
    · exact hy (by linarith)
    · exact hx (by linarith)
  intro a b ha hb hf hne
  have ha' := occ ha
  have hb' := occ hb
  by_cases h1 : a < INF0
  · obtain ⟨ma, A, gA, eA⟩ := fin ha' h1
    by_cases h2 : b < INF0
    · obtain ⟨mb, B, gB, eB⟩ := fin hb' h2
      rw [eA, eB] at hne ⊢
      rw [o_area2]
      exact neg_ne_zero.2 (h.2 a ma b mb A B gA gB fun e => hne (by rw [e]))
    · obtain ⟨k, eB⟩ := dir hb' h2
      rw [eA, eB]
      exact semi A k (h.1 a ma A gA).1 (h.1 a ma A gA).2
  · obtain ⟨mb, B, gB, eB⟩ := fin hb' (hf.resolve_left h1)
    obtain ⟨k, eA⟩ := dir ha' h1
    rw [eA, eB, HP.o_swap]
    exact neg_ne_zero.2 (semi B k (h.1 b mb B gB).1 (h.1 b mb B gB).2)

theorem far_iff_inAt {vs : List (Vtx K)} {ts : List Tri} {q : Vtx K} (hg : Gen (hp vs) ts (HP.ofVtx q)) (i : Nat) :
    (∃ t, ts[i]? = some t ∧ FarInTriangle vs t.v1 t.v2 t.v3 q) ↔ InAt (hp vs) ts (HP.ofVtx q) i := by
  constructor
  · rintro ⟨t, ht, h⟩
    have := sideO_of_far h (fun k => hg i _ _ _ ⟨t, ht, has_k t k⟩)
    exact ⟨t, ht, this 0, this 1, this 2⟩
  · rintro ⟨t, ht, h1, h2, h3⟩
    refine ⟨t, ht, farInTriangle_of fun k => ?_⟩
    fin_cases k
    · exact h1
    · exact h2
    · exact h3

/-- **C34**: after any number of insertions every point in general position lies in exactly one triangle of
the mesh, bounded or unbounded. -/
theorem C34_tiling_partial (fuel : Nat) (bins : Nat → Nat) (vs : List (Vtx K)) (h : Good fuel bins vs)
    (first : Nat) (rest : List Nat) (hb : binSort (bins vs.length) (normalizeVerts vs) = .ok (first :: rest))
    (k : Nat) (s : DT)
    (hs : insertAll (normalizeVerts vs) fuel (rest.take k) ⟨initialTriangles first, 3, none⟩ = .ok s)
    (q : Vtx K) (hq : Generic (normalizeVerts vs) (first :: rest.take k) q) :
    ∃! i : Nat, ∃ t : Tri, s.ts[i]? = some t ∧ FarInTriangle (normalizeVerts vs) t.v1 t.v2 t.v3 q := by
  have hni := h.ids_inf
  obtain ⟨ins, hI, hfl, -, hst⟩ := h.prefix_run hb (mergeInit_none _) k hs
  have hl : (normalizeVerts vs).length = vs.length := by rw [normalizeVerts_eq]; simp
  have hgv : GenV (normalizeVerts vs) s.ts (HP.ofVtx q) := by
    refine genV_of_generic hq hni (fun v hv => hI.dlt v ?_) fun t ht j => ?_
    · simp at hv ⊢; tauto
    · refine (hI.verts t ht j).imp (fun h => ?_) id
      have := hI.sub _ h
      simp at this ⊢
      tauto
  have hT := tiled_steps hst (initial_valid (by rw [hl]; exact hfl) hni) (tiled_initial (by rw [hl]; exact hfl) hni)
  have hg := hgv.gen hI.valid rfl
  obtain ⟨i, h1, h2⟩ := hT _ rfl hgv
  exact ⟨i, (far_iff_inAt hg i).2 h1, fun j hj => h2 j ((far_iff_inAt hg j).1 hj)⟩

/-! ## C04, C05 -/

theorem filterSeq_eq_map (ts : List Tri) : filterSeq ts = (ts.filter (·.isFinite)).map (·.verts) := by
  induction ts with
  | nil => rfl
  | cons t ts ih =>
    unfold filterSeq
    split <;> rename_i h <;> simp [h, ih]

/-- A symmetric relation that holds between different mesh triangles holds between different output triangles. -/
theorem filterSeq_pairs {ts : List Tri} {R : Out → Out → Prop} (hsym : ∀ a b, R a b → R b a)
    (h : ∀ (i j : Nat) (t u : Tri), ts[i]? = some t → ts[j]? = some u → i ≠ j → t.isFinite = true → u.isFinite = true →
      R t.verts u.verts) :
    ∀ (i j : Nat) (a b : Out), (filterSeq ts)[i]? = some a → (filterSeq ts)[j]? = some b → i ≠ j → R a b := by
  have hp : ts.Pairwise fun t u => t.isFinite = true → u.isFinite = true → R t.verts u.verts := by
    rw [List.pairwise_iff_getElem]
    intro i j hi hj hij
    exact h i j _ _ (List.getElem?_eq_getElem hi) (List.getElem?_eq_getElem hj) hij.ne
  have hq : (filterSeq ts).Pairwise R := by
    rw [filterSeq_eq_map, List.pairwise_map, List.pairwise_filter]
    exact hp.imp fun h h1 h2 => h h1 h2
  rw [List.pairwise_iff_getElem] at hq
  intro i j a b ha hb hij
  obtain ⟨hi, rfl⟩ := List.getElem?_eq_some_iff.1 ha
  obtain ⟨hj, rfl⟩ := List.getElem?_eq_some_iff.1 hb
  rcases Nat.lt_or_gt_of_ne hij with hlt | hlt
  · exact hq _ _ _ _ hlt
  · exact hsym _ _ (hq _ _ _ _ hlt)

/-- The mesh behind a successful run. -/
theorem Good.mesh {fuel : Nat} {bins : Nat → Nat} {vs : List (Vtx K)} (h : Good fuel bins vs)
    {out : List Out} (ho : triangulation2d fuel bins vs = .ok out) (hne : out ≠ []) :
    ∃ s done ins first, DInv (normalizeVerts vs) done ins s ∧ done.Perm (List.range vs.length) ∧
      first < (normalizeVerts vs).length ∧
      Relation.ReflTransGen (MStep (hp (normalizeVerts vs))) (initialTriangles first) s.ts ∧ out = filterSeq s.ts := by
  have hl : (normalizeVerts vs).length = vs.length := by rw [normalizeVerts_eq]; simp
  unfold triangulation2d at ho
  split at ho
  · simp at ho; exact absurd ho hne
  · rcases h.run (mergeInit_none _) with h1 | ⟨s, done, ins, first, h1, hI, hperm, hf, -, hst⟩
    · simp only [h1] at ho; simp at ho
    · simp only [h1, Res.ok_bind, Res.ok.injEq] at ho
      exact ⟨s, done, ins, first, hI, hperm, by rw [hl]; exact hf, hst, ho.symm⟩

theorem clockwise_normalized {vs : List (Vtx K)} (hs : 0 < scaleFactor vs) {A B C : Vtx K} (h : Clockwise A B C) :
    0 < HP.o (HP.ofVtx ⟨(A.x - (bbox vs).1) / scaleFactor vs, (A.y - (bbox vs).2.1) / scaleFactor vs⟩)
      (HP.ofVtx ⟨(B.x - (bbox vs).1) / scaleFactor vs, (B.y - (bbox vs).2.1) / scaleFactor vs⟩)
      (HP.ofVtx ⟨(C.x - (bbox vs).1) / scaleFactor vs, (C.y - (bbox vs).2.1) / scaleFactor vs⟩) := by
  rw [o_area2, area2_normalized _ _ _ _ _ _ hs.ne']
  have hs2 : 0 < scaleFactor vs ^ 2 := by positivity
  have := div_neg_of_neg_of_pos h hs2
  linarith

theorem inAt_of_inTriangle {vs : List (Vtx K)} (hs : 0 < scaleFactor vs) (hn : vs.length ≤ INF0) {ts : List Tri} {i : Nat} {t : Tri}
    (ht : ts[i]? = some t) {A B C q : Vtx K} (gA : vs[t.v1]? = some A) (gB : vs[t.v2]? = some B) (gC : vs[t.v3]? = some C)
    (h : InTriangle A B C q) : InAt (hp (normalizeVerts vs)) ts
      (HP.ofVtx ⟨(q.x - (bbox vs).1) / scaleFactor vs, (q.y - (bbox vs).2.1) / scaleFactor vs⟩) i := by
  have gN : ∀ {x : Nat} {X : Vtx K}, vs[x]? = some X → hp (normalizeVerts vs) x =
      HP.ofVtx ⟨(X.x - (bbox vs).1) / scaleFactor vs, (X.y - (bbox vs).2.1) / scaleFactor vs⟩ := by
    intro x X hx
    refine hp_fin (by have := lt_of_getElem? hx; omega) ?_
    rw [normalizeVerts_eq, List.getElem?_map, hx]; rfl
  refine ⟨t, ht, ?_⟩
  rw [gN gA, gN gB, gN gC]
  exact ⟨clockwise_normalized hs h.1, clockwise_normalized hs h.2.1, clockwise_normalized hs h.2.2⟩

/-- **C04**: no point of the plane is strictly inside two output triangles. -/
theorem C04_disjoint_partial (fuel : Nat) (bins : Nat → Nat) (vs : List (Vtx K)) (h : Good fuel bins vs)
    (out : List Out) (ho : triangulation2d fuel bins vs = .ok out) (i j : Nat) (hij : i ≠ j)
    (a b c a' b' c' : Nat) (hi : out[i]? = some (a, b, c)) (hj : out[j]? = some (a', b', c'))
    (A B C A' B' C' : Vtx K) (gA : vs[a]? = some A) (gB : vs[b]? = some B) (gC : vs[c]? = some C)
    (gA' : vs[a']? = some A') (gB' : vs[b']? = some B') (gC' : vs[c']? = some C') (q : Vtx K) :
    ¬ (InTriangle A B C q ∧ InTriangle A' B' C' q) := by
  obtain ⟨s, done, ins, first, hI, hperm, hf, hst, rfl⟩ := h.mesh ho (List.ne_nil_of_mem (List.mem_of_getElem? hi))
  have hni := h.ids_inf
  have hni' : vs.length ≤ INF0 := by rwa [normalizeVerts_eq, List.length_map] at hni
  have hT := tiled_steps hst (initial_valid hf hni) (tiled_initial hf hni)
  have key := filterSeq_pairs (ts := s.ts)
    (R := fun x y => ∀ (A B C A' B' C' : Vtx K), vs[x.1]? = some A → vs[x.2.1]? = some B → vs[x.2.2]? = some C →
      vs[y.1]? = some A' → vs[y.2.1]? = some B' → vs[y.2.2]? = some C' → ¬ (InTriangle A B C q ∧ InTriangle A' B' C' q))
    (fun x y hR A B C A' B' C' h1 h2 h3 h4 h5 h6 hc => hR A' B' C' A B C h4 h5 h6 h1 h2 h3 ⟨hc.2, hc.1⟩)
    (fun i j t u ht hu hij _ _ A B C A' B' C' h1 h2 h3 h4 h5 h6 hc => hij
      (hT.disjoint rfl (inAt_of_inTriangle h.scale hni' ht h1 h2 h3 hc.1) (inAt_of_inTriangle h.scale hni' hu h4 h5 h6 hc.2)))
  exact key i j _ _ hi hj hij A B C A' B' C' gA gB gC gA' gB' gC'

/-- The directed edges of an output triangle. -/
def Spec.outEdges (t : Out) : List (Nat × Nat) := [(t.1, t.2.1), (t.2.1, t.2.2), (t.2.2, t.1)]

theorem outEdges_ent {ts : List Tri} {i : Nat} {t : Tri} (ht : ts[i]? = some t) {a b : Nat}
    (h : (a, b) ∈ Spec.outEdges t.verts) : ∃ j, Ent ts i a b j := by
  simp only [Spec.outEdges, Tri.verts, List.mem_cons, Prod.mk.injEq, List.not_mem_nil, or_false] at h
  rcases h with ⟨rfl, rfl⟩ | ⟨rfl, rfl⟩ | ⟨rfl, rfl⟩
  · exact ⟨_, t, ht, has_0 t⟩
  · exact ⟨_, t, ht, has_1 t⟩
  · exact ⟨_, t, ht, has_2 t⟩

theorem filterSeq_edges {vs : List (Vtx K)} {ts : List Tri} (hT : Tiled vs ts) (hv : Valid (hp vs) ts)
    (i j : Nat) (t u : Out) (hi : (filterSeq ts)[i]? = some t) (hj : (filterSeq ts)[j]? = some u) (hij : i ≠ j)
    (a b : Nat) : ¬ ((a, b) ∈ Spec.outEdges t ∧ (a, b) ∈ Spec.outEdges u) := by
  refine filterSeq_pairs (ts := ts) (R := fun t u => ¬ ((a, b) ∈ Spec.outEdges t ∧ (a, b) ∈ Spec.outEdges u))
    (fun x y h hc => h ⟨hc.2, hc.1⟩) (fun i j t u ht hu hij _ _ hc => ?_) i j t u hi hj hij
  obtain ⟨_, h1⟩ := outEdges_ent ht hc.1
  obtain ⟨_, h2⟩ := outEdges_ent hu hc.2
  exact hij (hT.edge hv h1 h2)

/-- **C05**: a directed edge belongs to at most one output triangle; so an undirected edge belongs to at most
two, on opposite sides, and no triangle is repeated, not even with rotated vertices. -/
theorem C05_manifold_partial (fuel : Nat) (bins : Nat → Nat) (vs : List (Vtx K)) (h : Good fuel bins vs)
    (out : List Out) (ho : triangulation2d fuel bins vs = .ok out) :
    (∀ (i j : Nat) (t u : Out), out[i]? = some t → out[j]? = some u → i ≠ j → ∀ e,
      ¬ (e ∈ Spec.outEdges t ∧ e ∈ Spec.outEdges u)) ∧
    (∀ (i j k : Nat) (t u v : Out), out[i]? = some t → out[j]? = some u → out[k]? = some v → i ≠ j → j ≠ k → i ≠ k →
      ∀ a b, ¬ (((a, b) ∈ Spec.outEdges t ∨ (b, a) ∈ Spec.outEdges t) ∧
        ((a, b) ∈ Spec.outEdges u ∨ (b, a) ∈ Spec.outEdges u) ∧
        ((a, b) ∈ Spec.outEdges v ∨ (b, a) ∈ Spec.outEdges v))) ∧
    out.Nodup := by
  have h1 : ∀ (i j : Nat) (t u : Out), out[i]? = some t → out[j]? = some u → i ≠ j → ∀ e,
      ¬ (e ∈ Spec.outEdges t ∧ e ∈ Spec.outEdges u) := by
    intro i j t u hi hj hij e
    obtain ⟨s, done, ins, first, hI, hperm, hf, hst, rfl⟩ := h.mesh ho (List.ne_nil_of_mem (List.mem_of_getElem? hi))
    have hni := h.ids_inf
    have hT := tiled_steps hst (initial_valid hf hni) (tiled_initial hf hni)
    exact filterSeq_edges hT hI.valid i j t u hi hj hij e.1 e.2
  refine ⟨h1, ?_, ?_⟩
  · rintro i j k t u v hi hj hk hij hjk hik a b ⟨ht, hu, hv⟩
    have n1 := h1 i j t u hi hj hij
    have n2 := h1 j k u v hj hk hjk
    have n3 := h1 i k t v hi hk hik
    rcases ht with ht | ht <;> rcases hu with hu | hu <;> rcases hv with hv | hv <;>
      first
      | exact n1 _ ⟨ht, hu⟩
      | exact n2 _ ⟨hu, hv⟩
      | exact n3 _ ⟨ht, hv⟩
  · rw [List.nodup_iff_getElem?_ne_getElem?]
    intro i j hij hj he
    have hj' := List.getElem?_eq_getElem hj
    rw [hj'] at he
    exact h1 i j _ _ he hj' hij.ne _ ⟨List.mem_cons_self, List.mem_cons_self⟩

/-! ## C11 -/

/-- **C11**, exact arithmetic: at most `2 n - 2` output triangles. -/
theorem C11_exact_bound (fuel : Nat) (bins : Nat → Nat) (vs : List (Vtx K)) (h : Good fuel bins vs)
    (out : List Out) (ho : triangulation2d fuel bins vs = .ok out) : out.length ≤ 2 * vs.length - 2 := by
  by_cases hne : out = []
  · subst hne; simp
  obtain ⟨s, done, ins, first, hI, hperm, hf, hst, rfl⟩ := h.mesh ho hne
  have hni := h.ids_inf
  have hv0 := initial_valid hf hni
  have h4 := four_infinite hI.valid fun k => steps_outer hst hv0 (initial_outer first k)
  have hlen := hI.len
  have hd := hperm.length_eq
  simp at hd
  rw [filterSeq_eq_map, List.length_map, ← List.countP_eq_length_filter]
  have hsum := List.length_eq_countP_add_countP (fun t : Tri => t.isFinite) (l := s.ts)
  have e : s.ts.countP (fun a => decide ¬ (a.isFinite = true)) = s.ts.countP (fun t => !t.isFinite) := by
    congr 1; funext t; cases t.isFinite <;> rfl
  rw [e] at hsum
  omega

end CDT

namespace CDT
local instance : IdCfg := u32Cfg

/-- On the sample: six triangles (the bound is 14, seven different points give at most 12); `(3/10, 41/100)` is
in general position, so it is in exactly one triangle of the final mesh. -/
example : Good 100 Witness.defaultBins samplePts ∧
    (do let out ← triangulation2d 100 Witness.defaultBins samplePts; Res.ok out.length) = .ok 6 ∧
    (do
      let l ← binSort (Witness.defaultBins samplePts.length) (normalizeVerts samplePts)
      match l with
      | [] => Res.panic
      | first :: rest => do
        let s ← insertAll (normalizeVerts samplePts) 100 (rest.take 7) ⟨initialTriangles first, 3, none⟩
        Res.ok s.ts.length) = .ok 16 ∧
    (∀ A ∈ normalizeVerts samplePts, (3/10 : ℚ) ≠ A.x ∧ (41/100 : ℚ) ≠ A.y ∧
      ∀ B ∈ normalizeVerts samplePts, A ≠ B → Plane.area2 A B ⟨3/10, 41/100⟩ ≠ 0) := by
  refine ⟨sample_good, by decide +kernel, by decide +kernel, by decide +kernel⟩

end CDT

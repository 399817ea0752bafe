import Verif.Geo.CdtRun
import Verif.Props.Tiling
import Verif.Props.Flood

/-! # C30, C31: what the constraint phase does to the mesh -/

set_option linter.unusedSectionVars false
set_option linter.unusedSimpArgs false
set_option linter.unusedVariables false

namespace CDT
open Plane

variable {K : Type} [Field K] [LinearOrder K] [IsStrictOrderedRing K] [ExactParams K] [IdCfg]

/-- `v` is a vertex of a triangle of the mesh. -/
def Spec.InMesh (ts : List Tri) (v : Nat) : Prop := ∃ t ∈ ts, v = t.v1 ∨ v = t.v2 ∨ v = t.v3

/-- The mesh has a triangle with the side from `a` to `b`. -/
def Spec.MeshEdge (ts : List Tri) (a b : Nat) : Prop := ∃ t ∈ ts, ∃ j, (a, b, j) ∈ Spec.edges t

theorem inMesh_iff {ts : List Tri} {v : Nat} : Spec.InMesh ts v ↔ Occ ts v := by
  constructor
  · rintro ⟨t, ht, h⟩
    obtain ⟨i, hi⟩ := List.mem_iff_getElem?.1 ht
    exact ⟨i, t, hi, by rw [hasVert_iff]; rcases h with h | h | h <;> simp [h]⟩
  · rintro ⟨i, t, ht, h⟩
    rw [hasVert_iff] at h
    exact ⟨t, List.mem_of_getElem? ht, by rcases h with h | h | h <;> simp [h]⟩

theorem edges_has {t : Tri} {a b j : Nat} : (a, b, j) ∈ Spec.edges t ↔ Has t a b j := by
  simp only [Spec.edges, List.mem_cons, Prod.mk.injEq, List.not_mem_nil, or_false, Has]
  constructor <;> rintro (h | h | h) <;> simp [h]

theorem meshEdge_iff {ts : List Tri} {a b : Nat} : Spec.MeshEdge ts a b ↔ HasEdge ts a b := by
  constructor
  · rintro ⟨t, ht, j, h⟩
    obtain ⟨i, hi⟩ := List.mem_iff_getElem?.1 ht
    exact ⟨i, j, t, hi, edges_has.1 h⟩
  · rintro ⟨i, j, t, ht, h⟩
    exact ⟨t, List.mem_of_getElem? ht, j, edges_has.2 h⟩

/-! ## C30 -/

/-- **C30**, the phase alone: on every mesh of clockwise triangles with correct adjacency over vertices of the
unit square, whatever the constraints are, a successful constraint phase leaves a mesh of clockwise triangles
with correct adjacency and the same vertices; if the mesh tiled the plane it still does. -/
theorem C30_phase (vs : List (Vtx K)) (fuel : Nat) (ts : List Tri) (es : List Edge) (merge : List Nat) (r : AC)
    (hu : ∀ v ∈ vs, InUnit v) (hn : vs.length ≤ INF0) (hv : Valid (hp vs) ts) (hok : VertsIn (VOk vs.length) ts)
    (hm : ∀ (v x : Nat), merge[v]? = some x → Spec.InMesh ts x)
    (hr : applyConstraints vs fuel ts es merge = .ok r) :
    Spec.Adjacency r.ts ∧ (∀ t ∈ r.ts, FarClockwise vs t.v1 t.v2 t.v3) ∧
      (∀ v, Spec.InMesh r.ts v ↔ Spec.InMesh ts v) ∧ (Tiled vs ts → Tiled vs r.ts) := by
  obtain ⟨v2t, h1, h2⟩ := applyConstraints_ok hr
  obtain ⟨v2t', h1', h3⟩ := buildV2t_ok hn hv.len hok
  rw [h1] at h1'; simp at h1'; subst h1'
  have hA : AInv vs ts ⟨ts, v2t, []⟩ := ⟨⟨hv, hok, h3⟩, .refl, fun t ht k => by
    obtain ⟨i, hi⟩ := List.mem_iff_getElem?.1 ht
    exact ⟨i, t, hi, by rw [hasVert_iff]; fin_cases k <;> simp [Tri.v]⟩⟩
  obtain ⟨hB, -⟩ := applyLoop_inv hu hn (fun v x h => inMesh_iff.1 (hm v x h)) hA h2
  refine ⟨adjacency_of hB.m.valid, fun t ht => ?_, fun v => ?_, fun hT => tiled_steps hB.steps hv hT⟩
  · obtain ⟨i, hi⟩ := List.mem_iff_getElem?.1 ht
    exact farClockwise_of (hB.m.valid.pos _ _ hi)
  · rw [inMesh_iff, inMesh_iff]
    constructor
    · rintro ⟨i, t, ht, h⟩
      have := hB.occ.get ht
      rw [hasVert_iff] at h
      rcases h with rfl | rfl | rfl
      · exact this 0
      · exact this 1
      · exact this 2
    · exact fun h => steps_occ hB.steps h

theorem Good.unit {fuel : Nat} {bins : Nat → Nat} {vs : List (Vtx K)} (h : Good fuel bins vs) :
    ∀ v ∈ normalizeVerts vs, InUnit v := by
  obtain ⟨a, ha, b, hb, hab⟩ := h.distinct
  exact normalized_unit h.range ha hb hab

/-- The mesh behind a successful constrained run. -/
theorem Good.cmesh {fuel : Nat} {bins : Nat → Nat} {vs : List (Vtx K)} (h : Good fuel bins vs)
    {es : List Edge} {r : AC} (hr : constrainedMesh fuel bins vs es = .ok r) :
    ∃ s v2t, wrapAndTriangulate fuel (bins vs.length) (normalizeVerts vs) (some ((List.range vs.length).map toId)) = .ok s ∧
      buildV2t s.ts 0 (List.replicate (normalizeVerts vs).length 0) = .ok v2t ∧
      applyLoop (normalizeVerts vs) fuel (s.merge.getD []) es ⟨s.ts, v2t, []⟩ = .ok r ∧
      MergeOcc s.ts (s.merge.getD []) ∧ Tiled (normalizeVerts vs) s.ts ∧
      AInv (normalizeVerts vs) s.ts ⟨s.ts, v2t, []⟩ := by
  have hl : (normalizeVerts vs).length = vs.length := by rw [normalizeVerts_eq]; simp
  have hni := h.ids_inf
  obtain ⟨s, h1, h2⟩ := constrainedMesh_ok hr
  obtain ⟨v2t, h3, h4⟩ := applyConstraints_ok h2
  rcases h.run (mergeInit_range _ (by have := h.ids; omega)) with e | ⟨s', done, ins, first, e, hI, hperm, hf, -, hst⟩
  · rw [h1] at e; simp at e
  rw [h1] at e; simp at e; subst e
  have hf' : first < (normalizeVerts vs).length := by rw [hl]; exact hf
  have hT := tiled_steps hst (initial_valid hf' hni) (tiled_initial hf' hni)
  obtain ⟨v2t', h3', h5⟩ := buildV2t_ok hni hI.valid.len hI.ok
  rw [h3] at h3'; simp at h3'; subst h3'
  refine ⟨s, v2t, h1, h3, h4, ?_, hT, ⟨hI.valid, hI.ok, h5⟩, .refl, fun t ht k => ?_⟩
  · cases hm : s.merge with
    | none => intro v x hx; simp at hx
    | some m => exact hI.mergeOcc (by rw [hl]; exact hperm) hm
  · obtain ⟨i, hi⟩ := List.mem_iff_getElem?.1 ht
    exact ⟨i, t, hi, by rw [hasVert_iff]; fin_cases k <;> simp [Tri.v]⟩

theorem Good.cmesh_inv {fuel : Nat} {bins : Nat → Nat} {vs : List (Vtx K)} (h : Good fuel bins vs)
    {es : List Edge} {r : AC} (hr : constrainedMesh fuel bins vs es = .ok r) :
    Valid (hp (normalizeVerts vs)) r.ts ∧ VertsIn (VOk (normalizeVerts vs).length) r.ts ∧ Tiled (normalizeVerts vs) r.ts := by
  obtain ⟨s, v2t, -, -, h3, h4, hT, hA⟩ := h.cmesh hr
  obtain ⟨hB, -⟩ := applyLoop_inv h.unit h.ids_inf h4 hA h3
  exact ⟨hB.m.valid, hB.m.ok, tiled_steps hB.steps hA.m.valid hT⟩

/-- **C30**, the mesh of the whole constrained run: adjacency is symmetric, all triangles are strictly clockwise,
no point is strictly inside two of them and every point in general position is inside exactly one; the vertices
are those of the unconstrained mesh. -/
theorem C30_mesh (fuel : Nat) (bins : Nat → Nat) (vs : List (Vtx K)) (h : Good fuel bins vs) (es : List Edge) (r : AC)
    (hr : constrainedMesh fuel bins vs es = .ok r) :
    Spec.Adjacency r.ts ∧ (∀ t ∈ r.ts, FarClockwise (normalizeVerts vs) t.v1 t.v2 t.v3) ∧
      (∀ (i j : Nat) (t u : Tri), r.ts[i]? = some t → r.ts[j]? = some u → i ≠ j →
        ∀ A B C A' B' C' : Vtx K, vs[t.v1]? = some A → vs[t.v2]? = some B → vs[t.v3]? = some C →
          vs[u.v1]? = some A' → vs[u.v2]? = some B' → vs[u.v3]? = some C' → ∀ q,
          ¬ (InTriangle A B C q ∧ InTriangle A' B' C' q)) ∧
      (∀ q : Vtx K, Generic (normalizeVerts vs) (List.range vs.length) q →
        ∃! i : Nat, ∃ t : Tri, r.ts[i]? = some t ∧ FarInTriangle (normalizeVerts vs) t.v1 t.v2 t.v3 q) ∧
      ∃ s, wrapAndTriangulate fuel (bins vs.length) (normalizeVerts vs) (some ((List.range vs.length).map toId)) = .ok s ∧
        ∀ v, Spec.InMesh r.ts v ↔ Spec.InMesh s.ts v := by
  have hl : (normalizeVerts vs).length = vs.length := by rw [normalizeVerts_eq]; simp
  obtain ⟨hv, hok, hT⟩ := h.cmesh_inv hr
  obtain ⟨s, v2t, h1, h2, h3, h4, -, hA⟩ := h.cmesh hr
  have hph := C30_phase (normalizeVerts vs) fuel s.ts es (s.merge.getD []) r h.unit h.ids_inf hA.m.valid hA.m.ok
    (fun v x hx => inMesh_iff.2 (h4 v x hx)) (by unfold applyConstraints; simp only [h2, Res.ok_bind, h3])
  have uniq : ∀ q : Vtx K, Generic (normalizeVerts vs) (List.range vs.length) q →
        ∃! i : Nat, ∃ t : Tri, r.ts[i]? = some t ∧ FarInTriangle (normalizeVerts vs) t.v1 t.v2 t.v3 q := by
    intro q hq
    have hgv : GenV (normalizeVerts vs) r.ts (HP.ofVtx q) := by
      refine genV_of_generic hq h.ids_inf (fun v hv => by rw [hl]; simpa using hv) fun t ht j => ?_
      refine (hok t ht j).imp (fun h => ?_) id
      rw [hl] at h; simpa using h
    have hg := hgv.gen hv rfl
    obtain ⟨i, h1, h2⟩ := hT _ rfl hgv
    exact ⟨i, (far_iff_inAt hg i).2 h1, fun j hj => h2 j ((far_iff_inAt hg j).1 hj)⟩
  refine ⟨hph.1, hph.2.1, ?_, uniq, s, h1, hph.2.2.1⟩
  intro i j t u hi hj hij A B C A' B' C' gA gB gC gA' gB' gC' q hq
  have hni := h.ids_inf
  rw [hl] at hni
  exact hij (hT.disjoint rfl (inAt_of_inTriangle h.scale hni hi gA gB gC hq.1)
    (inAt_of_inTriangle h.scale hni hj gA' gB' gC' hq.2))

/-- Different output triangles are different mesh triangles. -/
theorem domainList_pairs {S : List Edge} {ts : List Tri} {out : List Out} {ids : List Nat} (h : Spec.IsDomainList S ts out ids)
    {i j : Nat} {a b : Out} (ha : out[i]? = some a) (hb : out[j]? = some b) (hij : i ≠ j) :
    ∃ (k l : Nat) (t u : Tri), k ≠ l ∧ ts[k]? = some t ∧ ts[l]? = some u ∧ a = t.verts ∧ b = u.verts ∧
      t.isFinite = true ∧ u.isFinite = true := by
  obtain ⟨hnd, hmem, rfl⟩ := h
  rw [List.getElem?_map, Option.map_eq_some_iff] at ha hb
  obtain ⟨k, hk, rfl⟩ := ha
  obtain ⟨l, hl, rfl⟩ := hb
  obtain ⟨t, ht, t1, t2, t3⟩ := ((hmem k).1 (List.mem_of_getElem? hk)).2
  obtain ⟨u, hu, u1, u2, u3⟩ := ((hmem l).1 (List.mem_of_getElem? hl)).2
  refine ⟨k, l, t, u, ?_, ht, hu, ?_, ?_, ?_, ?_⟩
  · rintro rfl
    exact hij ((List.getElem?_inj (lt_of_getElem? hk) hnd).1 (hk.trans hl.symm))
  · simp [Spec.vertsAt, ht, Tri.verts]
  · simp [Spec.vertsAt, hu, Tri.verts]
  · simp [Tri.isFinite, isFin_iff, t1, t2, t3]
  · simp [Tri.isFinite, isFin_iff, u1, u2, u3]

theorem clockwise_of_pos {vs : List (Vtx K)} (hs : 0 < scaleFactor vs) {ts : List Tri}
    (hok : VertsIn (VOk (normalizeVerts vs).length) ts) {i : Nat} {t : Tri} (hi : ts[i]? = some t) (hf : t.isFinite = true)
    (hpos : Pos (hp (normalizeVerts vs)) t) :
    ∃ A B C, vs[t.v1]? = some A ∧ vs[t.v2]? = some B ∧ vs[t.v3]? = some C ∧ Clockwise A B C := by
  simp only [Tri.isFinite, Bool.and_eq_true, isFin_iff] at hf
  have hok := hok.get hi
  obtain ⟨A, _, gA, eA⟩ := getI_fin (hok 0) hf.1.1
  obtain ⟨B, _, gB, eB⟩ := getI_fin (hok 1) hf.1.2
  obtain ⟨C, _, gC, eC⟩ := getI_fin (hok 2) hf.2
  simp only [Tri.v_0, Tri.v_1, Tri.v_2] at gA gB gC eA eB eC
  unfold Pos at hpos
  rw [eA, eB, eC, o_area2] at hpos
  obtain ⟨A', gA', rfl⟩ := normalizeVerts_get gA
  obtain ⟨B', gB', rfl⟩ := normalizeVerts_get gB
  obtain ⟨C', gC', rfl⟩ := normalizeVerts_get gC
  refine ⟨A', B', C', gA', gB', gC', ?_⟩
  rw [area2_normalized _ _ _ _ _ _ hs.ne'] at hpos
  have hs2 : 0 < scaleFactor vs ^ 2 := by positivity
  unfold Clockwise
  by_contra hc
  have := div_nonneg (not_lt.1 hc) hs2.le
  linarith

/-- **C30**, the output: the triangles are strictly clockwise in the input coordinates. -/
theorem C30_output_clockwise (fuel : Nat) (bins : Nat → Nat) (vs : List (Vtx K)) (h : Good fuel bins vs) (es : List Edge)
    (out : List Out) (ho : constrained2d fuel bins vs es = .ok out) :
    ∀ a b c, (a, b, c) ∈ out → ∃ A B C, vs[a]? = some A ∧ vs[b]? = some B ∧ vs[c]? = some C ∧ Clockwise A B C := by
  intro a b c hmem
  unfold constrained2d at ho
  split at ho
  · simp at ho; subst ho; simp at hmem
  rw [Res.bind_eq_ok] at ho
  obtain ⟨r, hr, ho⟩ := ho
  obtain ⟨hv, hok, -⟩ := h.cmesh_inv hr
  obtain ⟨t, ht, hf, e⟩ := cdtFilter_mem ho hmem
  simp only [Tri.verts, Prod.mk.injEq] at e
  obtain ⟨rfl, rfl, rfl⟩ := e
  obtain ⟨i, hi⟩ := List.mem_iff_getElem?.1 ht
  exact clockwise_of_pos h.scale hok hi hf (hv.pos _ _ hi)

/-- **C30**, the output: no point is strictly inside two triangles. -/
theorem C30_output_disjoint (fuel : Nat) (bins : Nat → Nat) (vs : List (Vtx K)) (h : Good fuel bins vs) (es : List Edge)
    (out : List Out) (ho : constrained2d fuel bins vs es = .ok out) (i j : Nat) (hij : i ≠ j)
    (a b c a' b' c' : Nat) (hi : out[i]? = some (a, b, c)) (hj : out[j]? = some (a', b', c'))
    (A B C A' B' C' : Vtx K) (gA : vs[a]? = some A) (gB : vs[b]? = some B) (gC : vs[c]? = some C)
    (gA' : vs[a']? = some A') (gB' : vs[b']? = some B') (gC' : vs[c']? = some C') (q : Vtx K) :
    ¬ (InTriangle A B C q ∧ InTriangle A' B' C' q) := by
  unfold constrained2d at ho
  split at ho
  · simp at ho; subst ho; simp at hi
  rw [Res.bind_eq_ok] at ho
  obtain ⟨r, hr, ho⟩ := ho
  obtain ⟨ids, hd⟩ := C23_filter _ _ _ _ ho
  obtain ⟨k, l, t, u, hkl, ht, hu, e1, e2, -⟩ := domainList_pairs hd hi hj hij
  simp only [Tri.verts, Prod.mk.injEq] at e1 e2
  obtain ⟨rfl, rfl, rfl⟩ := e1
  obtain ⟨rfl, rfl, rfl⟩ := e2
  exact (C30_mesh fuel bins vs h es r hr).2.2.1 k l t u ht hu hkl A B C A' B' C' gA gB gC gA' gB' gC' q

/-- **C30**, the output: a directed edge belongs to at most one triangle. -/
theorem C30_output_manifold (fuel : Nat) (bins : Nat → Nat) (vs : List (Vtx K)) (h : Good fuel bins vs) (es : List Edge)
    (out : List Out) (ho : constrained2d fuel bins vs es = .ok out) (i j : Nat) (t u : Out)
    (hi : out[i]? = some t) (hj : out[j]? = some u) (hij : i ≠ j) (e : Nat × Nat) :
    ¬ (e ∈ Spec.outEdges t ∧ e ∈ Spec.outEdges u) := by
  rintro ⟨h1, h2⟩
  unfold constrained2d at ho
  split at ho
  · simp at ho; subst ho; simp at hi
  rw [Res.bind_eq_ok] at ho
  obtain ⟨r, hr, ho⟩ := ho
  obtain ⟨ids, hd⟩ := C23_filter _ _ _ _ ho
  obtain ⟨k, l, t, u, hkl, ht, hu, rfl, rfl, -⟩ := domainList_pairs hd hi hj hij
  obtain ⟨hv, -, hT⟩ := h.cmesh_inv hr
  obtain ⟨_, g1⟩ := outEdges_ent ht h1
  obtain ⟨_, g2⟩ := outEdges_ent hu h2
  exact hkl (hT.edge hv g1 g2)

/-! ## C31 -/

/-- The segment between two vertices of `vs` properly crosses the possibly unbounded edge between the ids `x`
and `y`, for all sufficiently far positions of the artificial vertices. -/
def FarCross (vs : List (Vtx K)) (a b x y : Nat) : Prop :=
  ∃ R, ∀ r, R ≤ r → Plane.Cross (farPos vs r a) (farPos vs r b) (farPos vs r x) (farPos vs r y)

theorem far_prod {vs : List (Vtx K)} {a b x y : Nat}
    (h : HP.o (hp vs a) (hp vs b) (hp vs x) * HP.o (hp vs a) (hp vs b) (hp vs y) < 0) :
    ∃ R, ∀ r, R ≤ r → area2 (farPos vs r a) (farPos vs r b) (farPos vs r x) * area2 (farPos vs r a) (farPos vs r b) (farPos vs r y) < 0 := by
  have key : ∀ x y, 0 < HP.o (hp vs a) (hp vs b) (hp vs x) → HP.o (hp vs a) (hp vs b) (hp vs y) < 0 →
      ∃ R, ∀ r, R ≤ r → area2 (farPos vs r a) (farPos vs r b) (farPos vs r x) < 0 ∧ 0 < area2 (farPos vs r a) (farPos vs r b) (farPos vs r y) := by
    intro x y h1 h2
    obtain ⟨R1, g1⟩ := farClockwise_of h1
    obtain ⟨R2, g2⟩ := farClockwise_of (vs := vs) (a := b) (b := a) (c := y) (by rw [HP.o_swap]; linarith)
    refine ⟨max R1 R2, fun r hr => ⟨g1 r (le_trans (le_max_left _ _) hr), ?_⟩⟩
    have := g2 r (le_trans (le_max_right _ _) hr)
    unfold Clockwise at this
    rw [area2_swap] at this
    linarith
  rcases mul_neg_iff.1 h with ⟨h1, h2⟩ | ⟨h1, h2⟩
  · obtain ⟨R, hR⟩ := key x y h1 h2
    exact ⟨R, fun r hr => mul_neg_of_neg_of_pos (hR r hr).1 (hR r hr).2⟩
  · obtain ⟨R, hR⟩ := key y x h2 h1
    exact ⟨R, fun r hr => mul_neg_of_pos_of_neg (hR r hr).2 (hR r hr).1⟩

theorem farCross_of {vs : List (Vtx K)} {a b x y : Nat} (h : HP.Cross (hp vs a) (hp vs b) (hp vs x) (hp vs y)) :
    FarCross vs a b x y := by
  obtain ⟨R1, h1⟩ := far_prod h.1
  obtain ⟨R2, h2⟩ := far_prod h.2
  exact ⟨max R1 R2, fun r hr => ⟨h1 r (le_trans (le_max_left _ _) hr), h2 r (le_trans (le_max_right _ _) hr)⟩⟩

/-- **C31**, the phase alone: on every mesh of clockwise triangles with correct adjacency over vertices of the unit
square, an edge with a real vertex is still an edge after inserting a list of constraints if none of these (after
merging) properly crosses it. -/
theorem C31_edge_survives_partial (vs : List (Vtx K)) (fuel : Nat) (ts : List Tri) (v2t : List Nat) (S : List Edge) (es : List Edge)
    (merge : List Nat) (r : AC) (hu : ∀ v ∈ vs, InUnit v) (hn : vs.length ≤ INF0) (hv : Valid (hp vs) ts)
    (hok : VertsIn (VOk vs.length) ts) (hv2t : V2tOk vs.length ts v2t)
    (hm : ∀ (v x : Nat), merge[v]? = some x → Spec.InMesh ts x)
    (hr : applyLoop vs fuel merge es ⟨ts, v2t, S⟩ = .ok r) (x y : Nat) (hxy : x < INF0 ∨ y < INF0)
    (he : Spec.MeshEdge ts x y)
    (hc : ∀ e ∈ es, ∀ a b, merge[e.src]? = some a → merge[e.dst]? = some b → ¬ FarCross vs a b x y) :
    Spec.MeshEdge r.ts x y := by
  have hA : AInv vs ts ⟨ts, v2t, S⟩ := ⟨⟨hv, hok, hv2t⟩, .refl, fun t ht k => by
    obtain ⟨i, hi⟩ := List.mem_iff_getElem?.1 ht
    exact ⟨i, t, hi, by rw [hasVert_iff]; fin_cases k <;> simp [Tri.v]⟩⟩
  obtain ⟨-, hB⟩ := applyLoop_inv hu hn (fun v x h => inMesh_iff.1 (hm v x h)) hA hr
  exact meshEdge_iff.2 (hB x y hxy (meshEdge_iff.1 he) fun e he a b ha hb h => hc e he a b ha hb (farCross_of h))

theorem cross_normalized {vs : List (Vtx K)} (hs : 0 < scaleFactor vs) (hn : (normalizeVerts vs).length ≤ INF0) {a b x y : Nat}
    {A B X Y : Vtx K} (gA : vs[a]? = some A)
    (gB : vs[b]? = some B) (gX : vs[x]? = some X) (gY : vs[y]? = some Y)
    (h : HP.Cross (hp (normalizeVerts vs) a) (hp (normalizeVerts vs) b) (hp (normalizeVerts vs) x) (hp (normalizeVerts vs) y)) :
    Plane.Cross A B X Y := by
  have gN : ∀ {x : Nat} {X : Vtx K}, vs[x]? = some X → hp (normalizeVerts vs) x =
      HP.ofVtx ⟨(X.x - (bbox vs).1) / scaleFactor vs, (X.y - (bbox vs).2.1) / scaleFactor vs⟩ := by
    intro x X hx
    rw [normalizeVerts_eq, List.length_map] at hn
    refine hp_fin (by have := lt_of_getElem? hx; omega) ?_
    rw [normalizeVerts_eq, List.getElem?_map, hx]; rfl
  rw [gN gA, gN gB, gN gX, gN gY, ← cross_iff_hp] at h
  unfold Plane.Cross at h ⊢
  simp only [area2_normalized _ _ _ _ _ _ hs.ne', div_mul_div_comm] at h
  have hs2 : 0 < scaleFactor vs ^ 2 * scaleFactor vs ^ 2 := by positivity
  exact ⟨by simpa [div_neg_iff, hs2, hs2.le, not_lt.2 hs2.le] using h.1, by simpa [div_neg_iff, hs2, hs2.le, not_lt.2 hs2.le] using h.2⟩

/-- **C31**, the whole run: if the constraints `es1` lead to a mesh with the edge between the real vertices `x` and
`y`, then so do `es1` followed by `es2`, unless a constraint of `es2` properly crosses the segment from `x` to `y`
(in input coordinates). -/
theorem C31_constraint_survives_partial (fuel : Nat) (bins : Nat → Nat) (vs : List (Vtx K)) (h : Good fuel bins vs)
    (es1 es2 : List Edge) (r1 r2 : AC) (h1 : constrainedMesh fuel bins vs es1 = .ok r1)
    (h2 : constrainedMesh fuel bins vs (es1 ++ es2) = .ok r2) (x y : Nat) (X Y : Vtx K) (hx : vs[x]? = some X) (hy : vs[y]? = some Y)
    (he : Spec.MeshEdge r1.ts x y)
    (hc : ∀ e ∈ es2, ∀ A B, vs[e.src]? = some A → vs[e.dst]? = some B → ¬ Plane.Cross A B X Y) :
    Spec.MeshEdge r2.ts x y := by
  have hl : (normalizeVerts vs).length = vs.length := by rw [normalizeVerts_eq]; simp
  obtain ⟨s, v2t, hs, hb, ha, hm, hT, hA⟩ := h.cmesh h1
  obtain ⟨s', v2t', hs', hb', ha', -⟩ := h.cmesh h2
  rw [hs] at hs'; simp at hs'; subst hs'
  rw [hb] at hb'; simp at hb'; subst hb'
  rw [applyLoop_append, ha, Res.ok_bind] at ha'
  have hB := (applyLoop_inv h.unit h.ids_inf hm hA ha).1
  have hm' : MergeOcc r1.ts (s.merge.getD []) := fun v x hx => steps_occ hB.steps (hm v x hx)
  have hpos : ∀ {v a : Nat}, (s.merge.getD [])[v]? = some a → vs[a]? = vs[v]? ∧ v < vs.length := by
    intro v a hva
    have hvl : v < vs.length ∧ ∃ m, s.merge = some m ∧ m[v]? = some a := by
      cases hmm : s.merge with
      | none => rw [hmm] at hva; simp at hva
      | some m =>
        rw [hmm] at hva
        refine ⟨?_, m, rfl, hva⟩
        rcases h.run (mergeInit_range _ (by have := h.ids; omega)) with e | ⟨s', done, ins, first, e, hI, -⟩
        · rw [hs] at e; simp at e
        rw [hs] at e; simp at e; subst e
        have := (hI.kept m hmm).1
        rw [hl] at this
        rw [← this]; exact lt_of_getElem? hva
    obtain ⟨hv, m, hm1, hm2⟩ := hvl
    refine ⟨?_, hv⟩
    rcases C08_merged_or_inserted_partial fuel bins vs h _ (.inr rfl) s hs v hv with ⟨_, g⟩ | ⟨_, z, _, _, gz, _, g⟩
    · have := g m hm1
      rw [hm2] at this; simp at this; rw [this]
    · have := g m hm1
      rw [hm2] at this; simp at this; rw [this]; exact gz
  refine meshEdge_iff.2 ((applyLoop_inv h.unit h.ids_inf hm' (ts0 := r1.ts) (s := r1) ⟨hB.m, .refl, fun t ht k => ?_⟩ ha').2 x y
    (.inl ?_) (meshEdge_iff.1 he) ?_)
  · obtain ⟨i, hi⟩ := List.mem_iff_getElem?.1 ht
    exact ⟨i, t, hi, by rw [hasVert_iff]; fin_cases k <;> simp [Tri.v]⟩
  · have := lt_of_getElem? hx; have := h.ids_inf; omega
  · intro e hes a b hea heb hcr
    obtain ⟨g1, l1⟩ := hpos hea
    obtain ⟨g2, l2⟩ := hpos heb
    obtain ⟨A, gA, -⟩ := getI_lt l1
    obtain ⟨B, gB, -⟩ := getI_lt l2
    exact hc e hes A B gA gB (cross_normalized h.scale h.ids_inf (g1.trans gA) (g2.trans gB) hx hy hcr)

end CDT

namespace CDT
local instance : IdCfg := u32Cfg

/-- On the sample: the constraint from 0 to 5 crosses two edges of the mesh, the output has six triangles; after the
constraint from 3 to 7 (which crosses an edge) the mesh has this edge, and the one from 1 to 6, which crosses
another edge, does not cross it. -/
example : Good 100 Witness.defaultBins samplePts ∧
    constrained2d 100 Witness.defaultBins samplePts [⟨0, 5⟩] = .ok [(5,6,0), (6,3,0), (7,0,2), (1,7,2), (1,5,7), (5,0,7)] ∧
    (do let r ← constrainedMesh 100 Witness.defaultBins samplePts [⟨3, 7⟩]
        Res.ok (r.ts.any fun t => decide (t.verts = (7,3,2)))) = .ok true ∧
    (do let r ← constrainedMesh 100 Witness.defaultBins samplePts ([⟨3, 7⟩, ⟨1, 6⟩] : List Edge)
        Res.ok (r.ts.any fun t => decide (t.verts = (7,3,2)))) = .ok true ∧
    (do let A ← getI samplePts 1; let B ← getI samplePts 6; let X ← getI samplePts 7; let Y ← getI samplePts 3
        Res.ok (decide (Plane.area2 A B X * Plane.area2 A B Y < 0))) = .ok false :=
  ⟨sample_good, by decide +kernel, by decide +kernel, by decide +kernel, by decide +kernel⟩

end CDT

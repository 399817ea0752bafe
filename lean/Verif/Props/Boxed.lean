import Verif.Geo.Box
import Verif.Props.CertUnique
import Verif.Props.Framed

/-! # C77: with the corners of the bounding rectangle among the vertices, the rectangle is covered -/

set_option linter.unusedSectionVars false
set_option linter.unusedSimpArgs false
set_option linter.unusedVariables false

namespace CDT
open Plane

section Main
variable {K : Type} [Field K] [LinearOrder K] [IsStrictOrderedRing K] [ExactParams K] [IdCfg]

/-- The four corners of a rectangle are among the vertices, in any places of the list and any number of times, and the other vertices
are anywhere in the closed rectangle. -/
def Spec.Boxed (vs : List (Vtx K)) (x0 x1 y0 y1 : K) : Prop :=
  x0 < x1 ∧ y0 < y1 ∧ ⟨x0, y0⟩ ∈ vs ∧ ⟨x0, y1⟩ ∈ vs ∧ ⟨x1, y0⟩ ∈ vs ∧ ⟨x1, y1⟩ ∈ vs ∧
    ∀ p ∈ vs, x0 ≤ p.x ∧ p.x ≤ x1 ∧ y0 ≤ p.y ∧ p.y ≤ y1

theorem Spec.Boxed.three {vs : List (Vtx K)} {x0 x1 y0 y1 : K} (hf : Spec.Boxed vs x0 x1 y0 y1) : 3 ≤ vs.length := by
  obtain ⟨hx, hy, m00, m01, m10, -, -⟩ := hf
  have hnd : [(⟨x0, y0⟩ : Vtx K), ⟨x0, y1⟩, ⟨x1, y0⟩].Nodup := by simp [hx.ne, hy.ne, hy.ne']
  have := (List.subperm_of_subset hnd (l₂ := vs) (by
    intro p hp
    simp only [List.mem_cons, List.not_mem_nil, or_false] at hp
    rcases hp with rfl | rfl | rfl <;> assumption)).length_le
  simpa using this

/-- A position relative to the rectangle, after normalization. -/
theorem toNorm_box {vs : List (Vtx K)} (hs : 0 < scaleFactor vs) {x0 x1 y0 y1 : K} {p : Vtx K}
    (hp : x0 ≤ p.x ∧ p.x ≤ x1 ∧ y0 ≤ p.y ∧ p.y ≤ y1) :
    (x0 - (bbox vs).1) / scaleFactor vs ≤ (toNorm vs p).x ∧ (toNorm vs p).x ≤ (x0 - (bbox vs).1) / scaleFactor vs + (x1 - x0) / scaleFactor vs ∧
    (y0 - (bbox vs).2.1) / scaleFactor vs ≤ (toNorm vs p).y ∧ (toNorm vs p).y ≤ (y0 - (bbox vs).2.1) / scaleFactor vs + (y1 - y0) / scaleFactor vs := by
  simp only [toNorm]
  rw [← add_div, ← add_div]
  exact ⟨div_le_div_of_nonneg_right (by linarith [hp.1]) hs.le, div_le_div_of_nonneg_right (by linarith [hp.2.1]) hs.le,
    div_le_div_of_nonneg_right (by linarith [hp.2.2.1]) hs.le, div_le_div_of_nonneg_right (by linarith [hp.2.2.2]) hs.le⟩

theorem toNorm_box_lt {vs : List (Vtx K)} (hs : 0 < scaleFactor vs) {x0 x1 y0 y1 : K} {p : Vtx K}
    (hp : x0 < p.x ∧ p.x < x1 ∧ y0 < p.y ∧ p.y < y1) :
    (x0 - (bbox vs).1) / scaleFactor vs < (toNorm vs p).x ∧ (toNorm vs p).x < (x0 - (bbox vs).1) / scaleFactor vs + (x1 - x0) / scaleFactor vs ∧
    (y0 - (bbox vs).2.1) / scaleFactor vs < (toNorm vs p).y ∧ (toNorm vs p).y < (y0 - (bbox vs).2.1) / scaleFactor vs + (y1 - y0) / scaleFactor vs := by
  simp only [toNorm]
  rw [← add_div, ← add_div]
  exact ⟨div_lt_div_of_pos_right (by linarith [hp.1]) hs, div_lt_div_of_pos_right (by linarith [hp.2.1]) hs,
    div_lt_div_of_pos_right (by linarith [hp.2.2.1]) hs, div_lt_div_of_pos_right (by linarith [hp.2.2.2]) hs⟩

/-- A point of the plane, from and to the normalized coordinates. -/
theorem toNorm_inj {vs : List (Vtx K)} (hs : scaleFactor vs ≠ 0) {p q : Vtx K} (e : toNorm vs p = toNorm vs q) : p = q := by
  obtain ⟨px, py⟩ := p
  obtain ⟨qx, qy⟩ := q
  simp only [toNorm, Vtx.mk.injEq] at e
  obtain ⟨e1, e2⟩ := e
  rw [div_left_inj' hs] at e1 e2
  simp only [Vtx.mk.injEq]
  exact ⟨by linarith, by linarith⟩

/-- The ids in a mesh. -/
theorem occ_vok {n : Nat} {ts : List Tri} (hok : VertsIn (VOk n) ts) {q : Nat} (hq : Occ ts q) : VOk n q := by
  obtain ⟨i, T, hT, hv⟩ := hq
  simp only [Tri.hasVert, Bool.or_eq_true, decide_eq_true_eq] at hv
  rcases hv with (rfl | rfl) | rfl
  · exact hok.get hT 0
  · exact hok.get hT 1
  · exact hok.get hT 2

theorem inf_id {n : Nat} {ts : List Tri} (hok : VertsIn (VOk n) ts) (hn : n ≤ INF0) {q : Nat} (hq : Occ ts q) (fq : ¬ q < INF0) :
    ∃ k : Fin 4, q = INF0 + k := by
  rcases occ_vok hok hq with h1 | ⟨h1, h2⟩
  · omega
  · have hB := IdCfg.big
    refine ⟨⟨q - INF0, ?_⟩, ?_⟩
    · unfold INF0 INF3 at *; omega
    · simp; omega

/-- A successful run: what `Good.result` says, and the chains of unbounded triangles are convex. -/
theorem Good.chains {fuel : Nat} {bins : Nat → Nat} {vs : List (Vtx K)} (h : Good fuel bins vs) (h3 : 3 ≤ vs.length) {out : List Out}
    (ho : triangulation2d fuel bins vs = .ok out) :
    ∃ s : DT, out = filterSeq s.ts ∧ Valid (hp (normalizeVerts vs)) s.ts ∧ VertsIn (VOk (normalizeVerts vs).length) s.ts ∧
      Tiled (normalizeVerts vs) s.ts ∧ (∀ P ∈ vs, ∃ w : Nat, vs[w]? = some P ∧ Occ s.ts w) ∧
      Convexish (normalizeVerts vs) s.ts ∧ (∀ k : Fin 4, ∃ i, Ent s.ts i (INF0 + k) (INF0 + (k + 1 : Fin 4)) NONE) ∧
      wrapAndTriangulate fuel (bins vs.length) (normalizeVerts vs) (some ((List.range vs.length).map toId)) = .ok s := by
  have hl : (normalizeVerts vs).length = vs.length := by rw [normalizeVerts_eq]; simp
  have hids := h.ids
  have hne : normalizeVerts vs ≠ [] := by
    intro e; rw [e] at hl; simp at hl; omega
  unfold triangulation2d at ho
  rw [if_neg (by omega)] at ho
  simp only [Res.bind_eq_ok, Res.ok.injEq] at ho
  obtain ⟨s', hs', rfl⟩ := ho
  obtain ⟨s, hs, ets, -⟩ := erase_ok (m' := some ((List.range vs.length).map toId)) hs'
  obtain ⟨v2t, -, hA, hT, hmi, hml, -, hpos⟩ := h.start hs
  have hm : MergeInit (normalizeVerts vs).length (some ((List.range vs.length).map toId)) := by
    rw [hl]; exact mergeInit_range _ (by omega)
  have hfuel : 6 * (normalizeVerts vs).length + 10 ≤ fuel := by rw [hl]; exact h.fuel
  have hn : 2 * (normalizeVerts vs).length + 2 ≤ NONE := by rw [hl]; exact h.ids
  refine ⟨s, by rw [ets], hA.m.valid, hA.m.ok, hT, ?_, wrap_convex h.sep h.unit h.bins hn hfuel hm hs, ?_, hs⟩
  · intro P hP
    obtain ⟨v, hvP⟩ := List.mem_iff_getElem?.1 hP
    obtain ⟨w, hw⟩ : ∃ w, (s.merge.getD [])[v]? = some w := ⟨_, List.getElem?_eq_getElem (hml ▸ lt_of_getElem? hvP)⟩
    exact ⟨w, (hpos _ _ hw).trans hvP, (hmi v w hw).1⟩
  · intro k
    rcases wrap_total hne h.sep h.unit h.bins hn hfuel hm with hw | ⟨s2, done, ins, first, hw, hI, -, hf, -, hsteps⟩
    · rw [hs] at hw; simp at hw
    · rw [hs] at hw
      simp only [Res.ok.injEq] at hw
      subst hw
      exact steps_outer hsteps (initial_dinv hf h.ids_inf none (mergeInit_none _)).valid (initial_outer first k)

/-- The mesh of a boxed input. -/
theorem Good.boxMesh {fuel : Nat} {bins : Nat → Nat} {vs : List (Vtx K)} (h : Good fuel bins vs) {x0 x1 y0 y1 : K}
    (hf : Spec.Boxed vs x0 x1 y0 y1) {ts : List Tri} (hok : VertsIn (VOk (normalizeVerts vs).length) ts)
    (hocc : ∀ P ∈ vs, ∃ w : Nat, vs[w]? = some P ∧ Occ ts w) (hout : ∀ k : Fin 4, ∃ i, Ent ts i (INF0 + k) (INF0 + (k + 1 : Fin 4)) NONE) :
    BoxMesh (normalizeVerts vs) ts ((x0 - (bbox vs).1) / scaleFactor vs) ((y0 - (bbox vs).2.1) / scaleFactor vs)
      ((x1 - x0) / scaleFactor vs) ((y1 - y0) / scaleFactor vs) := by
  have hl : (normalizeVerts vs).length = vs.length := by rw [normalizeVerts_eq]; simp
  have hni := h.ids_inf
  have hs := h.scale
  obtain ⟨hx, hy, m00, m01, m10, m11, hin⟩ := hf
  refine ⟨div_pos (by linarith) hs, div_pos (by linarith) hs, ?_, ?_, hout⟩
  · intro q hq fq
    have : q < vs.length := by rw [← hl]; exact (occ_vok hok hq).resolve_right (by omega)
    obtain ⟨P, gP, -⟩ := getI_lt this
    rw [hp_norm_eq hni gP]
    exact toNorm_box hs (hin P (List.mem_of_getElem? gP))
  · intro i j
    have hm : (⟨cond i x1 x0, cond j y1 y0⟩ : Vtx K) ∈ vs := by cases i <;> cases j <;> assumption
    obtain ⟨w, gw, ow⟩ := hocc _ hm
    refine ⟨w, ow, by have := lt_of_getElem? gw; omega, ?_⟩
    rw [hp_norm_eq hni gw, toNorm_crn vs x0 x1 y0 y1 hs.ne']

/-- Sides without a neighbor are on the border of the rectangle. -/
theorem C77_sides (fuel : Nat) (bins : Nat → Nat) (vs : List (Vtx K)) (h : Good fuel bins vs) (x0 x1 y0 y1 : K)
    (hf : Spec.Boxed vs x0 x1 y0 y1) (out : List Out) (ho : triangulation2d fuel bins vs = .ok out) :
    Spec.HullSides vs out := by
  have hl : (normalizeVerts vs).length = vs.length := by rw [normalizeVerts_eq]; simp
  have hni := h.ids_inf
  have hscale := h.scale
  have hs2 : 0 < scaleFactor vs ^ 2 := by positivity
  obtain ⟨s, rfl, hv, hok, hT, hocc, hC, hout, -⟩ := h.chains hf.three ho
  have hB := h.boxMesh hf hok hocc hout
  intro t ht a b c hc A B gA gB
  have hle : ∀ {a : Nat} {A : Vtx K}, vs[a]? = some A → a < INF0 := fun ha => by have := lt_of_getElem? ha; omega
  obtain ⟨T, hTm, hTf, rfl⟩ := mem_filterSeq ht
  obtain ⟨i, hTi⟩ := List.mem_iff_getElem?.1 hTm
  have hent : ∃ j, Ent s.ts i a b j := by
    rcases cornersOf_verts hc with ⟨rfl, rfl, rfl⟩ | ⟨rfl, rfl, rfl⟩ | ⟨rfl, rfl, rfl⟩
    · exact ⟨_, T, hTi, has_0 T⟩
    · exact ⟨_, T, hTi, has_2 T⟩
    · exact ⟨_, T, hTi, has_1 T⟩
  obtain ⟨j, hj⟩ := hent
  have fa := hle gA
  have fb := hle gB
  obtain ⟨hjn, hji⟩ : j ≠ NONE ∧ Ent s.ts j b a i := by
    rcases hv.adj i a b j hj with ⟨-, h1, -⟩ | h1
    · exact absurd fa h1
    · exact h1
  obtain ⟨U, hUj, hhU⟩ := id hji
  obtain ⟨d, j2, j3, hR⟩ := hhU.rot
  by_cases fd : d < INF0
  · refine .inl ⟨U.verts, ?_, d, ?_⟩
    · rw [filterSeq_eq_map, List.mem_map]
      refine ⟨U, List.mem_filter.2 ⟨List.mem_of_getElem? hUj, ?_⟩, rfl⟩
      rcases hR with rfl | rfl | rfl <;> simp [Tri.isFinite, isFin_iff, fa, fb, fd]
    · rcases hR with rfl | rfl | rfl
      · exact .inl rfl
      · exact .inr (.inr rfl)
      · exact .inr (.inl rfl)
  · refine .inr fun p hp => ?_
    have hTri : TriIn s.ts b a d := ⟨j, U, _, _, _, hUj, hR⟩
    obtain ⟨k, hk⟩ := inf_id hok hni hTri.next.next.occ fd
    have := (hB.below hv hT hC hTri fb fa hk (P := HP.ofVtx (toNorm vs p)) rfl (toNorm_box hscale (hf.2.2.2.2.2.2 p hp))).1
    rw [side_norm hscale hni gB gA, neg_nonpos] at this
    have := (div_nonneg_iff.1 this).resolve_right (by rintro ⟨-, h⟩; linarith)
    rw [area2_swap]; linarith [this.1]

/-- **C77**. Every point strictly inside the rectangle is in a triangle. -/
theorem C77_covers (fuel : Nat) (bins : Nat → Nat) (vs : List (Vtx K)) (h : Good fuel bins vs) (x0 x1 y0 y1 : K)
    (hf : Spec.Boxed vs x0 x1 y0 y1) (out : List Out) (ho : triangulation2d fuel bins vs = .ok out) :
    Spec.Covers vs out x0 x1 y0 y1 := by
  have hl : (normalizeVerts vs).length = vs.length := by rw [normalizeVerts_eq]; simp
  have hni := h.ids_inf
  have hscale := h.scale
  have hs2 : 0 < scaleFactor vs ^ 2 := by positivity
  obtain ⟨s, rfl, hv, hok, hT, hocc, hC, hout, -⟩ := h.chains hf.three ho
  have hB := h.boxMesh hf hok hocc hout
  intro q q1 q2 q3 q4
  have hlt := toNorm_box_lt hscale ⟨q1, q2, q3, q4⟩
  have hle := toNorm_box hscale ⟨q1.le, q2.le, q3.le, q4.le⟩
  obtain ⟨i, T, hTi, k1, k2, k3⟩ := hT.closed (g := HP.ofVtx (toNorm vs q)) rfl
  -- no unbounded triangle
  have far : ∀ {a b z : Nat}, TriIn s.ts a b z → 0 ≤ HP.o (hp (normalizeVerts vs) a) (hp (normalizeVerts vs) b) (HP.ofVtx (toNorm vs q)) →
      0 ≤ HP.o (hp (normalizeVerts vs) b) (hp (normalizeVerts vs) z) (HP.ofVtx (toNorm vs q)) →
      0 ≤ HP.o (hp (normalizeVerts vs) z) (hp (normalizeVerts vs) a) (HP.ofVtx (toNorm vs q)) → z < INF0 := by
    intro a b z hTr h1 h2 h3
    by_contra fz
    exact hB.no_far hv hT hC (fun q => inf_id hok hni) hTr fz rfl hlt h1 h2 h3
  have t0 := triIn_get hTi
  have f3 := far t0 k1 k2 k3
  have f1 := far t0.next k2 k3 k1
  have f2 := far t0.next.next k3 k1 k2
  have get : ∀ {a : Nat}, Occ s.ts a → a < INF0 → ∃ A, vs[a]? = some A := fun ha fa => by
    obtain ⟨P, gP, -⟩ := getI_lt (show _ < vs.length by rw [← hl]; exact (occ_vok hok ha).resolve_right (by omega))
    exact ⟨P, gP⟩
  obtain ⟨A, gA⟩ := get t0.occ f1
  obtain ⟨B, gB⟩ := get t0.next.occ f2
  obtain ⟨C, gC⟩ := get t0.next.next.occ f3
  refine ⟨T.verts, ?_, A, B, C, gA, gB, gC, ?_⟩
  · rw [filterSeq_eq_map, List.mem_map]
    exact ⟨T, List.mem_filter.2 ⟨List.mem_of_getElem? hTi, by simp [Tri.isFinite, isFin_iff, f1, f2, f3]⟩, rfl⟩
  · have conv : ∀ {a b : Nat} {X Y : Vtx K}, vs[a]? = some X → vs[b]? = some Y →
        0 ≤ HP.o (hp (normalizeVerts vs) a) (hp (normalizeVerts vs) b) (HP.ofVtx (toNorm vs q)) → area2 X Y q ≤ 0 := by
      intro a b X Y gX gY hh
      rw [side_norm hscale hni gX gY, neg_nonneg] at hh
      by_contra hc
      have := div_pos (not_le.1 hc) hs2
      linarith
    exact ⟨conv gA gB k1, conv gB gC k2, conv gC gA k3⟩

theorem C77_nonempty (fuel : Nat) (bins : Nat → Nat) (vs : List (Vtx K)) (h : Good fuel bins vs) (x0 x1 y0 y1 : K)
    (hf : Spec.Boxed vs x0 x1 y0 y1) (out : List Out) (ho : triangulation2d fuel bins vs = .ok out) : out ≠ [] := by
  obtain ⟨hx, hy, -⟩ := id hf
  obtain ⟨o, ho, -⟩ := C77_covers fuel bins vs h x0 x1 y0 y1 hf out ho ⟨(x0 + x1) / 2, (y0 + y1) / 2⟩
    (by simp only; linarith) (by simp only; linarith) (by simp only; linarith) (by simp only; linarith)
  exact List.ne_nil_of_mem ho

/-- **C77**. The same for the closed rectangle, as the convex hull of the vertices. -/
theorem C77_covers_closed (fuel : Nat) (bins : Nat → Nat) (vs : List (Vtx K)) (h : Good fuel bins vs) (x0 x1 y0 y1 : K)
    (hf : Spec.Boxed vs x0 x1 y0 y1) (out : List Out) (ho : triangulation2d fuel bins vs = .ok out) : Spec.CoversConvex vs out :=
  C74_covers fuel bins vs h out ho (C77_nonempty fuel bins vs h x0 x1 y0 y1 hf out ho) (C77_sides fuel bins vs h x0 x1 y0 y1 hf out ho)

/-- **C77**. The result is a Delaunay triangulation unless two neighboring triangles violate the condition. -/
theorem C77_delaunay_iff (fuel : Nat) (bins : Nat → Nat) (vs : List (Vtx K)) (h : Good fuel bins vs) (x0 x1 y0 y1 : K)
    (hf : Spec.Boxed vs x0 x1 y0 y1) (out : List Out) (ho : triangulation2d fuel bins vs = .ok out) :
    Spec.LocallyDelaunay vs [] out ↔ Spec.Delaunay vs out := by
  have := C74_certificate fuel bins vs h out ho (C77_nonempty fuel bins vs h x0 x1 y0 y1 hf out ho)
  have h1 := C77_sides fuel bins vs h x0 x1 y0 y1 hf out ho
  have h2 := C77_covers_closed fuel bins vs h x0 x1 y0 y1 hf out ho
  exact ⟨fun hl => (this.1 ⟨h1, hl⟩).2, fun hd => (this.2 ⟨h2, hd⟩).2⟩

/-- **C77**. Constraints that do not cross and do not pass through vertices are accepted, whatever the bins and the order. -/
theorem C77_accepts (fuel : Nat) (bins : Nat → Nat) (vs : List (Vtx K)) (h : Good fuel bins vs) (hfuel : fuelFor vs.length ≤ fuel)
    (x0 x1 y0 y1 : K) (hf : Spec.Boxed vs x0 x1 y0 y1) (out0 : List Out) (h0 : triangulation2d fuel bins vs = .ok out0)
    (es : List Edge) (hc : Spec.ClearOfVertices vs es) (hx : Spec.NonCrossing vs es) :
    (∃ out, constrained2d fuel bins vs es = .ok out) ∧
    ∃ r, constrainedMesh fuel bins vs es = .ok r ∧ ∀ e ∈ es, ∀ A B, vs[e.src]? = some A → vs[e.dst]? = some B →
      ∃ a b : Nat, vs[a]? = some A ∧ vs[b]? = some B ∧ Spec.MeshEdge r.ts a b ∧ Spec.MeshEdge r.ts b a :=
  C74_accepts fuel bins vs h hfuel out0 h0 (C77_nonempty fuel bins vs h x0 x1 y0 y1 hf out0 h0)
    (C77_sides fuel bins vs h x0 x1 y0 y1 hf out0 h0) es hc hx

/-! ## Rounded arithmetic -/

/-- **C77** in rounded arithmetic (`f32`, `f64`) on robust inputs and on grids; `V` are the exact positions. -/
theorem C77_covers_rounded {F : Type} [FloatOps F] [Rounded F] (fuel : Nat) (bins : Nat → Nat) (vs : List (Vtx F))
    (V : List (Vtx ℚ)) (W : ℚ) (h : Rounded.RGood fuel bins vs V W) (x0 x1 y0 y1 : ℚ) (hf : Spec.Boxed V x0 x1 y0 y1) (out : List Out)
    (ho : triangulation2d fuel bins vs = .ok out) :
    Spec.Covers V out x0 x1 y0 y1 ∧ Spec.CoversConvex V out ∧ (Spec.LocallyDelaunay V [] out ↔ Spec.Delaunay V out) := by
  let P := Rounded.params F (bins vs.length) W (Rounded.scaleVal vs)
  rw [h.run] at ho
  exact ⟨C77_covers fuel bins V h.good x0 x1 y0 y1 hf out ho, C77_covers_closed fuel bins V h.good x0 x1 y0 y1 hf out ho,
    C77_delaunay_iff fuel bins V h.good x0 x1 y0 y1 hf out ho⟩

/-- **C77** for constraints in rounded arithmetic. -/
theorem C77_accepts_rounded {F : Type} [FloatOps F] [Rounded F] (fuel : Nat) (bins : Nat → Nat) (vs : List (Vtx F))
    (V : List (Vtx ℚ)) (W : ℚ) (h : Rounded.RGoodC fuel bins vs V W) (x0 x1 y0 y1 : ℚ) (hf : Spec.Boxed V x0 x1 y0 y1) (out0 : List Out)
    (h0 : triangulation2d fuel bins vs = .ok out0) (es : List Edge) (hc : Spec.ClearOfVertices V es) (hx : Spec.NonCrossing V es) :
    (∃ out, constrained2d fuel bins vs es = .ok out) ∧
    ∃ r, constrainedMesh fuel bins vs es = .ok r ∧ ∀ e ∈ es, ∀ A B, V[e.src]? = some A → V[e.dst]? = some B →
      ∃ a b : Nat, V[a]? = some A ∧ V[b]? = some B ∧ Spec.MeshEdge r.ts a b ∧ Spec.MeshEdge r.ts b a := by
  let P := Rounded.params F (bins vs.length) W (Rounded.scaleVal vs)
  rw [h.toRGood.run] at h0
  rw [h.run, h.mesh]
  exact C77_accepts fuel bins V h.good (by rw [h.len]; exact h.fuelC) x0 x1 y0 y1 hf out0 h0 es hc hx

end Main

section Example
open Rounded
local instance boxedCfg : IdCfg := u32Cfg

/-- Points in and on the sides of a square, and its corners, in no particular order. -/
def boxGrid : List (Int × Int) := [(0,0),(10,12),(11,7),(16,16),(6,2),(5,10),(0,16),(12,12),(16,9),(12,2),(16,0),(7,0),(0,5)]

theorem box_goodC : RGoodC (F := F64) 812 Witness.defaultBins (flPts binary64 boxGrid) (intPts boxGrid) (2 ^ 4) where
  toRGood := C44_grid boxGrid 4 (by decide) (by decide) (by decide) ⟨by norm_num, by decide +kernel, by decide +kernel⟩
    (by decide) (by decide +kernel) (by decide) (by decide)
  ray := by unfold Plane.ClearRays Plane.area2 Plane.axes; decide +kernel
  fuelC := by decide

theorem box_boxed : Spec.Boxed (intPts boxGrid) 0 16 0 16 := by
  refine ⟨by norm_num, by norm_num, ?_, ?_, ?_, ?_, ?_⟩ <;> decide +kernel

theorem box_run : ∃ out, triangulation2d (F := F64) 812 Witness.defaultBins (flPts binary64 boxGrid) = .ok out := by
  have h : ∀ r, triangulation2d (F := F64) 812 Witness.defaultBins (flPts binary64 boxGrid) = r → r.isOk = true → ∃ out,
      triangulation2d (F := F64) 812 Witness.defaultBins (flPts binary64 boxGrid) = .ok out := by
    rintro (out | _ | _) h1 h2
    · exact ⟨out, h1⟩
    all_goals simp [Res.isOk] at h2
  exact h _ rfl (by decide +kernel)

/-- The result with the two bins per side that the default density gives. -/
example : Witness.defaultBins 13 = 2 ∧ ∃ out, triangulation2d (F := F64) 812 Witness.defaultBins (flPts binary64 boxGrid) = .ok out ∧
    Spec.Covers (intPts boxGrid) out 0 16 0 16 := by
  obtain ⟨out, ho⟩ := box_run
  exact ⟨by decide +kernel, out, ho, (C77_covers_rounded 812 _ _ _ _ box_goodC.toRGood 0 16 0 16 box_boxed out ho).1⟩

/-- Constraints across the square. -/
example : ∃ out, constrained2d (F := F64) 812 Witness.defaultBins (flPts binary64 boxGrid) [⟨6, 8⟩, ⟨0, 9⟩, ⟨12, 2⟩] = .ok out := by
  obtain ⟨out, ho⟩ := box_run
  exact (C77_accepts_rounded 812 _ _ _ _ box_goodC 0 16 0 16 box_boxed out ho _ (clear_of_check (by decide +kernel))
    (nonCrossing_of_check (by decide +kernel))).1

end Example
end CDT

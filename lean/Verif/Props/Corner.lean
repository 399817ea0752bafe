import Verif.Geo.Corner
import Verif.Props.Boxed

/-! # C79: the convex hull is covered if the corners of the input have an extreme coordinate -/

set_option linter.unusedSectionVars false
set_option linter.unusedSimpArgs false
set_option linter.unusedVariables false

namespace CDT
open Plane

section Main
variable {K : Type} [Field K] [LinearOrder K] [IsStrictOrderedRing K] [ExactParams K] [IdCfg]

/-- `a` is at `b` or further in the direction that `up` says. -/
def Spec.Beyond (up : Bool) (a b : K) : Prop := if up then b ≤ a else a ≤ b

/-- In the diagonal direction `i`, `j`: a position with no other position at or beyond it in both coordinates has an extreme `x` or
an extreme `y` in that direction. -/
def Spec.CornerExtreme (vs : List (Vtx K)) (i j : Bool) : Prop :=
  ∀ v ∈ vs, (∀ p ∈ vs, Spec.Beyond i p.x v.x → Spec.Beyond j p.y v.y → p = v) →
    (∀ p ∈ vs, Spec.Beyond i v.x p.x) ∨ (∀ p ∈ vs, Spec.Beyond j v.y p.y)

/-- In each of the four diagonal directions. -/
def Spec.CornersExtreme (vs : List (Vtx K)) : Prop := ∀ i j : Bool, Spec.CornerExtreme vs i j

/-- Not all vertices are on a line. -/
def Spec.NotOnLine (vs : List (Vtx K)) : Prop := ∃ A ∈ vs, ∃ B ∈ vs, ∃ C ∈ vs, area2 A B C ≠ 0

/-- Inputs with the corners of their bounding rectangle (C77) are of this kind. -/
theorem Spec.Boxed.cornersExtreme {vs : List (Vtx K)} {x0 x1 y0 y1 : K} (hf : Spec.Boxed vs x0 x1 y0 y1) : Spec.CornersExtreme vs := by
  obtain ⟨hx, hy, m00, m01, m10, m11, hin⟩ := hf
  intro i j v hv he
  obtain ⟨v1, v2, v3, v4⟩ := hin v hv
  have hc : (⟨cond i x1 x0, cond j y1 y0⟩ : Vtx K) ∈ vs := by cases i <;> cases j <;> assumption
  have e := he _ hc (by cases i <;> simpa [Spec.Beyond]) (by cases j <;> simpa [Spec.Beyond])
  subst e
  left
  intro p hp
  obtain ⟨p1, p2, p3, p4⟩ := hin p hp
  cases i <;> simpa [Spec.Beyond]

/-- The quadrants in the order of the artificial vertices. -/
def quadX (k : Fin 4) : Bool := (quadCorner k).1
def quadY (k : Fin 4) : Bool := (quadCorner k).2

theorem beyond_norm {vs : List (Vtx K)} (hs : 0 < scaleFactor vs) (k : Fin 4) (p q : Vtx K) :
    ((HP.dir k).out (HP.ofVtx (toNorm vs p)) ≤ (HP.dir k).out (HP.ofVtx (toNorm vs q)) ∧
      (HP.dir (k + 1)).out (HP.ofVtx (toNorm vs p)) ≤ (HP.dir (k + 1)).out (HP.ofVtx (toNorm vs q))) ↔
    Spec.Beyond (quadX k) q.x p.x ∧ Spec.Beyond (quadY k) q.y p.y := by
  have d : ∀ a b c : K, (a - c) / scaleFactor vs ≤ (b - c) / scaleFactor vs ↔ a ≤ b := fun a b c => by
    rw [div_le_div_iff_of_pos_right hs]; constructor <;> intro h <;> linarith
  fin_cases k <;> simp [HP.out, HP.dir, HP.ofVtx, toNorm, quadX, quadY, quadCorner, Spec.Beyond, d, and_comm]

theorem extreme_norm {vs : List (Vtx K)} (hs : 0 < scaleFactor vs) (k : Fin 4) (v : Vtx K)
    (h : (∀ p ∈ vs, Spec.Beyond (quadX k) v.x p.x) ∨ (∀ p ∈ vs, Spec.Beyond (quadY k) v.y p.y)) :
    (∀ p ∈ vs, (HP.dir k).out (HP.ofVtx (toNorm vs p)) ≤ (HP.dir k).out (HP.ofVtx (toNorm vs v))) ∨
    (∀ p ∈ vs, (HP.dir (k + 1)).out (HP.ofVtx (toNorm vs p)) ≤ (HP.dir (k + 1)).out (HP.ofVtx (toNorm vs v))) := by
  have d : ∀ a b c : K, (a - c) / scaleFactor vs ≤ (b - c) / scaleFactor vs ↔ a ≤ b := fun a b c => by
    rw [div_le_div_iff_of_pos_right hs]; constructor <;> intro h <;> linarith
  fin_cases k <;> simp [HP.out, HP.dir, HP.ofVtx, toNorm, quadX, quadY, quadCorner, Spec.Beyond, d] at h ⊢ <;> tauto

theorem Good.extreme {fuel : Nat} {bins : Nat → Nat} {vs : List (Vtx K)} (h : Good fuel bins vs) {k : Fin 4}
    (hf : Spec.CornerExtreme vs (quadX k) (quadY k)) {ts : List Tri} (hok : VertsIn (VOk (normalizeVerts vs).length) ts)
    (hocc : ∀ P ∈ vs, ∃ w : Nat, vs[w]? = some P ∧ Occ ts w) : Extreme (normalizeVerts vs) ts k := by
  have hl : (normalizeVerts vs).length = vs.length := by rw [normalizeVerts_eq]; simp
  have hni := h.ids_inf
  have hs := h.scale
  have get : ∀ {a : Nat}, Occ ts a → a < INF0 → ∃ A ∈ vs, hp (normalizeVerts vs) a = HP.ofVtx (toNorm vs A) := fun ha fa => by
    obtain ⟨P, gP, -⟩ := getI_lt (show _ < vs.length by rw [← hl]; exact (occ_vok hok ha).resolve_right (by omega))
    exact ⟨P, List.mem_of_getElem? gP, hp_norm_eq hni gP⟩
  intro v ov fv he
  obtain ⟨A, mA, eA⟩ := get ov fv
  have := extreme_norm hs k A (hf A mA fun P hP h1 h2 => ?_)
  · rw [eA]
    refine this.imp (fun h q oq fq => ?_) (fun h q oq fq => ?_)
    all_goals
      obtain ⟨B, mB, eB⟩ := get oq fq
      rw [eB]
      exact h B mB
  · obtain ⟨w, gw, ow⟩ := hocc P hP
    have lw := lt_of_getElem? gw
    have ew := hp_norm_eq hni gw
    obtain ⟨q1, q2⟩ := (beyond_norm hs k A P).2 ⟨h1, h2⟩
    have : w = v := he w ow (by omega) (by rw [eA, ew]; exact q1) (by rw [eA, ew]; exact q2)
    subst this
    rw [eA] at ew
    have ew : toNorm vs A = toNorm vs P := by
      simp only [HP.ofVtx, HP.mk.injEq] at ew
      obtain ⟨e1, e2, -⟩ := ew
      cases hA : toNorm vs A; cases hP : toNorm vs P
      rw [hA, hP] at e1 e2
      exact congrArg₂ Vtx.mk e1 e2
    exact (toNorm_inj hs.ne' ew).symm

theorem Good.cornerMesh {fuel : Nat} {bins : Nat → Nat} {vs : List (Vtx K)} (h : Good fuel bins vs) (hf : Spec.CornersExtreme vs)
    {ts : List Tri} (hok : VertsIn (VOk (normalizeVerts vs).length) ts) (hocc : ∀ P ∈ vs, ∃ w : Nat, vs[w]? = some P ∧ Occ ts w)
    (hout : ∀ k : Fin 4, ∃ i, Ent ts i (INF0 + k) (INF0 + (k + 1 : Fin 4)) NONE) : CornerMesh (normalizeVerts vs) ts :=
  ⟨hout, fun k => h.extreme (hf _ _) hok hocc⟩

/-- Sides without a neighbor are on the border of the convex hull. -/
theorem C79_sides (fuel : Nat) (bins : Nat → Nat) (vs : List (Vtx K)) (h : Good fuel bins vs) (h3 : 3 ≤ vs.length) (hf : Spec.CornersExtreme vs)
    (out : List Out) (ho : triangulation2d fuel bins vs = .ok out) : Spec.HullSides vs out := by
  have hl : (normalizeVerts vs).length = vs.length := by rw [normalizeVerts_eq]; simp
  have hni := h.ids_inf
  have hscale := h.scale
  have hs2 : 0 < scaleFactor vs ^ 2 := by positivity
  obtain ⟨s, rfl, hv, hok, hT, hocc, hC, hout, -⟩ := h.chains h3 ho
  have hB := h.cornerMesh hf hok hocc hout
  intro t ht a b c hc A B gA gB
  have hle : ∀ {a : Nat} {A : Vtx K}, vs[a]? = some A → a < INF0 := fun ha => by have := lt_of_getElem? ha; omega
  obtain ⟨T, hTm, hTf, rfl⟩ := mem_filterSeq ht
  obtain ⟨i, hTi⟩ := List.mem_iff_getElem?.1 hTm
  have hent : ∃ j, Ent s.ts i a b j := by
    rcases cornersOf_verts hc with ⟨rfl, rfl, rfl⟩ | ⟨rfl, rfl, rfl⟩ | ⟨rfl, rfl, rfl⟩
    · exact ⟨_, T, hTi, has_0 T⟩
    · exact ⟨_, T, hTi, has_2 T⟩
    · exact ⟨_, T, hTi, has_1 T⟩
  obtain ⟨j, hj⟩ := hent
  have fa := hle gA
  have fb := hle gB
  obtain ⟨hjn, hji⟩ : j ≠ NONE ∧ Ent s.ts j b a i := by
    rcases hv.adj i a b j hj with ⟨-, h1, -⟩ | h1
    · exact absurd fa h1
    · exact h1
  obtain ⟨U, hUj, hhU⟩ := id hji
  obtain ⟨d, j2, j3, hR⟩ := hhU.rot
  by_cases fd : d < INF0
  · refine .inl ⟨U.verts, ?_, d, ?_⟩
    · rw [filterSeq_eq_map, List.mem_map]
      refine ⟨U, List.mem_filter.2 ⟨List.mem_of_getElem? hUj, ?_⟩, rfl⟩
      rcases hR with rfl | rfl | rfl <;> simp [Tri.isFinite, isFin_iff, fa, fb, fd]
    · rcases hR with rfl | rfl | rfl
      · exact .inl rfl
      · exact .inr (.inr rfl)
      · exact .inr (.inl rfl)
  · refine .inr fun p hp => ?_
    have hTri : TriIn s.ts b a d := ⟨j, U, _, _, _, hUj, hR⟩
    obtain ⟨k, rfl⟩ := inf_id hok hni hTri.next.next.occ fd
    obtain ⟨w, gw, ow⟩ := hocc p hp
    have := hB.below hv hT hC (fun q => inf_id hok hni) hTri fb fa ow (hle gw)
    rw [hp_norm_eq hni gw, side_norm hscale hni gB gA, neg_nonpos] at this
    have := (div_nonneg_iff.1 this).resolve_right (by rintro ⟨-, h⟩; linarith)
    rw [area2_swap]; linarith [this.1]

/-- There is a triangle unless all vertices are on a line. -/
theorem C79_nonempty (fuel : Nat) (bins : Nat → Nat) (vs : List (Vtx K)) (h : Good fuel bins vs) (h3 : 3 ≤ vs.length) (hf : Spec.CornersExtreme vs)
    (hl : Spec.NotOnLine vs) (out : List Out) (ho : triangulation2d fuel bins vs = .ok out) : out ≠ [] := by
  have hl' : (normalizeVerts vs).length = vs.length := by rw [normalizeVerts_eq]; simp
  have hni := h.ids_inf
  have hscale := h.scale
  have hs2 : 0 < scaleFactor vs ^ 2 := by positivity
  obtain ⟨s, rfl, hv, hok, hT, hocc, hC, hout, -⟩ := h.chains h3 ho
  have hB := h.cornerMesh hf hok hocc hout
  have hle : ∀ {a : Nat} {A : Vtx K}, vs[a]? = some A → a < INF0 := fun ha => by have := lt_of_getElem? ha; omega
  obtain ⟨A, mA, B, mB, C, mC, hne⟩ := hl
  obtain ⟨a, gA, oA⟩ := hocc A mA
  obtain ⟨b, gB, oB⟩ := hocc B mB
  obtain ⟨c, gC, oC⟩ := hocc C mC
  obtain ⟨x, y, z, ⟨i, T, _, _, _, hTi, hR⟩, f1, f2, f3⟩ := hB.finite hv hT hC (fun q => inf_id hok hni) oA oB oC (hle gA) (hle gB) (hle gC) (by
    rw [hp_norm_eq hni gC, side_norm hscale hni gA gB]
    exact neg_ne_zero.2 (div_ne_zero hne hs2.ne'))
  refine List.ne_nil_of_mem (a := T.verts) ?_
  rw [filterSeq_eq_map, List.mem_map]
  refine ⟨T, List.mem_filter.2 ⟨List.mem_of_getElem? hTi, ?_⟩, rfl⟩
  rcases hR with rfl | rfl | rfl <;> simp [Tri.isFinite, isFin_iff, f1, f2, f3]

theorem Spec.NotOnLine.three {vs : List (Vtx K)} (hl : Spec.NotOnLine vs) : 3 ≤ vs.length := by
  obtain ⟨A, mA, B, mB, C, mC, hne⟩ := hl
  have hnd : [A, B, C].Nodup := by
    simp only [List.nodup_cons, List.mem_cons, List.not_mem_nil, or_false, not_or, not_false_eq_true, List.nodup_nil, and_true]
    refine ⟨⟨?_, ?_⟩, ?_⟩ <;> rintro rfl <;> exact hne (by simp only [area2]; ring)
  have := (List.subperm_of_subset hnd (l₂ := vs) (by
    intro p hp
    simp only [List.mem_cons, List.not_mem_nil, or_false] at hp
    rcases hp with rfl | rfl | rfl <;> assumption)).length_le
  simpa using this

/-- **C79**. The convex hull is covered, whatever the bins and the order of the vertices. -/
theorem C79_covers (fuel : Nat) (bins : Nat → Nat) (vs : List (Vtx K)) (h : Good fuel bins vs) (hf : Spec.CornersExtreme vs)
    (hl : Spec.NotOnLine vs) (out : List Out) (ho : triangulation2d fuel bins vs = .ok out) : Spec.CoversConvex vs out :=
  C74_covers fuel bins vs h out ho (C79_nonempty fuel bins vs h hl.three hf hl out ho) (C79_sides fuel bins vs h hl.three hf out ho)

/-- **C79**, the other way around: where a point of the convex hull is not covered, one of the corners has no extreme coordinate. -/
theorem C79_uncovered (fuel : Nat) (bins : Nat → Nat) (vs : List (Vtx K)) (h : Good fuel bins vs) (hl : Spec.NotOnLine vs) (out : List Out)
    (ho : triangulation2d fuel bins vs = .ok out) (q : Vtx K) (hq : Spec.InHull vs q) (hc : ¬ Spec.Covered vs out q) :
    ∃ (i j : Bool), ∃ v ∈ vs, (∀ p ∈ vs, Spec.Beyond i p.x v.x → Spec.Beyond j p.y v.y → p = v) ∧
      (∃ p ∈ vs, ¬ Spec.Beyond i v.x p.x) ∧ ∃ p ∈ vs, ¬ Spec.Beyond j v.y p.y := by
  by_contra hn
  refine hc (C79_covers fuel bins vs h ?_ hl out ho q hq)
  intro i j v hv he
  by_contra hx
  rw [not_or] at hx
  push Not at hx
  exact hn ⟨i, j, v, hv, he, hx.1, hx.2⟩

/-- **C79**. The result is a Delaunay triangulation unless two neighboring triangles violate the condition. -/
theorem C79_delaunay_iff (fuel : Nat) (bins : Nat → Nat) (vs : List (Vtx K)) (h : Good fuel bins vs) (hf : Spec.CornersExtreme vs)
    (hl : Spec.NotOnLine vs) (out : List Out) (ho : triangulation2d fuel bins vs = .ok out) :
    Spec.LocallyDelaunay vs [] out ↔ Spec.Delaunay vs out := by
  have := C74_certificate fuel bins vs h out ho (C79_nonempty fuel bins vs h hl.three hf hl out ho)
  have h1 := C79_sides fuel bins vs h hl.three hf out ho
  have h2 := C79_covers fuel bins vs h hf hl out ho
  exact ⟨fun hl => (this.1 ⟨h1, hl⟩).2, fun hd => (this.2 ⟨h2, hd⟩).2⟩

/-- **C79**. Constraints that do not cross and do not pass through vertices are accepted. -/
theorem C79_accepts (fuel : Nat) (bins : Nat → Nat) (vs : List (Vtx K)) (h : Good fuel bins vs) (hfuel : fuelFor vs.length ≤ fuel)
    (hf : Spec.CornersExtreme vs) (hl : Spec.NotOnLine vs) (out0 : List Out) (h0 : triangulation2d fuel bins vs = .ok out0)
    (es : List Edge) (hc : Spec.ClearOfVertices vs es) (hx : Spec.NonCrossing vs es) :
    (∃ out, constrained2d fuel bins vs es = .ok out) ∧
    ∃ r, constrainedMesh fuel bins vs es = .ok r ∧ ∀ e ∈ es, ∀ A B, vs[e.src]? = some A → vs[e.dst]? = some B →
      ∃ a b : Nat, vs[a]? = some A ∧ vs[b]? = some B ∧ Spec.MeshEdge r.ts a b ∧ Spec.MeshEdge r.ts b a :=
  C74_accepts fuel bins vs h hfuel out0 h0 (C79_nonempty fuel bins vs h hl.three hf hl out0 h0)
    (C79_sides fuel bins vs h hl.three hf out0 h0) es hc hx

/-! ## Rounded arithmetic -/

/-- **C79** in rounded arithmetic (`f32`, `f64`) on robust inputs and on grids; `V` are the exact positions. -/
theorem C79_covers_rounded {F : Type} [FloatOps F] [Rounded F] (fuel : Nat) (bins : Nat → Nat) (vs : List (Vtx F))
    (V : List (Vtx ℚ)) (W : ℚ) (h : Rounded.RGood fuel bins vs V W) (hf : Spec.CornersExtreme V) (hl : Spec.NotOnLine V) (out : List Out)
    (ho : triangulation2d fuel bins vs = .ok out) :
    Spec.CoversConvex V out ∧ (Spec.LocallyDelaunay V [] out ↔ Spec.Delaunay V out) := by
  let P := Rounded.params F (bins vs.length) W (Rounded.scaleVal vs)
  rw [h.run] at ho
  exact ⟨C79_covers fuel bins V h.good hf hl out ho, C79_delaunay_iff fuel bins V h.good hf hl out ho⟩

/-- **C79** for constraints in rounded arithmetic. -/
theorem C79_accepts_rounded {F : Type} [FloatOps F] [Rounded F] (fuel : Nat) (bins : Nat → Nat) (vs : List (Vtx F))
    (V : List (Vtx ℚ)) (W : ℚ) (h : Rounded.RGoodC fuel bins vs V W) (hf : Spec.CornersExtreme V) (hl : Spec.NotOnLine V) (out0 : List Out)
    (h0 : triangulation2d fuel bins vs = .ok out0) (es : List Edge) (hc : Spec.ClearOfVertices V es) (hx : Spec.NonCrossing V es) :
    (∃ out, constrained2d fuel bins vs es = .ok out) ∧
    ∃ r, constrainedMesh fuel bins vs es = .ok r ∧ ∀ e ∈ es, ∀ A B, V[e.src]? = some A → V[e.dst]? = some B →
      ∃ a b : Nat, V[a]? = some A ∧ V[b]? = some B ∧ Spec.MeshEdge r.ts a b ∧ Spec.MeshEdge r.ts b a := by
  let P := Rounded.params F (bins vs.length) W (Rounded.scaleVal vs)
  rw [h.toRGood.run] at h0
  rw [h.run, h.mesh]
  exact C79_accepts fuel bins V h.good (by rw [h.len]; exact h.fuelC) hf hl out0 h0 es hc hx

end Main

section Example
open Rounded
local instance cornerCfg : IdCfg := u32Cfg

/-- A quadrilateral that is not parallel to the axes, with points in it; no corner of the bounding rectangle is a vertex. -/
def cornerGrid : List (Int × Int) := [(0,3),(10,12),(11,7),(2,16),(6,5),(5,10),(16,13),(12,12),(14,9),(12,4),(14,0)]

theorem corner_goodC : RGoodC (F := F64) 700 Witness.defaultBins (flPts binary64 cornerGrid) (intPts cornerGrid) (2 ^ 4) where
  toRGood := C44_grid cornerGrid 4 (by decide) (by decide) (by decide) ⟨by norm_num, by decide +kernel, by decide +kernel⟩
    (by decide) (by decide +kernel) (by decide) (by decide)
  ray := by unfold Plane.ClearRays Plane.area2 Plane.axes; decide +kernel
  fuelC := by decide

theorem corner_extreme : Spec.CornersExtreme (intPts cornerGrid) := by
  unfold Spec.CornersExtreme Spec.CornerExtreme Spec.Beyond
  decide +kernel

theorem corner_line : Spec.NotOnLine (intPts cornerGrid) := by
  unfold Spec.NotOnLine Plane.area2
  decide +kernel

theorem corner_run : ∃ out, triangulation2d (F := F64) 700 Witness.defaultBins (flPts binary64 cornerGrid) = .ok out := by
  have h : ∀ r, triangulation2d (F := F64) 700 Witness.defaultBins (flPts binary64 cornerGrid) = r → r.isOk = true → ∃ out,
      triangulation2d (F := F64) 700 Witness.defaultBins (flPts binary64 cornerGrid) = .ok out := by
    rintro (out | _ | _) h1 h2
    · exact ⟨out, h1⟩
    all_goals simp [Res.isOk] at h2
  exact h _ rfl (by decide +kernel)

/-- The convex hull, which is not a rectangle, is covered. -/
example : ∃ out, triangulation2d (F := F64) 700 Witness.defaultBins (flPts binary64 cornerGrid) = .ok out ∧
    Spec.CoversConvex (intPts cornerGrid) out := by
  obtain ⟨out, ho⟩ := corner_run
  exact ⟨out, ho, (C79_covers_rounded 700 _ _ _ _ corner_goodC.toRGood corner_extreme corner_line out ho).1⟩

/-- Constraints across it. -/
example : ∃ out, constrained2d (F := F64) 700 Witness.defaultBins (flPts binary64 cornerGrid) [⟨0, 6⟩, ⟨3, 1⟩] = .ok out := by
  obtain ⟨out, ho⟩ := corner_run
  exact (C79_accepts_rounded 700 _ _ _ _ corner_goodC corner_extreme corner_line out ho _ (clear_of_check (by decide +kernel))
    (nonCrossing_of_check (by decide +kernel))).1

end Example
end CDT

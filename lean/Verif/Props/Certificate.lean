import Verif.Geo.Certificate
import Verif.Props.Covering

/-! # C74: a test that decides whether a result is the Delaunay triangulation of the whole convex hull -/

set_option linter.unusedSectionVars false
set_option linter.unusedSimpArgs false
set_option linter.unusedVariables false

namespace CDT
open Plane

section Main
variable {K : Type} [Field K] [LinearOrder K] [IsStrictOrderedRing K] [ExactParams K] [IdCfg]

theorem cornersOf_verts {T : Tri} {a b c : Nat} (h : Spec.CornersOf T.verts a b c) :
    (T.v1 = a ∧ T.v2 = b ∧ T.v3 = c) ∨ (T.v1 = b ∧ T.v2 = c ∧ T.v3 = a) ∨ (T.v1 = c ∧ T.v2 = a ∧ T.v3 = b) := by
  rcases h with h | h | h <;> simp only [Tri.verts, Prod.mk.injEq] at h <;> tauto

/-- What is needed of a successful run without constraints. -/
theorem Good.result {fuel : Nat} {bins : Nat → Nat} {vs : List (Vtx K)} (h : Good fuel bins vs) {out : List Out}
    (ho : triangulation2d fuel bins vs = .ok out) (hne : out ≠ []) :
    ∃ s : DT, out = filterSeq s.ts ∧ Valid (hp (normalizeVerts vs)) s.ts ∧ VertsIn (VOk (normalizeVerts vs).length) s.ts ∧
      Tiled (normalizeVerts vs) s.ts ∧ ∀ P ∈ vs, ∃ w : Nat, vs[w]? = some P ∧ Occ s.ts w := by
  have h3 : ¬ vs.length < 3 := by
    intro hlt
    unfold triangulation2d at ho
    rw [if_pos hlt] at ho
    simp only [Res.ok.injEq] at ho
    exact hne ho.symm
  unfold triangulation2d at ho
  rw [if_neg h3] at ho
  simp only [Res.bind_eq_ok, Res.ok.injEq] at ho
  obtain ⟨s', hs', rfl⟩ := ho
  obtain ⟨s, hs, ets, -⟩ := erase_ok (m' := some ((List.range vs.length).map toId)) hs'
  obtain ⟨v2t, -, hA, hT, hmi, hml, -, hpos⟩ := h.start hs
  refine ⟨s, by rw [ets], hA.m.valid, hA.m.ok, hT, ?_⟩
  intro P hP
  obtain ⟨v, hvP⟩ := List.mem_iff_getElem?.1 hP
  obtain ⟨w, hw⟩ : ∃ w, (s.merge.getD [])[v]? = some w := ⟨_, List.getElem?_eq_getElem (hml ▸ lt_of_getElem? hvP)⟩
  exact ⟨w, (hpos _ _ hw).trans hvP, (hmi v w hw).1⟩

/-- The triangles of a result: real, clockwise, and with no vertex in them. -/
theorem Good.tris {fuel : Nat} {bins : Nat → Nat} {vs : List (Vtx K)} (h : Good fuel bins vs) {out : List Out}
    (ho : triangulation2d fuel bins vs = .ok out) :
    (∀ t ∈ out, ∀ a b c A B C, Spec.CornersOf t a b c → vs[a]? = some A → vs[b]? = some B → vs[c]? = some C → Clockwise A B C) ∧
    (∀ t ∈ out, ∀ a b c, Spec.CornersOf t a b c → ∃ C, vs[c]? = some C) ∧
    ∀ t ∈ out, ∀ a b c A B C P, Spec.CornersOf t a b c → vs[a]? = some A → vs[b]? = some B → vs[c]? = some C → P ∈ vs →
      InClosedTriangle A B C P → P = A ∨ P = B ∨ P = C := by
  have key : ∀ t ∈ out, ∃ A B C, vs[t.1]? = some A ∧ vs[t.2.1]? = some B ∧ vs[t.2.2]? = some C ∧ Clockwise A B C := fun t ht =>
    C03_clockwise fuel bins vs h out ho t.1 t.2.1 t.2.2 ht
  refine ⟨?_, ?_, ?_⟩
  · intro t ht a b c A B C hc gA gB gC
    obtain ⟨A', B', C', g1, g2, g3, hcw⟩ := key t ht
    rcases hc with rfl | rfl | rfl
    · rw [gA] at g1; rw [gB] at g2; rw [gC] at g3; cases g1; cases g2; cases g3; exact hcw
    · rw [gB] at g1; rw [gC] at g2; rw [gA] at g3; cases g1; cases g2; cases g3
      unfold Clockwise area2 at hcw ⊢; linarith
    · rw [gC] at g1; rw [gA] at g2; rw [gB] at g3; cases g1; cases g2; cases g3
      unfold Clockwise area2 at hcw ⊢; linarith
  · intro t ht a b c hc
    obtain ⟨A', B', C', g1, g2, g3, -⟩ := key t ht
    rcases hc with rfl | rfl | rfl
    · exact ⟨_, g3⟩
    · exact ⟨_, g2⟩
    · exact ⟨_, g1⟩
  · intro t ht a b c A B C P hc gA gB gC hP hin
    obtain ⟨s, rfl, hv, hok, hT, hocc⟩ := h.result ho (List.ne_nil_of_mem ht)
    obtain ⟨w, hwP, k, U, hU, hh⟩ := hocc P hP
    obtain ⟨T, hTm, -, rfl⟩ := mem_filterSeq ht
    have hpl := planar_mesh h.scale h.ids_inf hv hT
    have em := fun A' B' C' g1 g2 g3 => hpl.empty T.verts (List.mem_map_of_mem hTm) U.verts
      (List.mem_map_of_mem (List.mem_of_getElem? hU)) w A' B' C' P (corner_verts.2 hh) g1 g2 g3 hwP
    have corner : Spec.Corner T.verts w := by
      rcases cornersOf_verts hc with ⟨e1, e2, e3⟩ | ⟨e1, e2, e3⟩ | ⟨e1, e2, e3⟩
      · exact em A B C (by rw [← gA, ← e1]; rfl) (by rw [← gB, ← e2]; rfl) (by rw [← gC, ← e3]; rfl) hin.1 hin.2.1 hin.2.2
      · exact em B C A (by rw [← gB, ← e1]; rfl) (by rw [← gC, ← e2]; rfl) (by rw [← gA, ← e3]; rfl) hin.2.1 hin.2.2 hin.1
      · exact em C A B (by rw [← gC, ← e1]; rfl) (by rw [← gA, ← e2]; rfl) (by rw [← gB, ← e3]; rfl) hin.2.2 hin.1 hin.2.1
    have : w = a ∨ w = b ∨ w = c := by
      rcases hc with hc | hc | hc <;> rw [hc] at corner <;> simp only [Spec.Corner] at corner <;> tauto
    rcases this with rfl | rfl | rfl
    · rw [gA] at hwP; cases hwP; exact .inl rfl
    · rw [gB] at hwP; cases hwP; exact .inr (.inl rfl)
    · rw [gC] at hwP; cases hwP; exact .inr (.inr rfl)

/-- **C74**. If every side without a neighbor has all vertices on its inner side, the result covers the convex hull. -/
theorem C74_covers (fuel : Nat) (bins : Nat → Nat) (vs : List (Vtx K)) (h : Good fuel bins vs) (out : List Out)
    (ho : triangulation2d fuel bins vs = .ok out) (hne : out ≠ []) (hs : Spec.HullSides vs out) : Spec.CoversConvex vs out := by
  obtain ⟨h1, h2, -⟩ := h.tris ho
  exact fun p hp => covered_of_sides h1 h2 hne hs fun A _ B _ _ hall => hp A B hall

/-- **C74**. If moreover no two neighbors violate the Delaunay condition, the result is a Delaunay triangulation. -/
theorem C74_delaunay (fuel : Nat) (bins : Nat → Nat) (vs : List (Vtx K)) (h : Good fuel bins vs) (out : List Out)
    (ho : triangulation2d fuel bins vs = .ok out) (hs : Spec.HullSides vs out) (hl : Spec.LocallyDelaunay vs [] out) : Spec.Delaunay vs out := by
  obtain ⟨h1, h2, h3⟩ := h.tris ho
  intro o hm
  obtain ⟨A, B, C, gA, gB, gC, hcw⟩ := C03_clockwise fuel bins vs h out ho o.1 o.2.1 o.2.2 hm
  exact ⟨A, B, C, gA, gB, gC, hcw, delaunay_of_sides h1 h2 hs hl h3 o hm A B C gA gB gC⟩

/-- **C74**, the converse: a result that covers the convex hull passes the test of the sides. -/
theorem C74_sides (fuel : Nat) (bins : Nat → Nat) (vs : List (Vtx K)) (h : Good fuel bins vs) (out : List Out)
    (ho : triangulation2d fuel bins vs = .ok out) (hcov : Spec.CoversConvex vs out) : Spec.HullSides vs out := by
  have hl : (normalizeVerts vs).length = vs.length := by rw [normalizeVerts_eq]; simp
  have hni := h.ids_inf
  have hscale := h.scale
  have hs2 : 0 < scaleFactor vs ^ 2 := by positivity
  intro t ht a b c hc A B gA gB
  by_contra hcon
  simp only [not_or, not_forall] at hcon
  obtain ⟨hno, P, hP, hPA⟩ := hcon
  rw [not_le] at hPA
  obtain ⟨s, rfl, hv, hok, hT, hocc⟩ := h.result ho (List.ne_nil_of_mem ht)
  have hle : ∀ {a : Nat} {A : Vtx K}, vs[a]? = some A → a < INF0 := fun ha => by have := lt_of_getElem? ha; omega
  obtain ⟨T, hTm, hTf, rfl⟩ := mem_filterSeq ht
  obtain ⟨i, hTi⟩ := List.mem_iff_getElem?.1 hTm
  have hent : ∃ j, Ent s.ts i a b j := by
    rcases cornersOf_verts hc with ⟨rfl, rfl, rfl⟩ | ⟨rfl, rfl, rfl⟩ | ⟨rfl, rfl, rfl⟩
    · exact ⟨_, T, hTi, has_0 T⟩
    · exact ⟨_, T, hTi, has_2 T⟩
    · exact ⟨_, T, hTi, has_1 T⟩
  obtain ⟨j, hj⟩ := hent
  have fa := hle gA
  have fb := hle gB
  obtain ⟨hjn, hji⟩ : j ≠ NONE ∧ Ent s.ts j b a i := by
    rcases hv.adj i a b j hj with ⟨-, h1, -⟩ | h1
    · exact absurd fa h1
    · exact h1
  obtain ⟨U, hUj, hhU⟩ := id hji
  obtain ⟨d, j2, j3, hR⟩ := hhU.rot
  by_cases fd : d < INF0
  · refine hno ⟨U.verts, ?_, d, ?_⟩
    · rw [filterSeq_eq_map, List.mem_map]
      refine ⟨U, List.mem_filter.2 ⟨List.mem_of_getElem? hUj, ?_⟩, rfl⟩
      rcases hR with rfl | rfl | rfl <;> simp [Tri.isFinite, isFin_iff, fa, fb, fd]
    · rcases hR with rfl | rfl | rfl
      · exact .inl rfl
      · exact .inr (.inr rfl)
      · exact .inr (.inl rfl)
  · -- a point between the middle of the side and the vertex `P` would be in the unbounded triangle
    have hposd := hR.pos_iff.1 (hv.pos _ _ hUj)
    set H := hp (normalizeVerts vs) with hH
    set X : Vtx K := ⟨(A.x + B.x) / 2, (A.y + B.y) / 2⟩ with hXd
    have hXo : ∀ x y : HP K, HP.o x y (HP.ofVtx (toNorm vs X)) = (HP.o x y (H a) + HP.o x y (H b)) / 2 := by
      intro x y
      rw [hH, hp_norm_eq hni gA, hp_norm_eq hni gB]
      simp only [HP.o, HP.ofVtx, toNorm, hXd]
      field_simp
      ring
    have c1 := HP.o_cyc (H b) (H a) (H d)
    have c2 := HP.o_cyc' (H b) (H a) (H d)
    obtain ⟨δ, hδ, hn⟩ := mix_in3 (a := H b) (b := H a) (c := H d) (p := HP.ofVtx (toNorm vs X)) (v := HP.ofVtx (toNorm vs P)) rfl
      (zero_le_one : (0 : K) ≤ 1)
      (.inr ⟨by rw [hXo, HP.o_same', HP.o_same'']; simp, by
        rw [side_norm hscale hni gB gA, neg_pos]
        exact div_neg_of_neg_of_pos (by rw [area2_swap]; linarith) hs2⟩)
      (.inl (by rw [hXo, HP.o_same'', c1]; linarith))
      (.inl (by rw [hXo, HP.o_same', c2]; linarith))
    have hin := hn (δ / 2) (by linarith) (by linarith)
    set e := δ / 2 with hedef
    have he : 0 < e := by rw [hedef]; linarith
    have hmix : (HP.ofVtx (toNorm vs X)).mix (HP.ofVtx (toNorm vs P)) e = HP.ofVtx (toNorm vs (along X P (e / (1 + e)))) := by
      have : (1 : K) + e ≠ 0 := by positivity
      have := hscale.ne'
      simp only [HP.mix, HP.ofVtx, toNorm, along, HP.mk.injEq]
      refine ⟨?_, ?_, trivial⟩ <;> field_simp <;> ring
    rw [hmix] at hin
    have he1 : e / (1 + e) < 1 := by rw [div_lt_one (by positivity)]; linarith
    have he0 : 0 < e / (1 + e) := by positivity
    obtain ⟨t', ht', A', B', C', g1, g2, g3, hcl⟩ := hcov (along X P (e / (1 + e))) (by
      intro Y Z hall
      have q1 := hall A (List.mem_of_getElem? gA)
      have q2 := hall B (List.mem_of_getElem? gB)
      have q3 := hall P hP
      have q4 : area2 Y Z X = (area2 Y Z A + area2 Y Z B) / 2 := by simp only [hXd, area2]; ring
      rw [area2_along, q4]
      have m1 := mul_nonneg_of_nonpos_of_nonpos (show -(1 - e / (1 + e)) ≤ 0 by linarith) (show (area2 Y Z A + area2 Y Z B) / 2 ≤ 0 by linarith)
      have m2 := mul_nonneg_of_nonpos_of_nonpos (show -(e / (1 + e)) ≤ 0 by linarith) q3
      linarith)
    obtain ⟨T', hTm', hTf', rfl⟩ := mem_filterSeq ht'
    obtain ⟨k, hTk⟩ := List.mem_iff_getElem?.1 hTm'
    have hcl' : ClosedAt H s.ts (HP.ofVtx (toNorm vs (along X P (e / (1 + e))))) k := by
      change vs[T'.v1]? = _ at g1
      change vs[T'.v2]? = _ at g2
      change vs[T'.v3]? = _ at g3
      refine ⟨T', hTk, ?_, ?_, ?_⟩
      · rw [hH, side_norm hscale hni g1 g2, neg_nonneg]; exact div_nonpos_of_nonpos_of_nonneg hcl.1 hs2.le
      · rw [hH, side_norm hscale hni g2 g3, neg_nonneg]; exact div_nonpos_of_nonpos_of_nonneg hcl.2.1 hs2.le
      · rw [hH, side_norm hscale hni g3 g1, neg_nonneg]; exact div_nonpos_of_nonpos_of_nonneg hcl.2.2 hs2.le
    have hkj := closed_inAt hv hT hcl' ((inAt_rot hUj hR).2 hin)
    subst hkj
    rw [hTk] at hUj; simp at hUj; subst hUj
    simp only [Tri.isFinite, Bool.and_eq_true, isFin_iff] at hTf'
    rcases hR with rfl | rfl | rfl
    · exact fd hTf'.2
    · exact fd hTf'.1.1
    · exact fd hTf'.1.2

/-- **C74**. The test of the sides and of the neighbors decides whether a result is a Delaunay triangulation of the whole convex hull. -/
theorem C74_certificate (fuel : Nat) (bins : Nat → Nat) (vs : List (Vtx K)) (h : Good fuel bins vs) (out : List Out)
    (ho : triangulation2d fuel bins vs = .ok out) (hne : out ≠ []) :
    (Spec.HullSides vs out ∧ Spec.LocallyDelaunay vs [] out) ↔ (Spec.CoversConvex vs out ∧ Spec.Delaunay vs out) := by
  constructor
  · rintro ⟨h1, h2⟩
    exact ⟨C74_covers fuel bins vs h out ho hne h1, C74_delaunay fuel bins vs h out ho h1 h2⟩
  · rintro ⟨h1, h2⟩
    refine ⟨C74_sides fuel bins vs h out ho h1, ?_⟩
    intro t ht u hu a b c d hc hd A B C D gA gB gC gD _ hin
    obtain ⟨A', B', C', g1, g2, g3, -, hemp⟩ := h2 t ht
    rcases hc with rfl | rfl | rfl
    · rw [gA] at g1; rw [gB] at g2; rw [gC] at g3; cases g1; cases g2; cases g3
      exact hemp D (List.mem_of_getElem? gD) hin
    · rw [gB] at g1; rw [gC] at g2; rw [gA] at g3; cases g1; cases g2; cases g3
      exact hemp D (List.mem_of_getElem? gD) (inCircle_cyc hin)
    · rw [gC] at g1; rw [gA] at g2; rw [gB] at g3; cases g1; cases g2; cases g3
      exact hemp D (List.mem_of_getElem? gD) (inCircle_cyc (inCircle_cyc hin))

/-- The lines of the hull: the pairs of vertices with all vertices on the inner side. -/
theorem Good.hullLines {fuel : Nat} {bins : Nat → Nat} {vs : List (Vtx K)} (h : Good fuel bins vs) {out : List Out}
    (ho : triangulation2d fuel bins vs = .ok out) (hne : out ≠ []) (hs : Spec.HullSides vs out) : ∃ H, Spec.CoversHull H vs out := by
  classical
  obtain ⟨h1, h2, -⟩ := h.tris ho
  let H := (vs ×ˢ vs).filter fun e => e.1 ≠ e.2 ∧ ∀ v ∈ vs, area2 e.1 e.2 v ≤ 0
  have hH : ∀ {e}, e ∈ H ↔ e.1 ∈ vs ∧ e.2 ∈ vs ∧ e.1 ≠ e.2 ∧ ∀ v ∈ vs, area2 e.1 e.2 v ≤ 0 := by
    rintro ⟨x, y⟩
    simp [H, List.mem_filter, List.pair_mem_product, and_assoc]
  refine ⟨H, ⟨fun p hp e he => (hH.1 he).2.2.2 p hp, ?_, ?_⟩⟩
  · obtain ⟨t, ht⟩ := List.exists_mem_of_ne_nil _ hne
    obtain ⟨A, B, C, gA, gB, gC, hcw⟩ := C03_clockwise fuel bins vs h out ho t.1 t.2.1 t.2.2 ht
    have hcw : area2 A B C < 0 := hcw
    refine ⟨⟨(A.x + B.x + C.x) / 3, (A.y + B.y + C.y) / 3⟩, fun e he => ?_⟩
    obtain ⟨-, -, hd, hall⟩ := hH.1 he
    have q1 := hall A (List.mem_of_getElem? gA)
    have q2 := hall B (List.mem_of_getElem? gB)
    have q3 := hall C (List.mem_of_getElem? gC)
    have q4 : area2 e.1 e.2 ⟨(A.x + B.x + C.x) / 3, (A.y + B.y + C.y) / 3⟩ = (area2 e.1 e.2 A + area2 e.1 e.2 B + area2 e.1 e.2 C) / 3 := by
      simp only [area2]; ring
    rw [q4]
    by_contra hcon
    have z1 : area2 e.1 e.2 A = 0 := by linarith
    have z2 : area2 e.1 e.2 B = 0 := by linarith
    have z3 : area2 e.1 e.2 C = 0 := by linarith
    have k1 : area2 A B C * (e.2.x - e.1.x) = (B.x - A.x) * (area2 e.1 e.2 C - area2 e.1 e.2 A) - (C.x - A.x) * (area2 e.1 e.2 B - area2 e.1 e.2 A) := by
      unfold area2; ring
    have k2 : area2 A B C * (e.2.y - e.1.y) = (B.y - A.y) * (area2 e.1 e.2 C - area2 e.1 e.2 A) - (C.y - A.y) * (area2 e.1 e.2 B - area2 e.1 e.2 A) := by
      unfold area2; ring
    rw [z1, z2, z3] at k1 k2
    simp only [sub_self, mul_zero] at k1 k2
    have d1 := (mul_eq_zero.1 k1).resolve_left hcw.ne
    have d2 := (mul_eq_zero.1 k2).resolve_left hcw.ne
    apply hd
    obtain ⟨⟨x1, y1⟩, ⟨x2, y2⟩⟩ := e
    simp only [Vtx.mk.injEq] at *
    constructor <;> linarith
  · intro q hq
    exact covered_of_sides h1 h2 hne hs fun A hA B hB hAB hall => (hq (A, B) (hH.2 ⟨hA, hB, hAB, hall⟩)).le

/-- **C74** with **C73**: after the test of the sides, constraints are accepted. -/
theorem C74_accepts (fuel : Nat) (bins : Nat → Nat) (vs : List (Vtx K)) (h : Good fuel bins vs) (hfuel : fuelFor vs.length ≤ fuel)
    (out0 : List Out) (h0 : triangulation2d fuel bins vs = .ok out0) (hne : out0 ≠ []) (hs : Spec.HullSides vs out0)
    (es : List Edge) (hc : Spec.ClearOfVertices vs es) (hx : Spec.NonCrossing vs es) :
    (∃ out, constrained2d fuel bins vs es = .ok out) ∧
    ∃ r, constrainedMesh fuel bins vs es = .ok r ∧ ∀ e ∈ es, ∀ A B, vs[e.src]? = some A → vs[e.dst]? = some B →
      ∃ a b : Nat, vs[a]? = some A ∧ vs[b]? = some B ∧ Spec.MeshEdge r.ts a b ∧ Spec.MeshEdge r.ts b a := by
  obtain ⟨H, hH⟩ := h.hullLines h0 hne hs
  exact C73_covering fuel bins vs h hfuel H out0 h0 hH es hc hx

/-! ## Rounded arithmetic -/

/-- **C74** in rounded arithmetic (`f32`, `f64`) on robust inputs and on grids; `V` are the exact positions. -/
theorem C74_certificate_rounded {F : Type} [FloatOps F] [Rounded F] (fuel : Nat) (bins : Nat → Nat) (vs : List (Vtx F))
    (V : List (Vtx ℚ)) (W : ℚ) (h : Rounded.RGood fuel bins vs V W) (out : List Out)
    (ho : triangulation2d fuel bins vs = .ok out) (hne : out ≠ []) :
    (Spec.HullSides V out ∧ Spec.LocallyDelaunay V [] out) ↔ (Spec.CoversConvex V out ∧ Spec.Delaunay V out) := by
  let P := Rounded.params F (bins vs.length) W (Rounded.scaleVal vs)
  rw [h.run] at ho
  exact C74_certificate fuel bins V h.good out ho hne

/-- **C74** with **C73** in rounded arithmetic. -/
theorem C74_accepts_rounded {F : Type} [FloatOps F] [Rounded F] (fuel : Nat) (bins : Nat → Nat) (vs : List (Vtx F))
    (V : List (Vtx ℚ)) (W : ℚ) (h : Rounded.RGoodC fuel bins vs V W) (out0 : List Out)
    (h0 : triangulation2d fuel bins vs = .ok out0) (hne : out0 ≠ []) (hs : Spec.HullSides V out0)
    (es : List Edge) (hc : Spec.ClearOfVertices V es) (hx : Spec.NonCrossing V es) :
    (∃ out, constrained2d fuel bins vs es = .ok out) ∧
    ∃ r, constrainedMesh fuel bins vs es = .ok r ∧ ∀ e ∈ es, ∀ A B, V[e.src]? = some A → V[e.dst]? = some B →
      ∃ a b : Nat, V[a]? = some A ∧ V[b]? = some B ∧ Spec.MeshEdge r.ts a b ∧ Spec.MeshEdge r.ts b a := by
  let P := Rounded.params F (bins vs.length) W (Rounded.scaleVal vs)
  rw [h.toRGood.run] at h0
  rw [h.run, h.mesh]
  exact C74_accepts fuel bins V h.good (by rw [h.len]; exact h.fuelC) out0 h0 hne hs es hc hx

end Main

/-! ## The test as a program -/

section Test
variable {K : Type} [Field K] [LinearOrder K] [IsStrictOrderedRing K]

/-- The corners of a triangle in the three cyclic orders. -/
def rotsOf (t : Out) : List Out := [(t.1, t.2.1, t.2.2), (t.2.1, t.2.2, t.1), (t.2.2, t.1, t.2.1)]

theorem mem_rotsOf {t : Out} {a b c : Nat} (h : Spec.CornersOf t a b c) : (a, b, c) ∈ rotsOf t := by
  rcases h with rfl | rfl | rfl <;> simp [rotsOf]

/-- Test of `Spec.HullSides`. -/
def hullCheck (vs : List (Vtx K)) (out : List Out) : Bool := out.all fun t => (rotsOf t).all fun r =>
  (out.any fun u => (rotsOf u).any fun r' => decide (r'.1 = r.2.1 ∧ r'.2.1 = r.1)) ||
  match vs[r.1]?, vs[r.2.1]? with
  | some A, some B => vs.all fun p => decide (area2 A B p ≤ 0)
  | _, _ => true

theorem hullSides_of_check {vs : List (Vtx K)} {out : List Out} (h : hullCheck vs out = true) : Spec.HullSides vs out := by
  intro t ht a b c hc A B gA gB
  have hk := List.all_eq_true.1 (List.all_eq_true.1 h t ht) _ (mem_rotsOf hc)
  simp only [gA, gB, Bool.or_eq_true] at hk
  rcases hk with hk | hk
  · obtain ⟨u, hu, hk⟩ := List.any_eq_true.1 hk
    obtain ⟨r, hr, hk⟩ := List.any_eq_true.1 hk
    simp only [decide_eq_true_eq] at hk
    refine .inl ⟨u, hu, r.2.2, ?_⟩
    rw [← hk.1, ← hk.2]
    simp only [rotsOf, List.mem_cons, List.not_mem_nil, or_false] at hr
    rcases hr with rfl | rfl | rfl
    · exact .inl rfl
    · exact .inr (.inr rfl)
    · exact .inr (.inl rfl)
  · exact .inr fun p hp => by simpa using List.all_eq_true.1 hk p hp

/-- Test of `Spec.LocallyDelaunay` without constraints. -/
def neighborCheck (vs : List (Vtx K)) (out : List Out) : Bool := out.all fun t => (rotsOf t).all fun r => out.all fun u => (rotsOf u).all fun r' =>
  !decide (r'.1 = r.2.1 ∧ r'.2.1 = r.1) ||
  match vs[r.1]?, vs[r.2.1]?, vs[r.2.2]?, vs[r'.2.2]? with
  | some A, some B, some C, some D => decide (area2 A B C < 0) && decide (power A B C D ≤ 0)
  | _, _, _, _ => true

theorem local_of_check {vs : List (Vtx K)} {out : List Out} (h : neighborCheck vs out = true) : Spec.LocallyDelaunay vs [] out := by
  intro t ht u hu a b c d hc hd A B C D gA gB gC gD _
  have hk := List.all_eq_true.1 (List.all_eq_true.1 (List.all_eq_true.1 (List.all_eq_true.1 h t ht) _ (mem_rotsOf hc)) u hu) _ (mem_rotsOf hd)
  simp [gA, gB, gC, gD] at hk
  rw [power_inCircle hk.1]
  exact not_lt.2 hk.2

end Test

section Example
open Rounded
local instance certCfg : IdCfg := u32Cfg

/-- Ten points in no frame. -/
def certGrid : List (Int × Int) := [(2,3),(9,1),(16,6),(5,9),(11,12),(7,5),(0,13),(3,2),(13,2),(8,15)]

theorem cert_good : RGood (F := F64) 506 Witness.defaultBins (flPts binary64 certGrid) (intPts certGrid) (2 ^ 4) :=
  C44_grid certGrid 4 (by decide) (by decide) (by decide) ⟨by norm_num, by decide +kernel, by decide +kernel⟩
    (by decide) (by decide +kernel) (by decide) (by decide)

theorem cert_goodC : RGoodC (F := F64) 506 Witness.defaultBins (flPts binary64 certGrid) (intPts certGrid) (2 ^ 4) where
  toRGood := cert_good
  ray := by unfold Plane.ClearRays Plane.area2 Plane.axes; decide +kernel
  fuelC := by decide

/-- What the code returns for these points in `f64` with the default number of bins. -/
def certOut : List Out := [(6, 3, 0), (2, 8, 5), (0, 3, 5), (0, 5, 7), (1, 5, 8), (1, 7, 5), (4, 5, 3), (4, 2, 5), (6, 9, 3), (9, 4, 3)]

theorem cert_run : triangulation2d (F := F64) 506 Witness.defaultBins (flPts binary64 certGrid) = .ok certOut := by decide +kernel

theorem cert_sides : Spec.HullSides (intPts certGrid) certOut := hullSides_of_check (by decide +kernel)

/-- The hypotheses of `C74_certificate_rounded` hold for these points, and they pass the test. -/
example : Spec.CoversConvex (intPts certGrid) certOut ∧ Spec.Delaunay (intPts certGrid) certOut :=
  (C74_certificate_rounded 506 _ _ _ _ cert_good certOut cert_run (by decide)).1 ⟨cert_sides, local_of_check (by decide +kernel)⟩

/-- Constraints are then accepted, here with one that is no edge of the triangulation. -/
example : ∃ out, constrained2d (F := F64) 506 Witness.defaultBins (flPts binary64 certGrid) [⟨0, 4⟩, ⟨6, 9⟩, ⟨7, 2⟩] = .ok out :=
  (C74_accepts_rounded 506 _ _ _ _ cert_goodC certOut cert_run (by decide) cert_sides _
    (clear_of_check (by decide +kernel)) (nonCrossing_of_check (by decide +kernel))).1

end Example

end CDT

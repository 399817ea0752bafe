import Verif.Geo.HullCount
import Verif.Props.BoxCount
import Verif.Props.Certificate

/-! # C83: at most `2 n - 2 - b` triangles, and exactly so many when the convex hull is covered -/

set_option linter.unusedSectionVars false
set_option linter.unusedSimpArgs false
set_option linter.unusedVariables false

namespace CDT
open Plane

section Main
variable {K : Type} [Field K] [LinearOrder K] [IsStrictOrderedRing K] [ExactParams K] [IdCfg]

/-- `p` is on the border of the convex hull of the vertices: a line through `p` has all of them on one side. -/
def Spec.OnHull (vs : List (Vtx K)) (p : Vtx K) : Prop := ∃ q, q ≠ p ∧ ∀ r ∈ vs, area2 p q r ≤ 0

/-- The positions on the border of the convex hull. -/
noncomputable def Spec.hullPositions (vs : List (Vtx K)) : Finset (Vtx K) := by
  classical
  exact (Spec.positions vs).filter fun p => Spec.OnHull vs p

theorem mem_hullPositions {vs : List (Vtx K)} {p : Vtx K} : p ∈ Spec.hullPositions vs ↔ p ∈ vs ∧ Spec.OnHull vs p := by
  simp [Spec.hullPositions, Spec.positions]

/-- Ids and positions of a run. -/
structure RunIds (vs : List (Vtx K)) (ts : List Tri) : Prop where
  ids : vs.length ≤ INF0
  lt : ∀ v, Occ ts v → v < INF0 → v < vs.length
  inj : ∀ v w A, Occ ts v → Occ ts w → vs[v]? = some A → vs[w]? = some A → v = w
  all : ∀ P ∈ vs, ∃ w : Nat, vs[w]? = some P ∧ Occ ts w

theorem Good.runIds {fuel : Nat} {bins : Nat → Nat} {vs : List (Vtx K)} (h : Good fuel bins vs) {ts : List Tri}
    (hv : Valid (hp (normalizeVerts vs)) ts) (hok : VertsIn (VOk (normalizeVerts vs).length) ts) (hT : Tiled (normalizeVerts vs) ts)
    (hocc : ∀ P ∈ vs, ∃ w : Nat, vs[w]? = some P ∧ Occ ts w) : RunIds vs ts where
  ids := by have := h.ids_inf; have hl : (normalizeVerts vs).length = vs.length := by { rw [normalizeVerts_eq]; simp }; omega
  lt := fun v ov fv => by
    have hl : (normalizeVerts vs).length = vs.length := by rw [normalizeVerts_eq]; simp
    rw [← hl]; exact (occ_vok hok ov).resolve_right (by omega)
  inj := fun v w A o1 o2 g1 g2 => by
    have hni := h.ids_inf
    have hl : (normalizeVerts vs).length = vs.length := by rw [normalizeVerts_eq]; simp
    have := lt_of_getElem? g2
    exact occ_inj hv hT (by omega) o1 o2 (by rw [hp_norm_eq hni g1, hp_norm_eq hni g2])
  all := hocc

theorem RunIds.get {vs : List (Vtx K)} {ts : List Tri} (h : RunIds vs ts) (v : Nat) (hv : v < vs.length) : vs[v]? = some (vs.getD v ⟨0, 0⟩) := by
  simp [List.getD_eq_getElem?_getD, List.getElem?_eq_getElem hv]

/-- A set of ids and a set of positions. -/
theorem RunIds.card {vs : List (Vtx K)} {ts : List Tri} (h : RunIds vs ts) {I : Finset Nat} {J : Finset (Vtx K)}
    (hI : ∀ v ∈ I, v < INF0 ∧ Occ ts v) (hJ : ∀ p ∈ J, p ∈ vs) (hIJ : ∀ v p, Occ ts v → vs[v]? = some p → (v ∈ I ↔ p ∈ J)) : I.card = J.card := by
  refine Finset.card_bij (fun v _ => vs.getD v ⟨0, 0⟩) ?_ ?_ ?_
  · intro v hv
    obtain ⟨fv, ov⟩ := hI v hv
    exact (hIJ v _ ov (h.get v (h.lt v ov fv))).1 hv
  · intro v hv w hw e
    obtain ⟨f1, o1⟩ := hI v hv
    obtain ⟨f2, o2⟩ := hI w hw
    exact h.inj _ _ _ o1 o2 (h.get v (h.lt v o1 f1)) (by rw [h.get w (h.lt w o2 f2), ← e])
  · intro P hP
    obtain ⟨w, gw, ow⟩ := h.all P (hJ P hP)
    exact ⟨w, (hIJ w P ow gw).2 hP, by simp [List.getD_eq_getElem?_getD, gw]⟩

theorem RunIds.positions {vs : List (Vtx K)} {ts : List Tri} (h : RunIds vs ts) : (occIds vs.length ts).card = (Spec.positions vs).card :=
  h.card (fun v hv => by
      obtain ⟨h1, h2⟩ := mem_occIds.1 hv
      exact ⟨by have := h.ids; omega, h2⟩) (fun p hp => List.mem_toFinset.1 hp)
    fun v p ov gv => by
      rw [mem_occIds, Spec.positions, List.mem_toFinset]
      exact ⟨fun _ => List.mem_of_getElem? gv, fun _ => ⟨lt_of_getElem? gv, ov⟩⟩

/-- On the border of the convex hull, in the coordinates of the mesh. -/
theorem supp_norm {vs : List (Vtx K)} {ts : List Tri} (h : RunIds vs ts) (hni : (normalizeVerts vs).length ≤ INF0) (hs : 0 < scaleFactor vs) {v : Nat}
    {p : Vtx K} (gv : vs[v]? = some p) : Supp (normalizeVerts vs) ts v ↔ Spec.OnHull vs p := by
  have ev := hp_norm_eq hni gv
  have key : ∀ (d : HP K) (r : Vtx K) (q : Vtx K), d.w = 0 → d.x = (q.x - p.x) / scaleFactor vs → d.y = (q.y - p.y) / scaleFactor vs →
      HP.o (HP.ofVtx (toNorm vs p)) d (HP.ofVtx (toNorm vs r)) = HP.o (HP.ofVtx (toNorm vs p)) (HP.ofVtx (toNorm vs q)) (HP.ofVtx (toNorm vs r)) := by
    intro d r q dw dx dy
    simp only [HP.o, HP.ofVtx, toNorm, dw, dx, dy]
    field_simp
    ring
  constructor
  · rintro ⟨d, dw, dne, hd⟩
    refine ⟨⟨p.x + scaleFactor vs * d.x, p.y + scaleFactor vs * d.y⟩, ?_, fun r hr => ?_⟩
    · intro e
      have e1 := congrArg Vtx.x e
      have e2 := congrArg Vtx.y e
      simp only [add_eq_left, mul_eq_zero, hs.ne', false_or] at e1 e2
      rcases dne with h | h
      · exact h e1
      · exact h e2
    · obtain ⟨w, gw, ow⟩ := h.all r hr
      have := hd w ow (by have := lt_of_getElem? gw; have := h.ids; omega)
      rw [ev, hp_norm_eq hni gw, key d r ⟨p.x + scaleFactor vs * d.x, p.y + scaleFactor vs * d.y⟩ dw (by field_simp; ring) (by field_simp; ring)] at this
      exact (o_toNorm_nonneg hs).1 this
  · rintro ⟨q, hq, hd⟩
    refine ⟨⟨(q.x - p.x) / scaleFactor vs, (q.y - p.y) / scaleFactor vs, 0⟩, rfl, ?_, fun w ow fw => ?_⟩
    · by_contra hc
      simp only [not_or, not_not, div_eq_zero_iff, hs.ne', or_false, sub_eq_zero] at hc
      exact hq (by cases q; cases p; simp only [Vtx.mk.injEq]; exact hc)
    · have gw := h.get w (h.lt w ow fw)
      rw [ev, hp_norm_eq hni gw, key _ _ q rfl rfl rfl]
      exact (o_toNorm_nonneg hs).2 (hd _ (List.mem_of_getElem? gw))

/-- The number of triangles of a run, by the number of vertices and of unbounded triangles with one artificial vertex. -/
theorem Good.hull_count {fuel : Nat} {bins : Nat → Nat} {vs : List (Vtx K)} (h : Good fuel bins vs) (h3 : 3 ≤ vs.length) {out : List Out}
    (ho : triangulation2d fuel bins vs = .ok out) : ∃ s : DT, out = filterSeq s.ts ∧ Valid (hp (normalizeVerts vs)) s.ts ∧
      Tiled (normalizeVerts vs) s.ts ∧ VertsIn (VOk (normalizeVerts vs).length) s.ts ∧ RunIds vs s.ts ∧
      (edgeIds (normalizeVerts vs) s.ts).card = (Spec.hullPositions vs).card ∧
      out.length + (hullIdx s.ts).card + 2 = 2 * (Spec.positions vs).card := by
  have hni := h.ids_inf
  obtain ⟨s, rfl, hv, hok, hT, hocc, hC, hout, hs⟩ := h.chains h3 ho
  have hR := h.runIds hv hok hT hocc
  refine ⟨s, rfl, hv, hT, hok, hR, ?_, ?_⟩
  · exact hR.card (fun v hv => by obtain ⟨h1, h2, -⟩ := mem_edgeIds.1 hv; exact ⟨h1, h2⟩) (fun p hp => (mem_hullPositions.1 hp).1)
      fun v p ov gv => by
        rw [mem_edgeIds, mem_hullPositions, supp_norm hR hni h.scale gv]
        exact ⟨fun hh => ⟨List.mem_of_getElem? gv, hh.2.2⟩, fun hh => ⟨by have := lt_of_getElem? gv; have := hR.ids; omega, ov, hh.2⟩⟩
  · have hk := mesh_kinds hv hT (fun q => inf_id hok hni) hout
    have ho := h.occ_count hs
    have hp := hR.positions
    have hlen : (filterSeq s.ts).length = s.ts.countP (·.isFinite) := by
      rw [filterSeq_eq_map, List.length_map, List.countP_eq_length_filter]
    omega

/-- **C83**. At most `2 n - 2 - b` triangles for `n` positions, `b` of them on the border of the convex hull. -/
theorem C83_at_most (fuel : Nat) (bins : Nat → Nat) (vs : List (Vtx K)) (h : Good fuel bins vs) (hne : ∃ p ∈ vs, ∃ q ∈ vs, p ≠ q)
    (out : List Out) (ho : triangulation2d fuel bins vs = .ok out) :
    out.length + (Spec.hullPositions vs).card + 2 ≤ 2 * (Spec.positions vs).card := by
  classical
  obtain ⟨p, hp, q, hq, hpq⟩ := hne
  by_cases h3 : 3 ≤ vs.length
  · obtain ⟨s, rfl, hv, hT, hok, hR, he, hc⟩ := h.hull_count h3 ho
    obtain ⟨a, ga, oa⟩ := hR.all p hp
    obtain ⟨b, gb, ob⟩ := hR.all q hq
    have la := lt_of_getElem? ga
    have lb := lt_of_getElem? gb
    have hi := hR.ids
    have := edgeIds_le hv hT (by omega) oa (by omega) ob (by rintro rfl; rw [ga] at gb; exact hpq (Option.some.inj gb))
    omega
  · unfold triangulation2d at ho
    rw [if_pos (by omega)] at ho
    simp only [Res.ok.injEq] at ho
    subst ho
    have h1 : (Spec.hullPositions vs).card ≤ (Spec.positions vs).card := Finset.card_le_card (Finset.filter_subset _ _)
    have h2 : 2 ≤ (Spec.positions vs).card := Finset.one_lt_card.2 ⟨p, List.mem_toFinset.2 hp, q, List.mem_toFinset.2 hq, hpq⟩
    simp only [List.length_nil]
    omega

/-- The mesh of a run whose result covers the convex hull. -/
theorem Good.coverMesh {fuel : Nat} {bins : Nat → Nat} {vs : List (Vtx K)} (h : Good fuel bins vs) {H : List (Vtx K × Vtx K)} {s : DT}
    (hC : Spec.CoversHull H vs (filterSeq s.ts)) (hv : Valid (hp (normalizeVerts vs)) s.ts) (hT : Tiled (normalizeVerts vs) s.ts)
    (hok : VertsIn (VOk (normalizeVerts vs).length) s.ts) (hR : RunIds vs s.ts) : CoverMesh (normalizeVerts vs) s.ts (normLines vs H) := by
  have hs := h.scale
  have hni := h.ids_inf
  refine ⟨hv, hT, hok, hni, ?_, fun q hq hqi l hl => ?_⟩
  · intro P hPR
    obtain ⟨q, rfl, hq⟩ := reg_exists hs hPR
    obtain ⟨o, ho, A, B, C, gA, gB, gC, c1, c2, c3⟩ := hC.cover q hq
    obtain ⟨T, hTm, hTf, rfl⟩ := mem_filterSeq ho
    obtain ⟨k, hk⟩ := List.mem_iff_getElem?.1 hTm
    simp only [Tri.isFinite, Bool.and_eq_true, isFin_iff] at hTf
    refine ⟨k, T, hk, hTf.1.1, hTf.1.2, hTf.2, ?_⟩
    simp only [Tri.verts] at gA gB gC
    rw [hp_norm_eq hni gA, hp_norm_eq hni gB, hp_norm_eq hni gC]
    exact ⟨(o_toNorm_nonneg hs).2 c1, (o_toNorm_nonneg hs).2 c2, (o_toNorm_nonneg hs).2 c3⟩
  · have gX := hR.get q (hR.lt q hq hqi)
    unfold normLines at hl
    rw [List.mem_map] at hl
    obtain ⟨e, he, rfl⟩ := hl
    rw [hp_norm_eq hni gX]
    exact (o_toNorm_nonneg hs).2 (hC.closed _ (List.mem_of_getElem? gX) e he)

theorem Good.three {fuel : Nat} {bins : Nat → Nat} {vs : List (Vtx K)} (h : Good fuel bins vs) {H : List (Vtx K × Vtx K)} {out : List Out}
    (ho : triangulation2d fuel bins vs = .ok out) (hC : Spec.CoversHull H vs out) : 3 ≤ vs.length := (h.covering ho hC).1

/-- **C83**. Exactly `2 n - 2 - b` triangles when the triangles cover the convex hull. -/
theorem C83_count (fuel : Nat) (bins : Nat → Nat) (vs : List (Vtx K)) (h : Good fuel bins vs) (H : List (Vtx K × Vtx K)) (out : List Out)
    (ho : triangulation2d fuel bins vs = .ok out) (hC : Spec.CoversHull H vs out) :
    out.length + (Spec.hullPositions vs).card + 2 = 2 * (Spec.positions vs).card := by
  obtain ⟨s, rfl, hv, hT, hok, hR, he, hc⟩ := h.hull_count (h.three ho hC) ho
  obtain ⟨q0, hq0⟩ := hC.some
  have hR0 : Reg (normLines vs H) (HP.ofVtx (toNorm vs q0)) := (reg_norm h.scale).2 hq0
  have := (h.coverMesh hC hv hT hok hR).edgeIds_eq hR0
  omega

/-- **C83**. The positions on the border of the convex hull are then those on one of the lines. -/
theorem C83_border (fuel : Nat) (bins : Nat → Nat) (vs : List (Vtx K)) (h : Good fuel bins vs) (H : List (Vtx K × Vtx K)) (out : List Out)
    (ho : triangulation2d fuel bins vs = .ok out) (hC : Spec.CoversHull H vs out) (p : Vtx K) (hp : p ∈ vs) :
    Spec.OnHull vs p ↔ ¬ Spec.Within H p := by
  obtain ⟨s, rfl, hv, hT, hok, hR, he, hc⟩ := h.hull_count (h.three ho hC) ho
  obtain ⟨q0, hq0⟩ := hC.some
  have hR0 : Reg (normLines vs H) (HP.ofVtx (toNorm vs q0)) := (reg_norm h.scale).2 hq0
  obtain ⟨w, gw, ow⟩ := hR.all p hp
  have := lt_of_getElem? gw
  have hi := hR.ids
  rw [← supp_norm hR h.ids_inf h.scale gw, (h.coverMesh hC hv hT hok hR).supp_iff hR0 (by omega) ow, hp_norm_eq h.ids_inf gw, reg_norm h.scale]

/-- **C83**. Every position is then a corner of a triangle. -/
theorem C83_all (fuel : Nat) (bins : Nat → Nat) (vs : List (Vtx K)) (h : Good fuel bins vs) (H : List (Vtx K × Vtx K)) (out : List Out)
    (ho : triangulation2d fuel bins vs = .ok out) (hC : Spec.CoversHull H vs out) :
    ∀ P ∈ vs, ∃ o ∈ out, ∃ a b c : Nat, Spec.CornersOf o a b c ∧ vs[a]? = some P := by
  intro P hP
  obtain ⟨s, rfl, hv, hT, hok, hR, he, hc⟩ := h.hull_count (h.three ho hC) ho
  obtain ⟨q0, hq0⟩ := hC.some
  have hR0 : Reg (normLines vs H) (HP.ofVtx (toNorm vs q0)) := (reg_norm h.scale).2 hq0
  obtain ⟨w, gw, ow⟩ := hR.all P hP
  have := lt_of_getElem? gw
  have hi := hR.ids
  obtain ⟨x, v, ⟨i, T, j1, j2, j3, hTi, hRot⟩, fx, fv⟩ := (h.coverMesh hC hv hT hok hR).fin_at hR0 (by omega) ow
  have hf : T.isFinite = true := by
    simp only [Tri.isFinite, Bool.and_eq_true, isFin_iff]
    rcases hRot with rfl | rfl | rfl <;> simp only <;> omega
  have hm : T.verts ∈ filterSeq s.ts := by
    rw [filterSeq_eq_map]
    exact List.mem_map.2 ⟨T, List.mem_filter.2 ⟨List.mem_of_getElem? hTi, hf⟩, rfl⟩
  refine ⟨_, hm, w, x, v, ?_, gw⟩
  rcases hRot with rfl | rfl | rfl
  · exact .inl rfl
  · exact .inr (.inr rfl)
  · exact .inr (.inl rfl)

/-- **C83** with **C74**. The same for a result that passes the hull test of C74. -/
theorem C83_certified (fuel : Nat) (bins : Nat → Nat) (vs : List (Vtx K)) (h : Good fuel bins vs) (out : List Out)
    (ho : triangulation2d fuel bins vs = .ok out) (hne : out ≠ []) (hs : Spec.HullSides vs out) :
    out.length + (Spec.hullPositions vs).card + 2 = 2 * (Spec.positions vs).card := by
  obtain ⟨H, hC⟩ := h.hullLines ho hne hs
  exact C83_count fuel bins vs h H out ho hC

/-- **C83**. No run of the same positions, in another order, with other repetitions or with other bins, gives more triangles than one that
covers the convex hull, and as many if it covers the convex hull too. -/
theorem C83_same (fuel fuel' : Nat) (bins bins' : Nat → Nat) (vs vs' : List (Vtx K)) (h : Good fuel bins vs) (h' : Good fuel' bins' vs')
    (H : List (Vtx K × Vtx K)) (hsame : ∀ p, p ∈ vs ↔ p ∈ vs') (out out' : List Out) (hC : Spec.CoversHull H vs out)
    (ho : triangulation2d fuel bins vs = .ok out) (ho' : triangulation2d fuel' bins' vs' = .ok out') :
    out'.length ≤ out.length ∧ (∀ H', Spec.CoversHull H' vs' out' → out'.length = out.length) := by
  have e : Spec.positions vs = Spec.positions vs' := by
    ext p; simp only [Spec.positions, List.mem_toFinset]; exact hsame p
  have e2 : Spec.hullPositions vs = Spec.hullPositions vs' := by
    ext p
    rw [mem_hullPositions, mem_hullPositions]
    simp only [Spec.OnHull, hsame]
  have e1 := C83_count fuel bins vs h H out ho hC
  rw [e, e2] at e1
  refine ⟨?_, fun H' hC' => ?_⟩
  · by_cases h3 : 3 ≤ vs'.length
    · have hne : ∃ p ∈ vs', ∃ q ∈ vs', p ≠ q := by
        have hpos : 0 < out.length := by
          obtain ⟨q, hq⟩ := hC.some
          obtain ⟨o, ho, -⟩ := hC.cover q hq
          exact List.length_pos_of_mem ho
        obtain ⟨p, hp, q, hq, hpq⟩ := Finset.one_lt_card.1 (by omega : 1 < (Spec.positions vs').card)
        exact ⟨p, List.mem_toFinset.1 hp, q, List.mem_toFinset.1 hq, hpq⟩
      have := C83_at_most fuel' bins' vs' h' hne out' ho'
      omega
    · unfold triangulation2d at ho'
      rw [if_pos (by omega)] at ho'
      simp only [Res.ok.injEq] at ho'
      subst ho'
      simp
  · have := C83_count fuel' bins' vs' h' H' out' ho' hC'
    omega

/-! ## Rounded arithmetic -/

/-- **C83** in rounded arithmetic (`f32`, `f64`) on robust inputs and on grids; `V` are the exact positions. -/
theorem C83_at_most_rounded {F : Type} [FloatOps F] [Rounded F] (fuel : Nat) (bins : Nat → Nat) (vs : List (Vtx F))
    (V : List (Vtx ℚ)) (W : ℚ) (h : Rounded.RGood fuel bins vs V W) (hne : ∃ p ∈ V, ∃ q ∈ V, p ≠ q) (out : List Out)
    (ho : triangulation2d fuel bins vs = .ok out) :
    out.length + (Spec.hullPositions V).card + 2 ≤ 2 * (Spec.positions V).card := by
  let P := Rounded.params F (bins vs.length) W (Rounded.scaleVal vs)
  rw [h.run] at ho
  exact C83_at_most fuel bins V h.good hne out ho

theorem C83_count_rounded {F : Type} [FloatOps F] [Rounded F] (fuel : Nat) (bins : Nat → Nat) (vs : List (Vtx F))
    (V : List (Vtx ℚ)) (W : ℚ) (h : Rounded.RGood fuel bins vs V W) (H : List (Vtx ℚ × Vtx ℚ)) (out : List Out)
    (ho : triangulation2d fuel bins vs = .ok out) (hC : Spec.CoversHull H V out) :
    out.length + (Spec.hullPositions V).card + 2 = 2 * (Spec.positions V).card ∧
    ∀ P ∈ V, ∃ o ∈ out, ∃ a b c : Nat, Spec.CornersOf o a b c ∧ V[a]? = some P := by
  let P := Rounded.params F (bins vs.length) W (Rounded.scaleVal vs)
  rw [h.run] at ho
  exact ⟨C83_count fuel bins V h.good H out ho hC, C83_all fuel bins V h.good H out ho hC⟩

theorem C83_certified_rounded {F : Type} [FloatOps F] [Rounded F] (fuel : Nat) (bins : Nat → Nat) (vs : List (Vtx F))
    (V : List (Vtx ℚ)) (W : ℚ) (h : Rounded.RGood fuel bins vs V W) (out : List Out)
    (ho : triangulation2d fuel bins vs = .ok out) (hne : out ≠ []) (hs : Spec.HullSides V out) :
    out.length + (Spec.hullPositions V).card + 2 = 2 * (Spec.positions V).card := by
  let P := Rounded.params F (bins vs.length) W (Rounded.scaleVal vs)
  rw [h.run] at ho
  exact C83_certified fuel bins V h.good out ho hne hs

end Main

section Example
open Rounded
local instance hullCountCfg : IdCfg := u32Cfg

/-- The ten points of C74 give ten triangles, so eight of them are on the border of the convex hull. -/
example : (Spec.hullPositions (intPts certGrid)).card = 8 := by
  have h := C83_certified_rounded 506 _ _ _ _ cert_good certOut cert_run (by decide) cert_sides
  have h2 : (Spec.positions (intPts certGrid)).card = 10 := by decide +kernel
  have h1 : certOut.length = 10 := rfl
  omega

end Example
end CDT

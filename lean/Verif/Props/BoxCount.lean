import Verif.Geo.BoxCount
import Verif.Props.Boxed
import Verif.Props.Counts
import Verif.Props.Run

/-! # C78: with the corners of the bounding rectangle, the number of triangles is `2 n - 2 - b` -/

set_option linter.unusedSectionVars false
set_option linter.unusedSimpArgs false
set_option linter.unusedVariables false

namespace CDT
open Plane

section Main
variable {K : Type} [Field K] [LinearOrder K] [IsStrictOrderedRing K] [ExactParams K] [IdCfg]

/-- The positions of the vertices, each counted once. -/
def Spec.positions (vs : List (Vtx K)) : Finset (Vtx K) := vs.toFinset

/-- The positions on the border of the rectangle. -/
def Spec.onBorder (vs : List (Vtx K)) (x0 x1 y0 y1 : K) : Finset (Vtx K) :=
  (Spec.positions vs).filter fun p => p.x = x0 ∨ p.x = x1 ∨ p.y = y0 ∨ p.y = y1

/-- The ids that occur in a mesh. -/
noncomputable def occIds (n : Nat) (ts : List Tri) : Finset Nat := by
  classical
  exact (Finset.range n).filter fun v => Occ ts v

theorem mem_occIds {n : Nat} {ts : List Tri} {v : Nat} : v ∈ occIds n ts ↔ v < n ∧ Occ ts v := by simp [occIds]

theorem occ_iff_mem {ts : List Tri} {v : Nat} : Occ ts v ↔ ∃ t ∈ ts, v = t.v1 ∨ v = t.v2 ∨ v = t.v3 := by
  constructor
  · rintro ⟨i, T, hT, h⟩
    rw [hasVert_iff] at h
    exact ⟨T, List.mem_of_getElem? hT, by rcases h with h | h | h <;> simp [h]⟩
  · rintro ⟨t, ht, h⟩
    obtain ⟨i, hi⟩ := List.mem_iff_getElem?.1 ht
    exact ⟨i, t, hi, by rw [hasVert_iff]; rcases h with h | h | h <;> simp [h]⟩

/-- The number of triangles of the mesh, infinite ones included, by the number of vertices in it. -/
theorem Good.occ_count {fuel : Nat} {bins : Nat → Nat} {vs : List (Vtx K)} (h : Good fuel bins vs) {s : DT}
    (hs : wrapAndTriangulate fuel (bins vs.length) (normalizeVerts vs) (some ((List.range vs.length).map toId)) = .ok s) :
    s.ts.length = 2 * (occIds vs.length s.ts).card + 2 := by
  classical
  obtain ⟨m, hm, hml, hc⟩ := C11_count fuel bins vs (by have := h.ids; unfold NONE at *; omega) s hs
  have h8 := C08_merged_or_inserted_partial fuel bins vs h _ (.inr rfl) s hs
  have e : occIds vs.length s.ts = (Finset.range vs.length) \ mergedSet m := by
    ext v
    rw [mem_occIds, Finset.mem_sdiff, Finset.mem_range]
    refine and_congr_right fun hv => ?_
    rw [occ_iff_mem]
    simp only [mergedSet, Finset.mem_filter, Finset.mem_range, hml, hv, true_and, not_not]
    rcases h8 v hv with ⟨h1, h2⟩ | ⟨h1, x, hx, hxv, -, -, h2⟩
    · exact ⟨fun _ => h2 m hm, fun _ => h1⟩
    · refine ⟨fun h => absurd h h1, fun h => ?_⟩
      rw [h2 m hm] at h
      exact absurd (Option.some.inj h) hxv
  have hsub : mergedSet m ⊆ Finset.range vs.length := by
    intro v hv; rw [← hml]; exact (Finset.mem_filter.1 hv).1
  have hle := Finset.card_le_card hsub
  rw [Finset.card_range] at hle
  rw [e, Finset.card_sdiff_of_subset hsub, Finset.card_range]
  omega

/-- **C78**. With the corners of the bounding rectangle among the vertices, `n` positions of which `b` are on the border of the rectangle
give exactly `2 n - 2 - b` triangles, whatever the bins and the order of the vertices. -/
theorem C78_count (fuel : Nat) (bins : Nat → Nat) (vs : List (Vtx K)) (h : Good fuel bins vs) (x0 x1 y0 y1 : K)
    (hf : Spec.Boxed vs x0 x1 y0 y1) (out : List Out) (ho : triangulation2d fuel bins vs = .ok out) :
    out.length + (Spec.onBorder vs x0 x1 y0 y1).card + 2 = 2 * (Spec.positions vs).card := by
  classical
  have hl : (normalizeVerts vs).length = vs.length := by rw [normalizeVerts_eq]; simp
  have hni := h.ids_inf
  have hscale := h.scale
  obtain ⟨s, rfl, hv, hok, hT, hocc, hC, hout, hs⟩ := h.chains hf.three ho
  have hB := h.boxMesh hf hok hocc hout
  have hcount := hB.count hv hT hC (fun q => inf_id hok hni)
  have ho := h.occ_count hs
  have hlen : (filterSeq s.ts).length = s.ts.countP (·.isFinite) := by
    rw [filterSeq_eq_map, List.length_map, List.countP_eq_length_filter]
  -- ids and positions
  have get : ∀ {v : Nat}, v < vs.length → ∃ A, vs[v]? = some A := fun hv => ⟨_, List.getElem?_eq_getElem hv⟩
  have hinj : ∀ {v w : Nat} {A : Vtx K}, Occ s.ts v → Occ s.ts w → vs[v]? = some A → vs[w]? = some A → v = w := by
    intro v w A o1 o2 g1 g2
    have := lt_of_getElem? g2
    exact occ_inj hv hT (by omega) o1 o2 (by rw [hp_norm_eq hni g1, hp_norm_eq hni g2])
  have hgp : ∀ v, v < vs.length → vs[v]? = some (vs.getD v ⟨0, 0⟩) := fun v hv => by
    obtain ⟨A, gA⟩ := get hv
    simp [List.getD_eq_getElem?_getD, gA]
  have hpos : (occIds vs.length s.ts).card = (Spec.positions vs).card := by
    refine Finset.card_bij (fun v _ => vs.getD v ⟨0, 0⟩) ?_ ?_ ?_
    · intro v hv
      exact List.mem_toFinset.2 (List.mem_of_getElem? (hgp v (mem_occIds.1 hv).1))
    · intro v hv w hw e
      obtain ⟨l1, o1⟩ := mem_occIds.1 hv
      obtain ⟨l2, o2⟩ := mem_occIds.1 hw
      exact hinj o1 o2 (hgp v l1) (by rw [hgp w l2, ← e])
    · intro P hP
      obtain ⟨w, gw, ow⟩ := hocc P (List.mem_toFinset.1 hP)
      have lw := lt_of_getElem? gw
      refine ⟨w, mem_occIds.2 ⟨lw, ow⟩, ?_⟩
      simp [List.getD_eq_getElem?_getD, gw]
  -- the border
  have hborder : ∀ P : Vtx K, (∃ k : Fin 4, (HP.dir k).out (HP.ofVtx (toNorm vs P)) = (HP.dir k).out (sideA ((x0 - (bbox vs).1) / scaleFactor vs)
      ((y0 - (bbox vs).2.1) / scaleFactor vs) ((x1 - x0) / scaleFactor vs) ((y1 - y0) / scaleFactor vs) k)) ↔
      (P.x = x0 ∨ P.x = x1 ∨ P.y = y0 ∨ P.y = y1) := by
    intro P
    have ex : (x0 - (bbox vs).1) / scaleFactor vs + (x1 - x0) / scaleFactor vs = (x1 - (bbox vs).1) / scaleFactor vs := by rw [← add_div]; congr 1; ring
    have ey : (y0 - (bbox vs).2.1) / scaleFactor vs + (y1 - y0) / scaleFactor vs = (y1 - (bbox vs).2.1) / scaleFactor vs := by rw [← add_div]; congr 1; ring
    simp only [Fin.exists_fin_succ, IsEmpty.exists_iff, or_false]
    simp [HP.out, HP.dir, HP.ofVtx, sideA, quadCorner, crn, toNorm, ex, ey, div_left_inj' hscale.ne']
    tauto
  have hbd : (borderIds (normalizeVerts vs) s.ts ((x0 - (bbox vs).1) / scaleFactor vs) ((y0 - (bbox vs).2.1) / scaleFactor vs)
      ((x1 - x0) / scaleFactor vs) ((y1 - y0) / scaleFactor vs)).card = (Spec.onBorder vs x0 x1 y0 y1).card := by
    have lt : ∀ {v}, Occ s.ts v → v < INF0 → v < vs.length := fun ov fv => by rw [← hl]; exact (occ_vok hok ov).resolve_right (by omega)
    refine Finset.card_bij (fun v _ => vs.getD v ⟨0, 0⟩) ?_ ?_ ?_
    · intro v hv
      obtain ⟨fv, ov, hk⟩ := mem_borderIds.1 hv
      have g := hgp v (lt ov fv)
      rw [hp_norm_eq hni g, hborder] at hk
      exact Finset.mem_filter.2 ⟨List.mem_toFinset.2 (List.mem_of_getElem? g), hk⟩
    · intro v hv w hw e
      obtain ⟨f1, o1, -⟩ := mem_borderIds.1 hv
      obtain ⟨f2, o2, -⟩ := mem_borderIds.1 hw
      exact hinj o1 o2 (hgp v (lt o1 f1)) (by rw [hgp w (lt o2 f2), ← e])
    · intro P hP
      obtain ⟨hP, hk⟩ := Finset.mem_filter.1 hP
      obtain ⟨w, gw, ow⟩ := hocc P (List.mem_toFinset.1 hP)
      have lw := lt_of_getElem? gw
      refine ⟨w, mem_borderIds.2 ⟨by omega, ow, ?_⟩, ?_⟩
      · rw [hp_norm_eq hni gw, hborder]; exact hk
      · simp [List.getD_eq_getElem?_getD, gw]
  omega

/-- **C78**. Every position is a corner of a triangle. -/
theorem C78_all (fuel : Nat) (bins : Nat → Nat) (vs : List (Vtx K)) (h : Good fuel bins vs) (x0 x1 y0 y1 : K)
    (hf : Spec.Boxed vs x0 x1 y0 y1) (out : List Out) (ho : triangulation2d fuel bins vs = .ok out) :
    ∀ P ∈ vs, ∃ o ∈ out, ∃ a b c : Nat, Spec.CornersOf o a b c ∧ vs[a]? = some P := by
  intro P hP
  obtain ⟨t, ht, A, B, C, gA, gB, gC, hin⟩ := C77_covers_closed fuel bins vs h x0 x1 y0 y1 hf out ho P (fun _ _ h => h P hP)
  rcases (h.tris ho).2.2 t ht _ _ _ A B C P (.inl rfl) gA gB gC hP hin with rfl | rfl | rfl
  · exact ⟨t, ht, _, _, _, .inl rfl, gA⟩
  · exact ⟨t, ht, _, _, _, .inr (.inr rfl), gB⟩
  · exact ⟨t, ht, _, _, _, .inr (.inl rfl), gC⟩

/-- **C78**. The same positions in another order, with other repetitions or with other bins give as many triangles. -/
theorem C78_same (fuel fuel' : Nat) (bins bins' : Nat → Nat) (vs vs' : List (Vtx K)) (h : Good fuel bins vs) (h' : Good fuel' bins' vs')
    (x0 x1 y0 y1 : K) (hf : Spec.Boxed vs x0 x1 y0 y1) (hsame : ∀ p, p ∈ vs ↔ p ∈ vs') (out out' : List Out)
    (ho : triangulation2d fuel bins vs = .ok out) (ho' : triangulation2d fuel' bins' vs' = .ok out') : out.length = out'.length := by
  have hf' : Spec.Boxed vs' x0 x1 y0 y1 := by
    obtain ⟨h1, h2, h3, h4, h5, h6, h7⟩ := hf
    exact ⟨h1, h2, (hsame _).1 h3, (hsame _).1 h4, (hsame _).1 h5, (hsame _).1 h6, fun p hp => h7 p ((hsame p).2 hp)⟩
  have e : Spec.positions vs = Spec.positions vs' := by
    ext p; simp only [Spec.positions, List.mem_toFinset]; exact hsame p
  have e1 := C78_count fuel bins vs h x0 x1 y0 y1 hf out ho
  have e2 := C78_count fuel' bins' vs' h' x0 x1 y0 y1 hf' out' ho'
  have e3 : Spec.onBorder vs x0 x1 y0 y1 = Spec.onBorder vs' x0 x1 y0 y1 := by unfold Spec.onBorder; rw [e]
  rw [e, e3] at e1
  omega

/-! ## Rounded arithmetic -/

/-- **C78** in rounded arithmetic (`f32`, `f64`) on robust inputs and on grids; `V` are the exact positions. -/
theorem C78_count_rounded {F : Type} [FloatOps F] [Rounded F] (fuel : Nat) (bins : Nat → Nat) (vs : List (Vtx F))
    (V : List (Vtx ℚ)) (W : ℚ) (h : Rounded.RGood fuel bins vs V W) (x0 x1 y0 y1 : ℚ) (hf : Spec.Boxed V x0 x1 y0 y1) (out : List Out)
    (ho : triangulation2d fuel bins vs = .ok out) :
    out.length + (Spec.onBorder V x0 x1 y0 y1).card + 2 = 2 * (Spec.positions V).card ∧
    ∀ P ∈ V, ∃ o ∈ out, ∃ a b c : Nat, Spec.CornersOf o a b c ∧ V[a]? = some P := by
  let P := Rounded.params F (bins vs.length) W (Rounded.scaleVal vs)
  rw [h.run] at ho
  exact ⟨C78_count fuel bins V h.good x0 x1 y0 y1 hf out ho, C78_all fuel bins V h.good x0 x1 y0 y1 hf out ho⟩

end Main

section Example
open Rounded
local instance boxCountCfg : IdCfg := u32Cfg

/-- Thirteen positions, seven of them on the border: seventeen triangles. -/
example : ∃ out, triangulation2d (F := F64) 812 Witness.defaultBins (flPts binary64 boxGrid) = .ok out ∧ out.length = 17 := by
  obtain ⟨out, ho⟩ := box_run
  refine ⟨out, ho, ?_⟩
  have h := (C78_count_rounded 812 _ _ _ _ box_goodC.toRGood 0 16 0 16 box_boxed out ho).1
  have h1 : (Spec.onBorder (intPts boxGrid) 0 16 0 16).card = 7 := by decide +kernel
  have h2 : (Spec.positions (intPts boxGrid)).card = 13 := by decide +kernel
  omega

end Example
end CDT

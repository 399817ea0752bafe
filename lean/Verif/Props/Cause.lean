import Verif.Geo.Cause
import Verif.Props.Ortho

/-! # C81: the only cause of failed insertions and of circles that are not empty -/

set_option linter.unusedSectionVars false
set_option linter.unusedSimpArgs false
set_option linter.unusedVariables false

namespace CDT
open Plane

/-- `out` are the triangles after the first `k + 1` insertions, of the vertices `ids` (`triangulation.rs:417-516`, the loop is left early; with
what `filter_triangles`, `triangulation.rs:521-551`, would return then). -/
def Spec.Stage {F : Type} [FloatOps F] [IdCfg] (fuel : Nat) (bins : Nat → Nat) (vs : List (Vtx F)) (k : Nat) (ids : List Nat)
    (out : List Out) : Prop :=
  ∃ first rest s, binSort (bins vs.length) (normalizeVerts vs) = .ok (first :: rest) ∧
    insertAll (normalizeVerts vs) fuel (rest.take k) ⟨initialTriangles first, 3, none⟩ = .ok s ∧
    ids = first :: rest.take k ∧ out = filterSeq s.ts

/-- The positions of the vertices `ids`. -/
def Spec.At {K : Type} (vs : List (Vtx K)) (ids : List Nat) : List (Vtx K) := ids.filterMap (vs[·]?)

theorem Spec.mem_at {K : Type} {vs : List (Vtx K)} {ids : List Nat} {P : Vtx K} : P ∈ Spec.At vs ids ↔ ∃ i ∈ ids, vs[i]? = some P := by
  simp [Spec.At]

section Main
variable {K : Type} [Field K] [LinearOrder K] [IsStrictOrderedRing K] [ExactParams K] [IdCfg]

/-- A point inside a triangle is inside the convex hull of any positions with the corners. -/
theorem Spec.insideHull_of_triangle {ws : List (Vtx K)} {A B C q : Vtx K} (mA : A ∈ ws) (mB : B ∈ ws) (mC : C ∈ ws)
    (h1 : area2 A B q < 0) (h2 : area2 B C q < 0) (h3 : area2 C A q < 0) : Spec.InsideHull ws q := by
  intro U V hUV hall
  have a := hall A mA
  have b := hall B mB
  have c := hall C mC
  have e : area2 U V q * (area2 A B q + area2 B C q + area2 C A q) =
      area2 U V A * area2 B C q + area2 U V B * area2 C A q + area2 U V C * area2 A B q := by
    simp only [area2]; ring
  have p1 := mul_nonneg_of_nonpos_of_nonpos a h2.le
  have p2 := mul_nonneg_of_nonpos_of_nonpos b h3.le
  have p3 := mul_nonneg_of_nonpos_of_nonpos c h1.le
  have hle : area2 U V q ≤ 0 := by
    by_contra hn
    have := mul_neg_of_pos_of_neg (not_le.1 hn) (by linarith : area2 A B q + area2 B C q + area2 C A q < 0)
    linarith
  refine lt_of_le_of_ne hle fun h0 => ?_
  rw [h0, zero_mul] at e
  have z1 : area2 U V A = 0 := (mul_eq_zero.1 (by linarith : area2 U V A * area2 B C q = 0)).resolve_right h2.ne
  have z2 : area2 U V B = 0 := (mul_eq_zero.1 (by linarith : area2 U V B * area2 C A q = 0)).resolve_right h3.ne
  have z3 : area2 U V C = 0 := (mul_eq_zero.1 (by linarith : area2 U V C * area2 A B q = 0)).resolve_right h1.ne
  have k1 : (V.x - U.x) * area2 A B C = 0 := by
    have : (V.x - U.x) * area2 A B C = (B.x - A.x) * (area2 U V C - area2 U V A) - (C.x - A.x) * (area2 U V B - area2 U V A) := by
      simp only [area2]; ring
    rw [this, z1, z2, z3]; ring
  have k2 : (V.y - U.y) * area2 A B C = 0 := by
    have : (V.y - U.y) * area2 A B C = (B.y - A.y) * (area2 U V C - area2 U V A) - (C.y - A.y) * (area2 U V B - area2 U V A) := by
      simp only [area2]; ring
    rw [this, z1, z2, z3]; ring
  have hS : area2 A B C ≠ 0 := by
    have : area2 A B C = area2 A B q + area2 B C q + area2 C A q := by simp only [area2]; ring
    rw [this]; exact ne_of_lt (by linarith)
  apply hUV
  have k1 := (mul_eq_zero.1 k1).resolve_right hS
  have k2 := (mul_eq_zero.1 k2).resolve_right hS
  cases U; cases V
  simp only at k1 k2
  rw [sub_eq_zero.1 k1, sub_eq_zero.1 k2]

variable {fuel : Nat} {bins : Nat → Nat} {vs : List (Vtx K)}

/-- What holds at every stage. -/
theorem Good.stage (h : Good fuel bins vs) {first : Nat} {rest : List Nat}
    (hb : binSort (bins vs.length) (normalizeVerts vs) = .ok (first :: rest)) {k : Nat} {s : DT}
    (hs : insertAll (normalizeVerts vs) fuel (rest.take k) ⟨initialTriangles first, 3, none⟩ = .ok s) :
    Valid (hp (normalizeVerts vs)) s.ts ∧ Tiled (normalizeVerts vs) s.ts ∧ VertsIn (VOk (normalizeVerts vs).length) s.ts ∧
    Convexish (normalizeVerts vs) s.ts ∧ (∀ k : Fin 4, ∃ i, Ent s.ts i (INF0 + k) (INF0 + (k + 1 : Fin 4)) NONE) ∧
    (∀ v, Occ s.ts v → v < INF0 → ∃ P, vs[v]? = some P ∧ P ∈ Spec.At vs (first :: rest.take k)) ∧
    (∀ P ∈ Spec.At vs (first :: rest.take k), ∃ v, vs[v]? = some P ∧ Occ s.ts v) := by
  have hl : (normalizeVerts vs).length = vs.length := by rw [normalizeVerts_eq]; simp
  have hni := h.ids_inf
  have hsc := h.scale
  obtain ⟨ins, hI, hf, hfi, hst⟩ := h.prefix_run hb (mergeInit_none _) k hs
  have hf' : first < (normalizeVerts vs).length := by rw [hl]; exact hf
  have hv0 := initial_valid (vs := normalizeVerts vs) hf' hni
  have hperm := binSort_perm (by rw [hl]; have := h.ids; unfold NONE at this; omega) hb
  have hnd : (first :: rest).Nodup := hperm.nodup_iff.2 List.nodup_range
  have hlt : ∀ v ∈ first :: rest, v < (normalizeVerts vs).length := fun v hv => by simpa using hperm.subset hv
  have hlen := hperm.length_eq
  simp at hlen
  rw [List.nodup_cons] at hnd
  have hsub : ∀ v ∈ rest.take k, v ∈ rest := fun v hv => List.mem_of_mem_take hv
  have hdone : ∀ v, v ∈ (rest.take k).reverse ++ [first] ↔ v ∈ first :: rest.take k := by intro v; simp; tauto
  refine ⟨hI.valid, tiled_steps hst hv0 (tiled_initial hf' hni), hI.ok, ?_, fun q => steps_outer hst hv0 (initial_outer first q), ?_, ?_⟩
  · refine insertAll_convex (fuel := fuel) h.sep (by rw [hl]; exact h.ids) (by rw [hl]; exact h.fuel) (rest.take k) [first] [first] _ s
      (initial_dinv hf' hni none (mergeInit_none _)) (hnd.2.sublist (List.take_sublist _ _)) ?_ (fun v hv => hlt v (by simp [hsub v hv])) ?_
      initial_convex (tiled_initial hf' hni) hs
    · intro v hv hc; simp at hc; subst hc; exact hnd.1 (hsub _ hv)
    · have : (rest.take k).length ≤ rest.length := by simp
      simp only [List.length_cons, List.length_nil]; omega
  · rintro v ⟨i, t, gt, htv⟩ fv
    have := fun k => hI.verts.get gt k
    rw [forall_fin3] at this
    rw [hasVert_iff] at htv
    simp only [Tri.v_0, Tri.v_1, Tri.v_2] at this
    have hvi : v ∈ ins := by
      rcases htv with h | h | h
      · rw [h] at this; exact this.1.resolve_right (by omega)
      · rw [h] at this; exact this.2.1.resolve_right (by omega)
      · rw [h] at this; exact this.2.2.resolve_right (by omega)
    have hd := hI.sub _ hvi
    obtain ⟨P, gP, -⟩ := getI_lt (show v < vs.length by rw [← hl]; exact hI.dlt _ hd)
    exact ⟨P, gP, Spec.mem_at.2 ⟨v, (hdone v).1 hd, gP⟩⟩
  · intro P hP
    obtain ⟨v, hv, gP⟩ := Spec.mem_at.1 hP
    by_cases hvi : v ∈ ins
    · exact ⟨v, gP, hI.occ v hvi⟩
    · obtain ⟨z, hz, a, b, ga, gb, hcl, -⟩ := hI.merged v ((hdone v).2 hv) hvi
      have heq := tooClose_eq h.sep (List.mem_of_getElem? gb) (List.mem_of_getElem? ga) hcl
      refine ⟨z, ?_, hI.occ z hz⟩
      rw [normalizeVerts_eq, List.getElem?_map, Option.map_eq_some_iff] at ga gb
      obtain ⟨A, gA, rfl⟩ := ga
      obtain ⟨B, gB, rfl⟩ := gb
      rw [gP] at gA
      simp only [Option.some.injEq] at gA
      subst gA
      rw [gB, toNorm_inj hsc.ne' heq]

/-- If the border is convex at every stage. -/
theorem Good.convex_stages (h : Good fuel bins vs) (h3 : 3 ≤ vs.length)
    (hc : ∀ first rest k s, binSort (bins vs.length) (normalizeVerts vs) = .ok (first :: rest) →
      insertAll (normalizeVerts vs) fuel (rest.take k) ⟨initialTriangles first, 3, none⟩ = .ok s → HullConvex (normalizeVerts vs) s.ts) :
    ∃ out, triangulation2d fuel bins vs = .ok out ∧ Spec.Delaunay vs out := by
  have hl : (normalizeVerts vs).length = vs.length := by rw [normalizeVerts_eq]; simp
  have hni := h.ids_inf
  have hids := h.ids
  obtain ⟨sorted, hso, hperm⟩ := C13_binSort_unit (bins vs.length) (normalizeVerts vs) h.bins (by rw [hl]; unfold NONE at hids; omega) h.unit
  rw [hl] at hperm
  cases sorted with
  | nil => have := hperm.length_eq; simp at this; omega
  | cons first rest =>
    have hnd : (first :: rest).Nodup := hperm.nodup_iff.2 List.nodup_range
    have hlt : ∀ v ∈ first :: rest, v < (normalizeVerts vs).length := fun v hv => by rw [hl]; simpa using hperm.subset hv
    have hlen := hperm.length_eq
    simp at hlen
    rw [List.nodup_cons] at hnd
    have hf' : first < (normalizeVerts vs).length := hlt _ (by simp)
    obtain ⟨s, hs, hE⟩ := insertAll_out (fuel := fuel) h.sep (by rw [hl]; exact h.ids) (by rw [hl]; exact h.fuel) rest [first] [first] _
      (initial_dinv hf' hni none (mergeInit_none _)) hnd.2 (by intro v hv hc; simp at hc; subst hc; exact hnd.1 hv)
      (fun v hv => hlt v (by simp [hv])) (by simp; omega) (initial_emp first) (tiled_initial hf' hni) (fun k s hk => hc first rest k s hso hk)
    obtain ⟨ins, hI, -⟩ := h.prefix_run hso (mergeInit_none _) rest.length (by rw [List.take_length]; exact hs)
    rw [List.take_length] at hI
    refine ⟨filterSeq s.ts, ?_, hE.delaunay h.scale h.sep hni hI ?_⟩
    · have e : lastId (initialTriangles first) = .ok 3 := by
        have := IdCfg.big
        simpa [initialTriangles] using lastId_ok (ts := initialTriangles first) (by simp [initialTriangles]) (by simp [initialTriangles, NONE]; omega)
      unfold triangulation2d
      rw [if_neg (by omega)]
      unfold wrapAndTriangulate
      simp only [hso, Res.ok_bind, e, hs]
    · refine List.Perm.trans ?_ hperm
      refine (List.perm_append_comm).trans ?_
      simp only [List.singleton_append, List.perm_cons]
      exact List.reverse_perm _

/-- **C81**. If after each insertion the points strictly inside the convex hull of the vertices so far are covered, then all insertions
succeed and the result is a Delaunay triangulation. Any bins. -/
theorem C81_delaunay (fuel : Nat) (bins : Nat → Nat) (vs : List (Vtx K)) (h : Good fuel bins vs) (h3 : 3 ≤ vs.length)
    (hc : ∀ k ids o, Spec.Stage fuel bins vs k ids o → ∀ q, Spec.InsideHull (Spec.At vs ids) q → Spec.Covered vs o q) :
    ∃ out, triangulation2d fuel bins vs = .ok out ∧ Spec.Delaunay vs out := by
  have hni := h.ids_inf
  have hsc := h.scale
  refine h.convex_stages h3 fun first rest k s hb hs => ?_
  obtain ⟨hv, ht, hok, -, -, hpos, -⟩ := h.stage hb hs
  by_contra hn
  obtain ⟨a, b, c, ⟨oa, fa⟩, ⟨ob, fb⟩, ⟨oc, fc⟩, P, wP, ⟨i1, i2, i3⟩, hun⟩ := hull_gap hv ht hn
  obtain ⟨A, gA, mA⟩ := hpos a oa fa
  obtain ⟨B, gB, mB⟩ := hpos b ob fb
  obtain ⟨C, gC, mC⟩ := hpos c oc fc
  obtain ⟨q, eq⟩ := exists_toNorm hsc ⟨P.x, P.y⟩
  have eP : P = HP.ofVtx (toNorm vs q) := by
    rw [← eq]; cases P; simp only at wP; subst wP; rfl
  rw [eP] at i1 i2 i3 hun
  rw [hp_norm_eq hni gA, hp_norm_eq hni gB] at i1
  rw [hp_norm_eq hni gB, hp_norm_eq hni gC] at i2
  rw [hp_norm_eq hni gC, hp_norm_eq hni gA] at i3
  have hq : Spec.InsideHull (Spec.At vs (first :: rest.take k)) q := Spec.insideHull_of_triangle mA mB mC
    ((o_toNorm_pos hsc).1 i1) ((o_toNorm_pos hsc).1 i2) ((o_toNorm_pos hsc).1 i3)
  obtain ⟨t, mt, X, Y, Z, gX, gY, gZ, e1, e2, e3⟩ := hc k _ _ ⟨first, rest, s, hb, hs, rfl, rfl⟩ q hq
  obtain ⟨T, hTm, hTf, rfl⟩ := mem_filterSeq mt
  obtain ⟨i, hTi⟩ := List.mem_iff_getElem?.1 hTm
  have hle : ∀ {a : Nat} {A : Vtx K}, vs[a]? = some A → a < INF0 := fun ha => by
    have := lt_of_getElem? ha; rw [normalizeVerts_eq, List.length_map] at hni; omega
  refine hun i T hTi (hle gX) (hle gY) (hle gZ) ?_
  rw [show hp (normalizeVerts vs) T.v1 = _ from hp_norm_eq hni gX, show hp (normalizeVerts vs) T.v2 = _ from hp_norm_eq hni gY,
    show hp (normalizeVerts vs) T.v3 = _ from hp_norm_eq hni gZ]
  exact ⟨(o_toNorm_nonneg hsc).2 e1, (o_toNorm_nonneg hsc).2 e2, (o_toNorm_nonneg hsc).2 e3⟩

/-- **C81**, the other way around: the cause of a failure, or of a circle that is not empty, is that at some stage a point strictly inside
the convex hull of the vertices so far is in no triangle. -/
theorem C81_cause (fuel : Nat) (bins : Nat → Nat) (vs : List (Vtx K)) (h : Good fuel bins vs) (h3 : 3 ≤ vs.length)
    (hn : ¬ ∃ out, triangulation2d fuel bins vs = .ok out ∧ Spec.Delaunay vs out) :
    ∃ k ids o, Spec.Stage fuel bins vs k ids o ∧ ∃ q, Spec.InsideHull (Spec.At vs ids) q ∧ ¬ Spec.Covered vs o q := by
  by_contra hx
  push Not at hx
  exact hn (C81_delaunay fuel bins vs h h3 fun k ids o hs q hq => hx k ids o hs q hq)

/-- Corners that are extreme at a stage. -/
theorem Good.extreme_at (h : Good fuel bins vs) {ws : List (Vtx K)} {k : Fin 4} (hf : Spec.CornerExtreme ws (quadX k) (quadY k))
    {ts : List Tri} (hpos : ∀ v, Occ ts v → v < INF0 → ∃ P, vs[v]? = some P ∧ P ∈ ws) (hocc : ∀ P ∈ ws, ∃ v, vs[v]? = some P ∧ Occ ts v) :
    Extreme (normalizeVerts vs) ts k := by
  have hl : (normalizeVerts vs).length = vs.length := by rw [normalizeVerts_eq]; simp
  have hni := h.ids_inf
  have hs := h.scale
  have d : ∀ a b c : K, (a - c) / scaleFactor vs ≤ (b - c) / scaleFactor vs ↔ a ≤ b := fun a b c => by
    rw [div_le_div_iff_of_pos_right hs]; constructor <;> intro h <;> linarith
  intro v ov fv he
  obtain ⟨A, gA, mA⟩ := hpos v ov fv
  have eA := hp_norm_eq hni gA
  have := hf A mA fun P hP h1 h2 => ?_
  · have : (∀ p ∈ ws, (HP.dir k).out (HP.ofVtx (toNorm vs p)) ≤ (HP.dir k).out (HP.ofVtx (toNorm vs A))) ∨
        (∀ p ∈ ws, (HP.dir (k + 1)).out (HP.ofVtx (toNorm vs p)) ≤ (HP.dir (k + 1)).out (HP.ofVtx (toNorm vs A))) := by
      revert this
      fin_cases k <;> simp [HP.out, HP.dir, HP.ofVtx, toNorm, quadX, quadY, quadCorner, Spec.Beyond, d] <;> tauto
    rw [eA]
    refine this.imp (fun h q oq fq => ?_) (fun h q oq fq => ?_)
    all_goals
      obtain ⟨B, gB, mB⟩ := hpos q oq fq
      rw [hp_norm_eq hni gB]
      exact h B mB
  · obtain ⟨w, gw, ow⟩ := hocc P hP
    have lw := lt_of_getElem? gw
    have ew := hp_norm_eq hni gw
    obtain ⟨q1, q2⟩ := (beyond_norm hs k A P).2 ⟨h1, h2⟩
    have : w = v := he w ow (by omega) (by rw [eA, ew]; exact q1) (by rw [eA, ew]; exact q2)
    subst this
    rw [gA] at gw
    simpa using gw.symm

/-- **C81**, a condition on the input: if after each insertion the corners of the vertices so far are extreme, then all insertions succeed
and the result is a Delaunay triangulation. -/
theorem C81_corners (fuel : Nat) (bins : Nat → Nat) (vs : List (Vtx K)) (h : Good fuel bins vs) (h3 : 3 ≤ vs.length) (order : List Nat)
    (hb : binSort (bins vs.length) (normalizeVerts vs) = .ok order)
    (hc : ∀ k, 1 ≤ k → k ≤ order.length → Spec.CornersExtreme (Spec.At vs (order.take k))) :
    ∃ out, triangulation2d fuel bins vs = .ok out ∧ Spec.Delaunay vs out := by
  have hni := h.ids_inf
  refine h.convex_stages h3 fun first rest k s hb' hs => ?_
  obtain ⟨hv, ht, hok, hC, hout, hpos, hocc⟩ := h.stage hb' hs
  have e : order = first :: rest := by rw [hb] at hb'; simpa using hb'
  subst e
  have hce : Spec.CornersExtreme (Spec.At vs (first :: rest.take k)) := by
    by_cases hk : k ≤ rest.length
    · have := hc (k + 1) (by omega) (by simp; omega)
      rwa [List.take_succ_cons] at this
    · have := hc (rest.length + 1) (by omega) (by simp)
      rwa [List.take_succ_cons, List.take_length, ← List.take_of_length_le (l := rest) (i := k) (by omega)] at this
  have hM : CornerMesh (normalizeVerts vs) s.ts := ⟨hout, fun k => h.extreme_at (hce _ _) hpos hocc⟩
  intro x y z q hT fx fy fz oq fq
  obtain ⟨j, rfl⟩ := inf_id hok hni hT.next.next.occ fz
  have := hM.below hv ht hC (fun q => inf_id hok hni) hT fy fx oq fq
  rw [HP.o_swap]; linarith

/-- Whether the corners are extreme depends on the positions only. -/
theorem Spec.CornersExtreme.congr {ws ws' : List (Vtx K)} (h : Spec.CornersExtreme ws) (e : ∀ P, P ∈ ws ↔ P ∈ ws') : Spec.CornersExtreme ws' := by
  intro i j v hv he
  exact (h i j v ((e v).2 hv) fun p hp => he p ((e p).1 hp)).imp (fun h p hp => h p ((e p).2 hp)) (fun h p hp => h p ((e p).2 hp))

/-- **C81** with one bin: the vertices are inserted from the last one to the first one, so that the condition is about the ends of the
input. -/
theorem C81_one_bin (fuel : Nat) (bins : Nat → Nat) (vs : List (Vtx K)) (h : Good fuel bins vs) (h3 : 3 ≤ vs.length) (h1 : bins vs.length = 1)
    (hc : ∀ k, k < vs.length → Spec.CornersExtreme (vs.drop k)) :
    ∃ out, triangulation2d fuel bins vs = .ok out ∧ Spec.Delaunay vs out := by
  have hl : (normalizeVerts vs).length = vs.length := by rw [normalizeVerts_eq]; simp
  have hids := h.ids
  have hnn : (normalizeVerts vs).length ≤ IdCfg.maxId + 1 := by rw [hl]; unfold NONE at hids; omega
  obtain ⟨order, hso, -⟩ := C13_binSort_unit (bins vs.length) (normalizeVerts vs) h.bins hnn h.unit
  have e := hso
  rw [h1] at e
  have e := binSort_one hnn e
  rw [hl] at e
  refine C81_corners fuel bins vs h h3 order hso fun k k1 k2 => ?_
  rw [e, List.length_reverse, List.length_range] at k2
  refine (hc (vs.length - k) (by omega)).congr fun P => ?_
  rw [Spec.mem_at, e]
  constructor
  · intro hP
    obtain ⟨j, gj⟩ := List.mem_iff_getElem?.1 hP
    rw [List.getElem?_drop] at gj
    have lj := lt_of_getElem? gj
    refine ⟨_, ?_, gj⟩
    refine List.mem_iff_getElem?.2 ⟨k - 1 - j, ?_⟩
    rw [List.getElem?_take, if_pos (by omega), List.getElem?_reverse (by simp; omega), List.length_range, List.getElem?_range (by omega)]
    congr 1; omega
  · rintro ⟨i, hi, gi⟩
    obtain ⟨j, gj⟩ := List.mem_iff_getElem?.1 hi
    rw [List.getElem?_take] at gj
    split at gj
    · rename_i hj
      have lj := lt_of_getElem? gj
      simp only [List.length_reverse, List.length_range] at lj
      rw [List.getElem?_reverse (by simpa using lj), List.length_range, List.getElem?_range (by omega)] at gj
      simp only [Option.some.injEq] at gj
      refine List.mem_iff_getElem?.2 ⟨i - (vs.length - k), ?_⟩
      rw [List.getElem?_drop, ← gi]
      congr 1; omega
    · simp at gj

/-! ## Rounded arithmetic -/

theorem Spec.Stage.exact {F : Type} [FloatOps F] [Rounded F] {fuel : Nat} {bins : Nat → Nat} {vs : List (Vtx F)}
    {V : List (Vtx ℚ)} {W : ℚ} (h : Rounded.RGood fuel bins vs V W) {k : Nat} {ids : List Nat} {o : List Out} :
    letI := Rounded.params F (bins vs.length) W (Rounded.scaleVal vs)
    Spec.Stage fuel bins vs k ids o ↔ Spec.Stage fuel bins V k ids o := by
  let P := Rounded.params F (bins vs.length) W (Rounded.scaleVal vs)
  constructor
  · rintro ⟨first, rest, s, hb, hs, e1, e2⟩
    exact ⟨first, rest, s, h.binSort_eq ▸ hb, (h.insertAll_eq hb k) ▸ hs, e1, e2⟩
  · rintro ⟨first, rest, s, hb, hs, e1, e2⟩
    have hb' := hb
    rw [← h.binSort_eq] at hb'
    exact ⟨first, rest, s, hb', by rw [h.insertAll_eq hb' k]; exact hs, e1, e2⟩

/-- **C81** in rounded arithmetic (`f32`, `f64`) on robust inputs and on grids; `V` are the exact positions. -/
theorem C81_delaunay_rounded {F : Type} [FloatOps F] [Rounded F] (fuel : Nat) (bins : Nat → Nat) (vs : List (Vtx F))
    (V : List (Vtx ℚ)) (W : ℚ) (h : Rounded.RGood fuel bins vs V W) (h3 : 3 ≤ vs.length)
    (hc : ∀ k ids o, Spec.Stage fuel bins vs k ids o → ∀ q, Spec.InsideHull (Spec.At V ids) q → Spec.Covered V o q) :
    ∃ out, triangulation2d fuel bins vs = .ok out ∧ Spec.Delaunay V out := by
  let P := Rounded.params F (bins vs.length) W (Rounded.scaleVal vs)
  rw [h.run]
  exact C81_delaunay fuel bins V h.good (by rw [h.len]; exact h3) fun k ids o hs => hc k ids o ((Spec.Stage.exact h).2 hs)

/-- **C81**, the cause, in rounded arithmetic. -/
theorem C81_cause_rounded {F : Type} [FloatOps F] [Rounded F] (fuel : Nat) (bins : Nat → Nat) (vs : List (Vtx F))
    (V : List (Vtx ℚ)) (W : ℚ) (h : Rounded.RGood fuel bins vs V W) (h3 : 3 ≤ vs.length)
    (hn : ¬ ∃ out, triangulation2d fuel bins vs = .ok out ∧ Spec.Delaunay V out) :
    ∃ k ids o, Spec.Stage fuel bins vs k ids o ∧ ∃ q, Spec.InsideHull (Spec.At V ids) q ∧ ¬ Spec.Covered V o q := by
  by_contra hx
  push Not at hx
  exact hn (C81_delaunay_rounded fuel bins vs V W h h3 fun k ids o hs q hq => hx k ids o hs q hq)

/-- The condition on the order of the vertices. -/
theorem C81_corners_rounded {F : Type} [FloatOps F] [Rounded F] (fuel : Nat) (bins : Nat → Nat) (vs : List (Vtx F))
    (V : List (Vtx ℚ)) (W : ℚ) (h : Rounded.RGood fuel bins vs V W) (h3 : 3 ≤ vs.length) (order : List Nat)
    (hb : binSort (bins vs.length) (normalizeVerts vs) = .ok order)
    (hc : ∀ k, 1 ≤ k → k ≤ order.length → Spec.CornersExtreme (Spec.At V (order.take k))) :
    ∃ out, triangulation2d fuel bins vs = .ok out ∧ Spec.Delaunay V out := by
  let P := Rounded.params F (bins vs.length) W (Rounded.scaleVal vs)
  rw [h.run]
  exact C81_corners fuel bins V h.good (by rw [h.len]; exact h3) order (h.binSort_eq ▸ hb) hc

end Main

section Example
open Rounded
local instance causeCfg : IdCfg := u32Cfg

/-- Nine points, without the corners of their bounding rectangle, in four bins. -/
def causeGrid : List (Int × Int) := [(6,10),(16,1),(6,11),(0,5),(16,6),(4,0),(12,11),(12,0),(16,9)]

theorem cause_good : RGood (F := F64) 70 Witness.defaultBins (flPts binary64 causeGrid) (intPts causeGrid) (2 ^ 4) :=
  C44_grid causeGrid 4 (by decide) (by decide) (by decide) ⟨by norm_num, by decide +kernel, by decide +kernel⟩
    (by decide) (by decide +kernel) (by decide) (by decide)

/-- The order in which they are inserted. -/
def causeOrder : List Nat := [5, 3, 7, 4, 1, 8, 6, 2, 0]

theorem cause_order : binSort (F := F64) (Witness.defaultBins (flPts binary64 causeGrid).length) (normalizeVerts (flPts binary64 causeGrid)) =
    .ok causeOrder := by decide +kernel

/-- The corners are extreme after each insertion, so that the triangulation succeeds in `f64`, is Delaunay and covers the convex hull. -/
example : ∃ out, triangulation2d (F := F64) 70 Witness.defaultBins (flPts binary64 causeGrid) = .ok out ∧
    Spec.Delaunay (intPts causeGrid) out ∧ Spec.CoversConvex (intPts causeGrid) out := by
  obtain ⟨out, ho, hd⟩ := C81_corners_rounded 70 _ _ _ _ cause_good (by decide) causeOrder cause_order (by
    have h : ∀ k ∈ List.range 10, Spec.CornersExtreme (Spec.At (intPts causeGrid) (causeOrder.take k)) := by
      unfold Spec.CornersExtreme Spec.CornerExtreme Spec.Beyond Spec.At
      decide +kernel
    intro k h1 h2
    exact h k (List.mem_range.2 (Nat.lt_succ_of_le h2)))
  refine ⟨out, ho, hd, (C79_covers_rounded 70 _ _ _ _ cause_good ?_ ?_ out ho).1⟩
  · unfold Spec.CornersExtreme Spec.CornerExtreme Spec.Beyond
    decide +kernel
  · unfold Spec.NotOnLine Plane.area2
    decide +kernel

/-- The input of `C53_default_bins_refuted`, whose result is no Delaunay triangulation: at some stage a part of the convex hull was not
covered. -/
example : ∃ k ids o, Spec.Stage (F := F64) 506 Witness.defaultBins (flPts binary64 binsGrid) k ids o ∧
    ∃ q, Spec.InsideHull (Spec.At (intPts binsGrid) ids) q ∧ ¬ Spec.Covered (intPts binsGrid) o q := by
  obtain ⟨h, -, -, out, ho, hn⟩ := C53_default_bins_refuted
  refine C81_cause_rounded 506 _ _ _ _ h (by decide) ?_
  rintro ⟨out', ho', hd⟩
  rw [ho] at ho'
  simp only [Res.ok.injEq] at ho'
  exact hn (ho' ▸ hd)

end Example
end CDT

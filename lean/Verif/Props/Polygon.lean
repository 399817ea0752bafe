import Verif.Geo.Region
import Verif.Props.Framed
import Verif.Props.Flood

/-!
# Polygons with holes

The triangles of the constrained output fill exactly the region bounded by the constraints.
-/

set_option linter.unusedSectionVars false
set_option linter.unusedVariables false

namespace CDT
open Plane

variable [IdCfg]

/-- The constraint set after the loop: the merged constraints, each once. -/
theorem applyLoop_S_mem {F : Type} [FloatOps F] {vs : List (Vtx F)} {fuel : Nat} {merge : List Nat} {l : List Edge} {s s' : AC}
    (h : applyLoop vs fuel merge l s = .ok s') (hnd : s.S.Nodup) :
    s'.S.Nodup ∧ ∀ e' ∈ s'.S, e' ∈ s.S ∨ ∃ e ∈ l, merge[e.src]? = some e'.src ∧ merge[e.dst]? = some e'.dst := by
  induction l generalizing s with
  | nil => simp [applyLoop] at h; subst h; exact ⟨hnd, fun e he => .inl he⟩
  | cons e l ih =>
    simp only [applyLoop, Res.bind_eq_ok] at h
    obtain ⟨s1, h1, h⟩ := h
    have hone : s1.S.Nodup ∧ ∀ e' ∈ s1.S, e' ∈ s.S ∨ (merge[e.src]? = some e'.src ∧ merge[e.dst]? = some e'.dst) := by
      obtain ⟨x, y, hx, hy, ⟨he, rfl⟩ | ⟨_, hm, rfl⟩ | ⟨_, hm, hi⟩⟩ := applyOne_ok h1
      · exact ⟨hnd, fun e he => .inl he⟩
      · exact ⟨hnd, fun e he => .inl he⟩
      · have hS : s1.S = ⟨x, y⟩ :: s.S := by
          unfold insertEdge at hi
          simp only [Res.bind_eq_ok] at hi
          obtain ⟨_, _, _, _, q, _, hi⟩ := hi
          cases q with
          | nil => simp at hi; rw [← hi]
          | cons a q =>
            simp only [Res.bind_eq_ok] at hi
            obtain ⟨_, _, _, _, hi⟩ := hi
            simp at hi; rw [← hi]
        rw [hS]
        refine ⟨List.nodup_cons.2 ⟨hm, hnd⟩, fun e' he' => ?_⟩
        rcases List.mem_cons.1 he' with rfl | he'
        · exact .inr ⟨hx, hy⟩
        · exact .inl he'
    obtain ⟨i1, i2⟩ := ih h hone.1
    refine ⟨i1, fun e' he' => ?_⟩
    rcases i2 e' he' with h | ⟨f, hf, h⟩
    · rcases hone.2 e' h with h | h
      · exact .inl h
      · exact .inr ⟨e, by simp, h⟩
    · exact .inr ⟨f, by simp [hf], h⟩

variable {K : Type} [Field K] [LinearOrder K] [IsStrictOrderedRing K]

theorem mem_segments {vs : List (Vtx K)} {es : List Edge} {s : Vtx K × Vtx K} :
    s ∈ Spec.segments vs es ↔ ∃ e ∈ es, vs[e.src]? = some s.1 ∧ vs[e.dst]? = some s.2 := by
  unfold Spec.segments
  rw [List.mem_filterMap]
  constructor
  · rintro ⟨e, he, h⟩
    refine ⟨e, he, ?_⟩
    split at h
    · rename_i a b ha hb; simp at h; subst h; exact ⟨ha, hb⟩
    · simp at h
  · rintro ⟨e, he, h1, h2⟩
    exact ⟨e, he, by rw [h1, h2]⟩

/-- Distinct segments come from distinct constraints. -/
theorem segments_inj {vs : List (Vtx K)} {es : List Edge} (h : (Spec.segments vs es).Nodup) {e e' : Edge} (he : e ∈ es) (he' : e' ∈ es)
    {A B : Vtx K} (h1 : vs[e.src]? = some A) (h2 : vs[e.dst]? = some B) (h1' : vs[e'.src]? = some A) (h2' : vs[e'.dst]? = some B) : e = e' := by
  induction es with
  | nil => simp at he
  | cons x l ih =>
    unfold Spec.segments at h
    rw [List.filterMap_cons] at h
    have tail : (Spec.segments vs l).Nodup := by
      split at h
      · exact h
      · exact (List.nodup_cons.1 h).2
    have head : ∀ y ∈ l, vs[x.src]? = some A → vs[x.dst]? = some B → vs[y.src]? = some A → vs[y.dst]? = some B → False := by
      intro y hy a1 a2 b1 b2
      rw [a1, a2] at h
      exact (List.nodup_cons.1 h).1 (mem_segments.2 ⟨y, hy, b1, b2⟩)
    rcases List.mem_cons.1 he with k | k <;> rcases List.mem_cons.1 he' with k' | k'
    · rw [k, k']
    · exact (head e' k' (k ▸ h1) (k ▸ h2) h1' h2').elim
    · exact (head e k (k' ▸ h1') (k' ▸ h2') h1 h2).elim
    · exact ih tail k k'

/-! ## Change of coordinates -/

/-- The affine map of the normalization. -/
def aff (x0 y0 s : K) (q : Vtx K) : Vtx K := ⟨(q.x - x0) / s, (q.y - y0) / s⟩

theorem crossing_aff {x0 y0 s : K} (hs : 0 < s) (a b q : Vtx K) : crossing (aff x0 y0 s a) (aff x0 y0 s b) (aff x0 y0 s q) = crossing a b q := by
  have e : area2 (aff x0 y0 s a) (aff x0 y0 s b) (aff x0 y0 s q) = area2 a b q / s ^ 2 := by
    simp only [area2, aff]; field_simp; ring
  have le : ∀ u v : Vtx K, (aff x0 y0 s u).y ≤ (aff x0 y0 s v).y ↔ u.y ≤ v.y := by
    intro u v; simp only [aff]; rw [div_le_div_iff_of_pos_right hs]; constructor <;> intro h <;> linarith
  have lt : ∀ u v : Vtx K, (aff x0 y0 s u).y < (aff x0 y0 s v).y ↔ u.y < v.y := by
    intro u v; rw [← not_le, le, not_le]
  have hs2 : 0 < s ^ 2 := by positivity
  unfold crossing
  rw [e]
  simp only [le, lt, div_neg_iff, div_pos_iff_of_pos_right hs2]
  have : (0 < area2 a b q ∧ s ^ 2 < 0 ∨ area2 a b q < 0 ∧ 0 < s ^ 2) ↔ area2 a b q < 0 :=
    ⟨fun h => h.elim (fun h => absurd h.2 hs2.not_gt) fun h => h.1, fun h => .inr ⟨h, hs2⟩⟩
  simp only [this]

theorem winding_aff {x0 y0 s : K} (hs : 0 < s) (l : List (Vtx K × Vtx K)) (q : Vtx K) :
    winding (l.map fun e => (aff x0 y0 s e.1, aff x0 y0 s e.2)) (aff x0 y0 s q) = winding l q := by
  unfold winding
  rw [List.map_map]
  congr 1
  exact List.map_congr_left fun e _ => crossing_aff hs _ _ _

theorem onSegment_aff {x0 y0 s : K} (hs : 0 < s) (a b q : Vtx K) :
    OnSegment (aff x0 y0 s a) (aff x0 y0 s b) (aff x0 y0 s q) ↔ OnSegment a b q := by
  have hs' := hs.ne'
  constructor
  · rintro ⟨t, h0, h1, hx, hy⟩
    refine ⟨t, h0, h1, ?_, ?_⟩
    · simp only [aff] at hx; field_simp at hx; linarith
    · simp only [aff] at hy; field_simp at hy; linarith
  · rintro ⟨t, h0, h1, hx, hy⟩
    refine ⟨t, h0, h1, ?_, ?_⟩
    · simp only [aff]; rw [hx]; field_simp; ring
    · simp only [aff]; rw [hy]; field_simp; ring

theorem aff_surj {x0 y0 s : K} (hs : 0 < s) (q : Vtx K) : ∃ p, aff x0 y0 s p = q := by
  refine ⟨⟨q.x * s + x0, q.y * s + y0⟩, ?_⟩
  have hs' := hs.ne'
  obtain ⟨a, b⟩ := q
  simp only [aff, Vtx.mk.injEq]
  constructor <;> field_simp <;> ring

theorem winding_perm {l l' : List (Vtx K × Vtx K)} (h : l.Perm l') (q : Vtx K) : winding l q = winding l' q :=
  (h.map _).sum_eq

theorem balanced_perm {l l' : List (Vtx K × Vtx K)} (h : l.Perm l') (hb : Balanced l) : Balanced l' :=
  ((h.map _).symm.trans hb).trans (h.map _)

theorem balanced_map {l : List (Vtx K × Vtx K)} (f : Vtx K → Vtx K) (hb : Balanced l) : Balanced (l.map fun e => (f e.1, f e.2)) := by
  have := hb.map f
  unfold Balanced
  rw [List.map_map, List.map_map] at *
  exact this

variable [ExactParams K]

/-- Every merged constraint is an edge of the final mesh. -/
theorem Good.merged_edge {fuel : Nat} {bins : Nat → Nat} {vs : List (Vtx K)} (h : Good fuel bins vs)
    (hf : fuelFor vs.length ≤ fuel) {es : List Edge} (hx : Spec.NonCrossing vs es) {s : DT} {v2t : List Nat} {r : AC}
    (hs : wrapAndTriangulate fuel (bins vs.length) (normalizeVerts vs) (some ((List.range vs.length).map toId)) = .ok s)
    (hv : buildV2t s.ts 0 (List.replicate (normalizeVerts vs).length 0) = .ok v2t)
    (hr : applyLoop (normalizeVerts vs) fuel (s.merge.getD []) es ⟨s.ts, v2t, []⟩ = .ok r)
    {e : Edge} (he : e ∈ es) {a b : Nat} (ha : (s.merge.getD [])[e.src]? = some a) (hb : (s.merge.getD [])[e.dst]? = some b) (hab : a ≠ b) :
    HasEdge r.ts a b := by
  have hl : (normalizeVerts vs).length = vs.length := by rw [normalizeVerts_eq]; simp
  have hni := h.ids_inf
  obtain ⟨v2t', hv', hI, hT, hmi, hml, hlen, hpos⟩ := h.start hs
  rw [hv] at hv'; simp at hv'; subst hv'
  have get : ∀ {x a : Nat}, (s.merge.getD [])[x]? = some a → ∃ A, vs[x]? = some A ∧ vs[a]? = some A := by
    intro x a ha
    have l1 : x < vs.length := by rw [← hml]; exact lt_of_getElem? ha
    obtain ⟨A, gA, -⟩ := getI_lt l1
    exact ⟨A, gA, (hpos _ _ ha).trans gA⟩
  have la' := (hmi _ _ ha).2
  refine applyLoop_edges h.unit hni hI.m.valid hmi hI (fuel_le hlen hf) hr hab (by omega) ?_ (by simp) (.inr ⟨e, he, ha, hb⟩)
  intro e' he' a' b' ha' hb' hcr
  obtain ⟨A, gA, ga⟩ := get ha
  obtain ⟨B, gB, gb⟩ := get hb
  obtain ⟨C, gC, gc⟩ := get ha'
  obtain ⟨D, gD, gd⟩ := get hb'
  exact hx e' he' e he C D A B gC gD gA gB (cross_normalized h.scale hni gc gd ga gb hcr)

theorem Good.bounds {fuel : Nat} {bins : Nat → Nat} {vs : List (Vtx K)} (h : Good fuel bins vs)
    (hf : fuelFor vs.length ≤ fuel) {es : List Edge} (hx : Spec.NonCrossing vs es) (hb : Spec.Border vs es) {r : AC}
    (hr : constrainedMesh fuel bins vs es = .ok r) :
    Bordered (normalizeVerts vs) r.ts r.S ∧
      (segs (normalizeVerts vs) r.S).Perm ((Spec.segments vs es).map fun e => (toNorm vs e.1, toNorm vs e.2)) := by
  have hl : (normalizeVerts vs).length = vs.length := by rw [normalizeVerts_eq]; simp
  have hni := h.ids_inf
  have hs := h.scale
  obtain ⟨s, hw, -⟩ := constrainedMesh_ok hr
  obtain ⟨v2t, hv, hI, hT, hmi, hml, hlen, hpos⟩ := h.start hw
  rw [Good.cmesh_eq hw hv] at hr
  obtain ⟨snd, smem⟩ := applyLoop_S_mem hr (by simp)
  have sall := (applyLoop_S hr).2
  have get : ∀ {x a : Nat}, (s.merge.getD [])[x]? = some a → ∃ A, vs[x]? = some A ∧ vs[a]? = some A := by
    intro x a ha
    have l1 : x < vs.length := by rw [← hml]; exact lt_of_getElem? ha
    obtain ⟨A, gA, -⟩ := getI_lt l1
    exact ⟨A, gA, (hpos _ _ ha).trans gA⟩
  have hpt : ∀ {a : Nat} {A : Vtx K}, vs[a]? = some A → pt (normalizeVerts vs) a = toNorm vs A := by
    intro a A gA
    unfold pt
    rw [hp_norm_eq hni gA]; rfl
  -- every element of the set comes from a constraint
  have orig : ∀ e' ∈ r.S, ∃ e ∈ es, ∃ A B, (s.merge.getD [])[e.src]? = some e'.src ∧ (s.merge.getD [])[e.dst]? = some e'.dst ∧
      vs[e.src]? = some A ∧ vs[e.dst]? = some B ∧ vs[e'.src]? = some A ∧ vs[e'.dst]? = some B ∧ (A, B) ∈ Spec.segments vs es := by
    intro e' he'
    rcases smem e' he' with h | ⟨e, he, h1, h2⟩
    · simp at h
    obtain ⟨A, gA, gA'⟩ := get h1
    obtain ⟨B, gB, gB'⟩ := get h2
    exact ⟨e, he, A, B, h1, h2, gA, gB, gA', gB', mem_segments.2 ⟨e, he, gA, gB⟩⟩
  have back : ∀ e ∈ es, ∃ a b, (s.merge.getD [])[e.src]? = some a ∧ (s.merge.getD [])[e.dst]? = some b := by
    intro e he
    have : ∀ {l : List Edge} {x y : AC}, applyLoop (normalizeVerts vs) fuel (s.merge.getD []) l x = .ok y → e ∈ l →
        ∃ a b, (s.merge.getD [])[e.src]? = some a ∧ (s.merge.getD [])[e.dst]? = some b := by
      intro l
      induction l with
      | nil => intro x y _ h; simp at h
      | cons f l ih =>
        intro x y hxy hmem
        simp only [applyLoop, Res.bind_eq_ok] at hxy
        obtain ⟨z, hz, hxy⟩ := hxy
        rcases List.mem_cons.1 hmem with rfl | hmem
        · obtain ⟨a, b, ha, hb, -⟩ := applyOne_ok hz
          exact ⟨a, b, ha, hb⟩
        · exact ih hxy hmem
    exact this hr he
  have inj : ∀ {A B : Vtx K}, toNorm vs A = toNorm vs B → A = B := by
    intro A B h
    simp only [toNorm, Vtx.mk.injEq, div_left_inj' hs.ne'] at h
    obtain ⟨a1, a2⟩ := A
    obtain ⟨b1, b2⟩ := B
    simp only [sub_left_inj] at h
    simp [h]
  have snodup : (segs (normalizeVerts vs) r.S).Nodup := by
    unfold segs
    refine List.Nodup.map_on ?_ snd
    intro e1 h1 e2 h2 heq
    obtain ⟨f1, g1, A1, B1, m1, m1', a1, b1, c1, d1, -⟩ := orig e1 h1
    obtain ⟨f2, g2, A2, B2, m2, m2', a2, b2, c2, d2, -⟩ := orig e2 h2
    rw [hpt c1, hpt d1, hpt c2, hpt d2] at heq
    have q1 := inj (Prod.ext_iff.1 heq).1
    have q2 := inj (Prod.ext_iff.1 heq).2
    subst q1; subst q2
    have := segments_inj hb.nodup g1 g2 a1 b1 a2 b2
    subst this
    rw [m1] at m2; rw [m1'] at m2'
    simp at m2 m2'
    obtain ⟨x1, y1⟩ := e1
    obtain ⟨x2, y2⟩ := e2
    simp only at m2 m2'
    rw [m2, m2']
  have hperm : (segs (normalizeVerts vs) r.S).Perm ((Spec.segments vs es).map fun e => (toNorm vs e.1, toNorm vs e.2)) := by
    refine (List.perm_ext_iff_of_nodup snodup ?_).2 ?_
    · refine List.Nodup.map ?_ hb.nodup
      rintro ⟨a, b⟩ ⟨c, d⟩ hq
      simp only [Prod.mk.injEq] at hq
      rw [inj hq.1, inj hq.2]
    · intro x
      constructor
      · intro hxm
        obtain ⟨a, b, hm, rfl⟩ := mem_segs hxm
        obtain ⟨f1, g1, A1, B1, m1, m1', a1, b1, c1, d1, hseg⟩ := orig _ hm
        exact List.mem_map.2 ⟨(A1, B1), hseg, by rw [hpt c1, hpt d1]⟩
      · intro hxm
        obtain ⟨⟨A, B⟩, hseg, rfl⟩ := List.mem_map.1 hxm
        obtain ⟨e, he, gA, gB⟩ := mem_segments.1 hseg
        obtain ⟨a, b, h1, h2⟩ := back e he
        obtain ⟨A', gA', ga⟩ := get h1
        obtain ⟨B', gB', gb⟩ := get h2
        rw [gA] at gA'; rw [gB] at gB'; simp at gA' gB'; subst gA'; subst gB'
        have hab : a ≠ b := by
          rintro rfl
          rw [ga] at gb; simp at gb
          exact hb.ne _ hseg gb
        exact List.mem_map.2 ⟨⟨a, b⟩, sall e he a b h1 h2 hab, by rw [hpt ga, hpt gb]⟩
  refine ⟨⟨?_, ?_, snodup, ?_, ?_, ?_⟩, hperm⟩
  · intro a b hm
    obtain ⟨f1, g1, A1, B1, m1, m1', a1, b1, c1, d1, -⟩ := orig _ hm
    have := lt_of_getElem? c1
    have := lt_of_getElem? d1
    constructor <;> simp only at * <;> omega
  · intro a b hm
    obtain ⟨f1, g1, A1, B1, m1, m1', a1, b1, c1, d1, hseg⟩ := orig _ hm
    refine h.merged_edge hf hx hw hv hr g1 m1 m1' ?_
    rintro rfl
    simp only at c1 d1
    rw [c1] at d1; simp at d1
    exact hb.ne _ hseg d1
  · intro a b hm hm'
    obtain ⟨f1, g1, A1, B1, m1, m1', a1, b1, c1, d1, hseg⟩ := orig _ hm
    obtain ⟨f2, g2, A2, B2, m2, m2', a2, b2, c2, d2, hseg2⟩ := orig _ hm'
    simp only at c1 d1 c2 d2
    rw [c1] at d2; rw [d1] at c2
    simp at c2 d2; subst c2; subst d2
    exact hb.norev _ hseg hseg2
  · exact balanced_perm hperm.symm (balanced_map (toNorm vs) hb.bal)
  · intro q hq
    obtain ⟨p, rfl⟩ := aff_surj (x0 := (bbox vs).1) (y0 := (bbox vs).2.1) hs q
    have e : winding (segs (normalizeVerts vs) r.S) (aff (bbox vs).1 (bbox vs).2.1 (scaleFactor vs) p) = winding (Spec.segments vs es) p :=
      (winding_perm hperm _).trans (winding_aff hs _ _)
    rw [e]
    refine hb.win p fun x hxm hon => ?_
    refine hq (toNorm vs x.1, toNorm vs x.2) (hperm.symm.subset (List.mem_map.2 ⟨x, hxm, rfl⟩)) ?_
    exact (onSegment_aff hs _ _ _).2 hon

/-- A border needs three points. -/
theorem border_small {vs : List (Vtx K)} {es : List Edge} (hb : Spec.Border vs es) (h3 : vs.length < 3) : Spec.segments vs es = [] := by
  cases hl : Spec.segments vs es with
  | nil => rfl
  | cons s l =>
    exfalso
    have hs : s ∈ Spec.segments vs es := by rw [hl]; simp
    have : s.2 ∈ (Spec.segments vs es).map (·.1) := hb.bal.symm.subset (List.mem_map.2 ⟨s, hs, rfl⟩)
    obtain ⟨u, hu, e⟩ := List.mem_map.1 this
    have n1 := hb.ne s hs
    have n2 := hb.ne u hu
    have n3 : s.1 ≠ u.2 := by
      intro h
      refine hb.norev s hs ?_
      have : s.swap = u := Prod.ext e.symm h
      rw [this]; exact hu
    obtain ⟨_, -, g1, g2⟩ := mem_segments.1 hs
    obtain ⟨_, -, -, g3⟩ := mem_segments.1 hu
    have m1 := List.mem_of_getElem? g1
    have m2 := List.mem_of_getElem? g2
    have m3 := List.mem_of_getElem? g3
    rw [e] at n2
    match vs, h3, m1, m2, m3 with
    | [], _, m1, _, _ => simp at m1
    | [a], _, m1, m2, _ => simp at m1 m2; exact n1 (m1.trans m2.symm)
    | [a, b], _, m1, m2, m3 =>
      simp only [List.mem_cons, List.not_mem_nil, or_false] at m1 m2 m3
      rcases m1 with h | h <;> rcases m2 with h' | h' <;> rcases m3 with h'' | h'' <;>
        first | exact n1 (h.trans h'.symm) | exact n2 (h'.trans h''.symm) | exact n3 (h.trans h''.symm)
    | _ :: _ :: _ :: _, h3, _, _, _ => simp at h3; omega

/-- **C57** (exact arithmetic): if the constraints bound a region on their clockwise side, a point off the constraints is
covered by the output triangles if and only if it is in the region. -/
theorem C57_polygon (fuel : Nat) (bins : Nat → Nat) (vs : List (Vtx K)) (h : Good fuel bins vs)
    (hf : fuelFor vs.length ≤ fuel) (es : List Edge) (hx : Spec.NonCrossing vs es) (hb : Spec.Border vs es) (out : List Out)
    (ho : constrained2d fuel bins vs es = .ok out) (q : Vtx K) (hq : OffEdges (Spec.segments vs es) q) :
    (∃ t ∈ out, ∃ A B C, vs[t.1]? = some A ∧ vs[t.2.1]? = some B ∧ vs[t.2.2]? = some C ∧ InClosedTriangle A B C q) ↔
      winding (Spec.segments vs es) q = 1 := by
  have hni := h.ids_inf
  have hs := h.scale
  by_cases h3 : 3 ≤ vs.length
  swap
  · unfold constrained2d at ho
    rw [if_pos (by omega)] at ho
    simp at ho; subst ho
    rw [border_small hb (by omega)]
    simp [winding]
  obtain ⟨r, ids, hr, hd⟩ := C23_constrained2d fuel bins vs es out h3 ho
  obtain ⟨hv, hok, hT⟩ := h.cmesh_inv hr
  obtain ⟨hB, hperm⟩ := h.bounds hf hx hb hr
  have e : winding (segs (normalizeVerts vs) r.S) (toNorm vs q) = winding (Spec.segments vs es) q :=
    (winding_perm hperm _).trans (winding_aff hs _ _)
  have hoff : OffEdges (segs (normalizeVerts vs) r.S) (toNorm vs q) := by
    intro x hxm hon
    obtain ⟨y, hy, rfl⟩ := List.mem_map.1 (hperm.subset hxm)
    exact hq y hy ((onSegment_aff hs _ _ _).1 hon)
  rw [← e, ← hB.domain_iff hv hT hoff]
  have hl : (normalizeVerts vs).length = vs.length := by rw [normalizeVerts_eq]; simp
  have get : ∀ {i : Nat} {T : Tri}, r.ts[i]? = some T → Spec.FiniteAt r.ts i → ∃ A B C, vs[T.v1]? = some A ∧ vs[T.v2]? = some B ∧ vs[T.v3]? = some C ∧
      (ClosedAt (hp (normalizeVerts vs)) r.ts (HP.ofVtx (toNorm vs q)) i ↔ InClosedTriangle A B C q) := by
    intro i T hTi hfin
    obtain ⟨T', hT', f1, f2, f3⟩ := hfin
    rw [hTi] at hT'; simp at hT'; subst hT'
    have hm := hok T (List.mem_of_getElem? hTi)
    have key : ∀ v : Nat, VOk (normalizeVerts vs).length v → v < INF0 → ∃ A, vs[v]? = some A := by
      intro v hv hlt
      obtain ⟨A, gA, -⟩ := getI_lt (by rw [← hl]; exact hv.fin hlt)
      exact ⟨A, gA⟩
    obtain ⟨A, gA⟩ := key _ (hm 0) f1
    obtain ⟨B, gB⟩ := key _ (hm 1) f2
    obtain ⟨C, gC⟩ := key _ (hm 2) f3
    have side : ∀ {a b : Nat} {A B : Vtx K}, vs[a]? = some A → vs[b]? = some B →
        (0 ≤ HP.o (hp (normalizeVerts vs) a) (hp (normalizeVerts vs) b) (HP.ofVtx (toNorm vs q)) ↔ area2 A B q ≤ 0) := by
      intro a b A B gA gB
      rw [hp_norm_eq hni gA, hp_norm_eq hni gB, o_area2]
      unfold toNorm
      rw [area2_normalized _ _ _ _ _ _ hs.ne', neg_nonneg]
      have hs2 : 0 < scaleFactor vs ^ 2 := by positivity
      rw [div_le_iff₀ hs2, zero_mul]
    refine ⟨A, B, C, gA, gB, gC, ?_⟩
    constructor
    · rintro ⟨T', hT', h1, h2, h3⟩
      rw [hTi] at hT'; simp at hT'; subst hT'
      exact ⟨(side gA gB).1 h1, (side gB gC).1 h2, (side gC gA).1 h3⟩
    · rintro ⟨h1, h2, h3⟩
      exact ⟨T, hTi, (side gA gB).2 h1, (side gB gC).2 h2, (side gC gA).2 h3⟩
  constructor
  · rintro ⟨t, ht, A, B, C, gA, gB, gC, hin⟩
    rw [hd.2.2] at ht
    obtain ⟨i, hi, rfl⟩ := List.mem_map.1 ht
    obtain ⟨hD, hF⟩ := (hd.2.1 i).1 hi
    obtain ⟨T, hTi, -⟩ := id hF
    simp only [Spec.vertsAt, hTi] at gA gB gC
    obtain ⟨A', B', C', gA', gB', gC', hiff⟩ := get hTi hF
    rw [gA] at gA'; rw [gB] at gB'; rw [gC] at gC'
    simp at gA' gB' gC'; subst gA'; subst gB'; subst gC'
    exact ⟨i, hD, hF, hiff.2 hin⟩
  · rintro ⟨i, hD, hF, hc⟩
    obtain ⟨T, hTi, -⟩ := id hF
    obtain ⟨A, B, C, gA, gB, gC, hiff⟩ := get hTi hF
    refine ⟨Spec.vertsAt r.ts i, ?_, A, B, C, ?_⟩
    · rw [hd.2.2]; exact List.mem_map.2 ⟨i, (hd.2.1 i).2 ⟨hD, hF⟩, rfl⟩
    · simp only [Spec.vertsAt, hTi]; exact ⟨gA, gB, gC, hiff.1 hc⟩

/-- **C57**, the area (exact arithmetic): the areas of the output triangles add up to the area enclosed by the constraints. -/
theorem C57_area (fuel : Nat) (bins : Nat → Nat) (vs : List (Vtx K)) (h : Good fuel bins vs)
    (hf : fuelFor vs.length ≤ fuel) (es : List Edge) (hx : Spec.NonCrossing vs es) (hb : Spec.Border vs es) (out : List Out)
    (ho : constrained2d fuel bins vs es = .ok out) : (out.map (Spec.triangleArea2 vs)).sum = shoelace (Spec.segments vs es) := by
  by_cases h3 : 3 ≤ vs.length
  swap
  · unfold constrained2d at ho
    rw [if_pos (by omega)] at ho
    simp at ho; subst ho
    rw [border_small hb (by omega)]
    simp [shoelace]
  have hni := h.ids_inf
  have hs := h.scale
  have hl : (normalizeVerts vs).length = vs.length := by rw [normalizeVerts_eq]; simp
  obtain ⟨r, ids, hr, hd⟩ := C23_constrained2d fuel bins vs es out h3 ho
  obtain ⟨hv, hok, hT⟩ := h.cmesh_inv hr
  obtain ⟨hB, hperm⟩ := h.bounds hf hx hb hr
  have snd : r.S.Nodup := List.Nodup.of_map _ hB.nodup
  let pos : Nat → Vtx K := fun i => vs[i]?.getD ⟨0, 0⟩
  let cr : Nat × Nat → K := fun e => (pos e.1).x * (pos e.2).y - (pos e.2).x * (pos e.1).y
  have key := hB.sum hv hT snd cr (fun e => by simp only [cr, Prod.fst_swap, Prod.snd_swap]; ring) hd.1 hd.2.1
  have e1 : (r.S.map fun e => cr (e.src, e.dst)).sum = shoelace (Spec.segments vs es) := by
    let un : Vtx K → Vtx K := fun q => ⟨q.x * scaleFactor vs + (bbox vs).1, q.y * scaleFactor vs + (bbox vs).2.1⟩
    have hun : ∀ q, un (toNorm vs q) = q := by
      intro q
      obtain ⟨a, b⟩ := q
      simp only [un, toNorm, Vtx.mk.injEq]
      constructor <;> rw [div_mul_cancel₀ _ hs.ne'] <;> ring
    have hp2 := hperm.map fun e => (un e.1, un e.2)
    rw [List.map_map] at hp2
    have : ((fun e : Vtx K × Vtx K => (un e.1, un e.2)) ∘ fun e => (toNorm vs e.1, toNorm vs e.2)) = id := by
      funext e; simp [hun]
    rw [this, List.map_id] at hp2
    unfold shoelace
    rw [← (hp2.map _).sum_eq]
    unfold segs
    rw [List.map_map, List.map_map]
    congr 1
    refine List.map_congr_left fun e he => ?_
    have hpt : ∀ a : Nat, a < vs.length → un (pt (normalizeVerts vs) a) = pos a := by
      intro a ha
      obtain ⟨A, gA, -⟩ := getI_lt ha
      have : pt (normalizeVerts vs) a = toNorm vs A := by unfold pt; rw [hp_norm_eq hni gA]; rfl
      rw [this, hun]; simp [pos, gA]
    obtain ⟨i, j, T, hTi, hh⟩ := hB.edge e.src e.dst he
    obtain ⟨f1, f2⟩ := hB.fin e.src e.dst he
    have hm := hok T (List.mem_of_getElem? hTi)
    have l1 : e.src < vs.length ∧ e.dst < vs.length := by
      obtain ⟨k, k1, k2, -⟩ := hh.k
      have a1 := hm k
      have a2 := hm (k + 1)
      rw [k1] at a1; rw [k2] at a2
      rw [← hl]
      exact ⟨a1.fin f1, a2.fin f2⟩
    simp only [Function.comp, hpt _ l1.1, hpt _ l1.2, cr]
  rw [← e1, ← key, hd.2.2, List.map_map]
  congr 1
  refine List.map_congr_left fun i hi => ?_
  obtain ⟨T, hTi, f1, f2, f3⟩ := ((hd.2.1 i).1 hi).2
  have hm := hok T (List.mem_of_getElem? hTi)
  have get : ∀ v : Nat, VOk (normalizeVerts vs).length v → v < INF0 → ∃ A, vs[v]? = some A := by
    intro v hv hlt
    obtain ⟨A, gA, -⟩ := getI_lt (by rw [← hl]; exact hv.fin hlt)
    exact ⟨A, gA⟩
  obtain ⟨A, gA⟩ := get _ (hm 0) f1
  obtain ⟨B, gB⟩ := get _ (hm 1) f2
  obtain ⟨C, gC⟩ := get _ (hm 2) f3
  have gA : vs[T.v1]? = some A := gA
  have gB : vs[T.v2]? = some B := gB
  have gC : vs[T.v3]? = some C := gC
  simp only [Function.comp, Spec.vertsAt, hTi, Spec.triangleArea2, gA, gB, gC, cr, pos, Option.getD_some, area2]
  ring

/-- **C57**, framed inputs (exact arithmetic, one bin): the run succeeds and its triangles cover the region. -/
theorem C57_framed (hcfg : RealCfg) (fuel : Nat) (bins : Nat → Nat) (vs : List (Vtx K)) (h : Good fuel bins vs)
    (hf : fuelFor vs.length ≤ fuel) (h1 : bins vs.length = 1) (x0 x1 y0 y1 : K) (hfr : Spec.Framed vs x0 x1 y0 y1)
    (es : List Edge) (hc : Spec.ClearOfVertices vs es) (hx : Spec.NonCrossing vs es) (hb : Spec.Border vs es) :
    ∃ out, constrained2d fuel bins vs es = .ok out ∧ ∀ q, OffEdges (Spec.segments vs es) q →
      ((∃ t ∈ out, ∃ A B C, vs[t.1]? = some A ∧ vs[t.2.1]? = some B ∧ vs[t.2.2]? = some C ∧ InClosedTriangle A B C q) ↔
        winding (Spec.segments vs es) q = 1) := by
  obtain ⟨⟨out, ho⟩, -⟩ := C56_framed hcfg fuel bins vs h hf h1 x0 x1 y0 y1 hfr es hc hx
  exact ⟨out, ho, fun q hq => C57_polygon fuel bins vs h hf es hx hb out ho q hq⟩

/-- **C57** in rounded arithmetic (`f32`, `f64`) on robust inputs and on grids; `V` are the exact positions. -/
theorem C57_rounded {F : Type} [FloatOps F] [Rounded F] (fuel : Nat) (bins : Nat → Nat) (vs : List (Vtx F))
    (V : List (Vtx ℚ)) (W : ℚ) (h : Rounded.RGoodC fuel bins vs V W) (es : List Edge) (hx : Spec.NonCrossing V es) (hb : Spec.Border V es)
    (out : List Out) (ho : constrained2d fuel bins vs es = .ok out) (q : Vtx ℚ) (hq : OffEdges (Spec.segments V es) q) :
    (∃ t ∈ out, ∃ A B C, V[t.1]? = some A ∧ V[t.2.1]? = some B ∧ V[t.2.2]? = some C ∧ InClosedTriangle A B C q) ↔
      winding (Spec.segments V es) q = 1 := by
  let P := Rounded.params F (bins vs.length) W (Rounded.scaleVal vs)
  rw [h.run] at ho
  exact C57_polygon fuel bins V h.good (by rw [h.len]; exact h.fuelC) es hx hb out ho q hq

/-- **C57**, the area, in rounded arithmetic on robust inputs and on grids (areas of the exact positions). -/
theorem C57_area_rounded {F : Type} [FloatOps F] [Rounded F] (fuel : Nat) (bins : Nat → Nat) (vs : List (Vtx F))
    (V : List (Vtx ℚ)) (W : ℚ) (h : Rounded.RGoodC fuel bins vs V W) (es : List Edge) (hx : Spec.NonCrossing V es) (hb : Spec.Border V es)
    (out : List Out) (ho : constrained2d fuel bins vs es = .ok out) :
    (out.map (Spec.triangleArea2 V)).sum = shoelace (Spec.segments V es) := by
  let P := Rounded.params F (bins vs.length) W (Rounded.scaleVal vs)
  rw [h.run] at ho
  exact C57_area fuel bins V h.good (by rw [h.len]; exact h.fuelC) es hx hb out ho

end CDT

namespace CDT
section Example
open Rounded Plane
local instance polygonCfg : IdCfg := u32Cfg

/-- A square of side 16 with a square hole of side 4 in it and one more point. -/
def holeGrid : List (Int × Int) := [(3,3),(7,3),(7,7),(3,7),(12,5),(0,0),(0,16),(16,16),(16,0)]

/-- The outer border clockwise, the hole counter-clockwise. -/
def holeEdges : List Edge := [⟨5,6⟩,⟨6,7⟩,⟨7,8⟩,⟨8,5⟩,⟨0,1⟩,⟨1,2⟩,⟨2,3⟩,⟨3,0⟩]

theorem hole_segments : Spec.segments (intPts holeGrid) holeEdges =
    [(⟨0,0⟩,⟨0,16⟩),(⟨0,16⟩,⟨16,16⟩),(⟨16,16⟩,⟨16,0⟩),(⟨16,0⟩,⟨0,0⟩),(⟨3,3⟩,⟨7,3⟩),(⟨7,3⟩,⟨7,7⟩),(⟨7,7⟩,⟨3,7⟩),(⟨3,7⟩,⟨3,3⟩)] := by
  decide +kernel

theorem crossing_flat (x1 x2 y : ℚ) (q : Vtx ℚ) : crossing ⟨x1, y⟩ ⟨x2, y⟩ q = 0 := by
  unfold crossing
  rw [if_neg (by rintro ⟨h1, h2, -⟩; simp only at *; linarith), if_neg (by rintro ⟨h1, h2, -⟩; simp only at *; linarith)]

theorem crossing_up (x y1 y2 : ℚ) (h : y1 < y2) (q : Vtx ℚ) :
    crossing ⟨x, y1⟩ ⟨x, y2⟩ q = if y1 ≤ q.y ∧ q.y < y2 ∧ q.x < x then -1 else 0 := by
  unfold crossing
  rw [if_neg (by rintro ⟨h1, h2, -⟩; simp only at *; linarith)]
  have e : area2 (⟨x, y1⟩ : Vtx ℚ) ⟨x, y2⟩ q = (x - q.x) * (y2 - y1) := by simp only [area2]; ring
  rw [e]
  have : 0 < (x - q.x) * (y2 - y1) ↔ q.x < x := by rw [mul_pos_iff_of_pos_right (by linarith), sub_pos]
  simp only [this]

theorem crossing_down (x y1 y2 : ℚ) (h : y2 < y1) (q : Vtx ℚ) :
    crossing ⟨x, y1⟩ ⟨x, y2⟩ q = if y2 ≤ q.y ∧ q.y < y1 ∧ q.x < x then 1 else 0 := by
  have := crossing_rev (⟨x, y2⟩ : Vtx ℚ) ⟨x, y1⟩ q
  rw [this, crossing_up x y2 y1 h]
  split_ifs <;> rfl

theorem hole_border : Spec.Border (intPts holeGrid) holeEdges := by
  refine ⟨?_, ?_, ?_, ?_, ?_⟩
  · rw [hole_segments]; decide +kernel
  · rw [hole_segments]; decide +kernel
  · rw [hole_segments]; decide +kernel
  · rw [hole_segments]; unfold Balanced; decide +kernel
  · rw [hole_segments]
    rintro ⟨x, y⟩ -
    simp only [winding, List.map_cons, List.map_nil, List.sum_cons, List.sum_nil, crossing_flat]
    rw [crossing_up 0 0 16 (by norm_num), crossing_down 16 16 0 (by norm_num), crossing_up 7 3 7 (by norm_num), crossing_down 3 7 3 (by norm_num)]
    simp only
    split_ifs with h1 h2 h3 h4 <;> first | decide | grind

theorem hole_good : Good 462 (fun _ => 1) (intPts holeGrid) := by
  refine good_of_int ?_ ?_ ⟨⟨0, 0⟩, by decide +kernel, ⟨16, 0⟩, by decide +kernel, by decide +kernel⟩
    (by decide +kernel) (by decide +kernel) (by decide +kernel) (by decide +kernel)
  · intro v hv
    simp only [intPts, List.mem_map] at hv
    obtain ⟨q, _, rfl⟩ := hv
    exact ⟨q.1, q.2, rfl, rfl⟩
  · unfold InRange
    decide +kernel

theorem hole_framed : Spec.Framed (intPts holeGrid) 0 16 0 16 :=
  ⟨by norm_num, by norm_num, intPts [(3,3),(7,3),(7,7),(3,7),(12,5)], intPts [(0,0),(0,16),(16,16),(16,0)], rfl,
    by decide +kernel, by decide +kernel⟩

/-- The hypotheses of `C57_polygon` and `C57_framed` hold. -/
example : RealCfg ∧ Good 462 (fun _ => 1) (intPts holeGrid) ∧ fuelFor (intPts holeGrid).length ≤ 462 ∧
    Spec.Framed (intPts holeGrid) 0 16 0 16 ∧ Spec.ClearOfVertices (intPts holeGrid) holeEdges ∧
    Spec.NonCrossing (intPts holeGrid) holeEdges ∧ Spec.Border (intPts holeGrid) holeEdges :=
  ⟨.inl rfl, hole_good, by decide, hole_framed, clear_of_check (by decide +kernel), nonCrossing_of_check (by decide +kernel), hole_border⟩

/-- The hypotheses of `C57_rounded` hold in `f64`, and the output has ten triangles. -/
example : RGoodC (F := F64) 462 (fun _ => 1) (flPts binary64 holeGrid) (intPts holeGrid) (2 ^ 4) ∧
    Spec.NonCrossing (intPts holeGrid) holeEdges ∧ Spec.Border (intPts holeGrid) holeEdges ∧
    (do let out ← constrained2d 462 (fun _ => 1) (flPts binary64 holeGrid) holeEdges; Res.ok out.length) = .ok 10 :=
  ⟨{ toRGood := C44_grid holeGrid 4 (by decide) (by decide) (by decide) ⟨by norm_num, by decide +kernel, by decide +kernel⟩
        (by decide +kernel) (by decide +kernel) (by decide +kernel) (by decide)
     ray := by unfold Plane.ClearRays Plane.area2 Plane.axes; decide +kernel
     fuelC := by decide },
    nonCrossing_of_check (by decide +kernel), hole_border, by decide +kernel⟩

/-- A point of the ring has winding number one, a point of the hole and a point outside have winding number zero. -/
example : winding (Spec.segments (intPts holeGrid) holeEdges) ⟨1, 1⟩ = 1 ∧ winding (Spec.segments (intPts holeGrid) holeEdges) ⟨5, 5⟩ = 0 ∧
    winding (Spec.segments (intPts holeGrid) holeEdges) ⟨-1, 5⟩ = 0 := by
  rw [hole_segments]; decide +kernel

/-- The square minus the hole has area 240 (clockwise: negative), and so have the ten triangles. -/
example : shoelace (Spec.segments (intPts holeGrid) holeEdges) = -480 ∧
    (do let out ← constrained2d 462 (fun _ => 1) (flPts binary64 holeGrid) holeEdges
        Res.ok (out.map (Spec.triangleArea2 (intPts holeGrid))).sum) = .ok (-480) := by
  decide +kernel

end Example

end CDT

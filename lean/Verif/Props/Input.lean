import Verif.Props.Weak

/-!
# Mesh properties in input coordinates

The mesh is computed from normalized coordinates. Here the clockwise and the tiling property are stated for the input
coordinates.
-/

set_option linter.unusedSectionVars false

namespace CDT
open Plane

variable {K : Type} [Field K] [LinearOrder K] [IsStrictOrderedRing K] [ExactParams K] [IdCfg]

/-- A point in normalized coordinates. -/
def toNorm (vs : List (Vtx K)) (q : Vtx K) : Vtx K :=
  ⟨(q.x - (bbox vs).1) / scaleFactor vs, (q.y - (bbox vs).2.1) / scaleFactor vs⟩

/-- Normalization in homogeneous coordinates. -/
def HP.norm (x0 y0 s : K) (a : HP K) : HP K := ⟨(a.x - x0 * a.w) / s, (a.y - y0 * a.w) / s, a.w⟩

theorem o_norm (x0 y0 : K) {s : K} (hs : s ≠ 0) (a b c : HP K) :
    HP.o (a.norm x0 y0 s) (b.norm x0 y0 s) (c.norm x0 y0 s) = HP.o a b c / s ^ 2 := by
  simp only [HP.o, HP.norm]; field_simp; ring

/-- Homogeneous coordinates up to a positive factor. -/
def HP.smul (k : K) (a : HP K) : HP K := ⟨k * a.x, k * a.y, k * a.w⟩

theorem o_smul (k l m : K) (a b c : HP K) : HP.o (a.smul k) (b.smul l) (c.smul m) = k * l * m * HP.o a b c := by
  simp only [HP.o, HP.smul]; ring

theorem hp_norm {vs : List (Vtx K)} (hs : 0 < scaleFactor vs) {i : Nat} (h : i < INF0 → i < vs.length) :
    ∃ k, 0 < k ∧ (hp vs i).norm (bbox vs).1 (bbox vs).2.1 (scaleFactor vs) = (hp (normalizeVerts vs) i).smul k := by
  by_cases hi : i < INF0
  · obtain ⟨A, gA, _⟩ := getI_lt (h hi)
    refine ⟨1, one_pos, ?_⟩
    rw [hp_fin hi gA, hp_fin (v := toNorm vs A) hi (by rw [normalizeVerts_eq, List.getElem?_map, gA]; rfl)]
    simp [HP.norm, HP.smul, HP.ofVtx, toNorm]
  · refine ⟨1 / scaleFactor vs, by positivity, ?_⟩
    have e : ∀ vs : List (Vtx K), hp vs i = if i = INF0 then HP.dir 0 else if i = INF1 then HP.dir 1
        else if i = INF2 then HP.dir 2 else HP.dir 3 := fun vs => by unfold hp; rw [if_neg hi]
    rw [e, e (normalizeVerts vs)]
    split
    · simp [HP.norm, HP.smul, HP.dir]; ring
    split
    · simp [HP.norm, HP.smul, HP.dir]
    split
    · simp [HP.norm, HP.smul, HP.dir]
    · simp [HP.norm, HP.smul, HP.dir]; ring

theorem ofVtx_norm (vs : List (Vtx K)) (q : Vtx K) :
    (HP.ofVtx q).norm (bbox vs).1 (bbox vs).2.1 (scaleFactor vs) = (HP.ofVtx (toNorm vs q)).smul 1 := by
  simp [HP.norm, HP.smul, HP.ofVtx, toNorm]

/-- Orientations have the same sign before and after normalization. -/
theorem o_pos_norm {vs : List (Vtx K)} (hs : 0 < scaleFactor vs) {a b c a' b' c' : HP K}
    (ha : ∃ k, 0 < k ∧ a.norm (bbox vs).1 (bbox vs).2.1 (scaleFactor vs) = a'.smul k)
    (hb : ∃ k, 0 < k ∧ b.norm (bbox vs).1 (bbox vs).2.1 (scaleFactor vs) = b'.smul k)
    (hc : ∃ k, 0 < k ∧ c.norm (bbox vs).1 (bbox vs).2.1 (scaleFactor vs) = c'.smul k) :
    ∃ k, 0 < k ∧ HP.o a b c = k * HP.o a' b' c' := by
  obtain ⟨k, hk, ea⟩ := ha
  obtain ⟨l, hl, eb⟩ := hb
  obtain ⟨m, hm, ec⟩ := hc
  have := o_norm (bbox vs).1 (bbox vs).2.1 hs.ne' a b c
  rw [ea, eb, ec, o_smul, eq_div_iff (by positivity)] at this
  exact ⟨k * l * m * scaleFactor vs ^ 2, by positivity, by rw [← this]; ring⟩

theorem farClockwise_input {vs : List (Vtx K)} (hs : 0 < scaleFactor vs) {a b c : Nat} (ha : a < INF0 → a < vs.length)
    (hb : b < INF0 → b < vs.length) (hc : c < INF0 → c < vs.length)
    (h : 0 < HP.o (hp (normalizeVerts vs) a) (hp (normalizeVerts vs) b) (hp (normalizeVerts vs) c)) :
    FarClockwise vs a b c := by
  obtain ⟨k, hk, e⟩ := o_pos_norm hs (hp_norm hs ha) (hp_norm hs hb) (hp_norm hs hc)
  exact farClockwise_of (by rw [e]; positivity)

theorem Generic.norm {vs : List (Vtx K)} (hs : 0 < scaleFactor vs) {ids : List Nat} {q : Vtx K} (h : Generic vs ids q) :
    Generic (normalizeVerts vs) ids (toNorm vs q) := by
  have get : ∀ {a : Nat} {A' : Vtx K}, (normalizeVerts vs)[a]? = some A' → ∃ A, vs[a]? = some A ∧ A' = toNorm vs A := by
    intro a A' hA
    rw [normalizeVerts_eq, List.getElem?_map] at hA
    cases hv : vs[a]? with
    | none => rw [hv] at hA; simp at hA
    | some A => rw [hv] at hA; simp at hA; exact ⟨A, rfl, hA.symm⟩
  constructor
  · intro a ha A' hA
    obtain ⟨A, gA, rfl⟩ := get hA
    obtain ⟨h1, h2⟩ := h.1 a ha A gA
    simp only [toNorm, ne_eq, div_left_inj' hs.ne', sub_left_inj]
    exact ⟨h1, h2⟩
  · intro a ha b hb A' B' hA hB hne
    obtain ⟨A, gA, rfl⟩ := get hA
    obtain ⟨B, gB, rfl⟩ := get hB
    have h1 := h.2 a ha b hb A B gA gB fun e => hne (by rw [e])
    simp only [toNorm]
    rw [area2_normalized _ _ _ _ _ _ hs.ne']
    exact div_ne_zero h1 (pow_ne_zero _ hs.ne')

/-- **C33** in input coordinates: after any number of insertions every triangle, including the unbounded ones, is strictly
clockwise. -/
theorem C33_input_partial (fuel : Nat) (bins : Nat → Nat) (vs : List (Vtx K)) (h : Good fuel bins vs)
    (first : Nat) (rest : List Nat) (hb : binSort (bins vs.length) (normalizeVerts vs) = .ok (first :: rest))
    (k : Nat) (s : DT)
    (hs : insertAll (normalizeVerts vs) fuel (rest.take k) ⟨initialTriangles first, 3, none⟩ = .ok s) :
    Spec.Adjacency s.ts ∧ (∀ t ∈ s.ts, FarClockwise vs t.v1 t.v2 t.v3) ∧
      (∀ t ∈ s.ts, ∀ v, v = t.v1 ∨ v = t.v2 ∨ v = t.v3 → v ∈ first :: rest.take k ∨ (INF0 ≤ v ∧ v ≤ INF3)) := by
  obtain ⟨h1, _, h3⟩ := C33_adjacency_partial fuel bins vs h first rest hb k s hs
  refine ⟨h1, fun t ht => ?_, h3⟩
  obtain ⟨ins, hI, -⟩ := h.prefix_run hb (mergeInit_none _) k hs
  have hl : (normalizeVerts vs).length = vs.length := by rw [normalizeVerts_eq]; simp
  have lt : ∀ j, t.v j < INF0 → t.v j < vs.length := by
    intro j hj
    rcases hI.ok t ht j with h' | h'
    · rwa [hl] at h'
    · omega
  obtain ⟨i, hi⟩ := List.mem_iff_getElem?.1 ht
  exact farClockwise_input h.scale (lt 0) (lt 1) (lt 2) (hI.valid.pos _ _ hi)

/-- Membership in a triangle is the same before and after normalization, for points on none of its edges. -/
theorem far_norm {vs : List (Vtx K)} (hsc : 0 < scaleFactor vs) {q : Vtx K} {t : Tri}
    (lt : ∀ j, t.v j < INF0 → t.v j < vs.length)
    (hne : ∀ j, sideO (hp (normalizeVerts vs)) t (HP.ofVtx (toNorm vs q)) j ≠ 0) :
    FarInTriangle vs t.v1 t.v2 t.v3 q ↔ FarInTriangle (normalizeVerts vs) t.v1 t.v2 t.v3 (toNorm vs q) := by
  have e_all : ∀ j, ∃ k, 0 < k ∧ sideO (hp vs) t (HP.ofVtx q) j = k * sideO (hp (normalizeVerts vs)) t (HP.ofVtx (toNorm vs q)) j :=
    fun j => o_pos_norm hsc (hp_norm hsc (lt j)) (hp_norm hsc (lt (j + 1))) ⟨1, one_pos, ofVtx_norm vs q⟩
  constructor
  · intro hf
    refine farInTriangle_of fun j => ?_
    obtain ⟨k, hk, e⟩ := e_all j
    have := sideO_of_far hf (fun j => by
      obtain ⟨k, hk, e'⟩ := e_all j
      rw [e']; exact mul_ne_zero hk.ne' (hne j)) j
    rw [e] at this
    exact (mul_pos_iff_of_pos_left hk).1 this
  · intro hf
    refine farInTriangle_of fun j => ?_
    obtain ⟨k, hk, e⟩ := e_all j
    rw [e]
    exact mul_pos hk (sideO_of_far hf hne j)

/-- **C34** in input coordinates: after any number of insertions every point in general position lies in exactly one
triangle of the mesh, bounded or unbounded. -/
theorem C34_input_partial (fuel : Nat) (bins : Nat → Nat) (vs : List (Vtx K)) (h : Good fuel bins vs)
    (first : Nat) (rest : List Nat) (hb : binSort (bins vs.length) (normalizeVerts vs) = .ok (first :: rest))
    (k : Nat) (s : DT)
    (hs : insertAll (normalizeVerts vs) fuel (rest.take k) ⟨initialTriangles first, 3, none⟩ = .ok s)
    (q : Vtx K) (hq : Generic vs (first :: rest.take k) q) :
    ∃! i : Nat, ∃ t : Tri, s.ts[i]? = some t ∧ FarInTriangle vs t.v1 t.v2 t.v3 q := by
  have hsc := h.scale
  have hni := h.ids_inf
  have hl : (normalizeVerts vs).length = vs.length := by rw [normalizeVerts_eq]; simp
  obtain ⟨ins, hI, -⟩ := h.prefix_run hb (mergeInit_none _) k hs
  have hv : VertsIn (fun v => v ∈ first :: rest.take k ∨ (INF0 ≤ v ∧ v ≤ INF3)) s.ts := by
    intro t ht j
    refine (hI.verts t ht j).imp (fun h => ?_) id
    have := hI.sub _ h
    simp at this ⊢
    tauto
  have hlt : ∀ v ∈ first :: rest.take k, v < (normalizeVerts vs).length := fun v hv => hI.dlt v (by simp at hv ⊢; tauto)
  have hg := (genV_of_generic (hq.norm hsc) hni hlt hv).gen hI.valid rfl
  obtain ⟨i, h1, h2⟩ := C34_tiling_partial fuel bins vs h first rest hb k s hs _ (hq.norm hsc)
  have lt : ∀ t ∈ s.ts, ∀ j, t.v j < INF0 → t.v j < vs.length := by
    intro t ht j hj
    rcases hI.ok t ht j with h' | h'
    · rwa [hl] at h'
    · omega
  have key : ∀ (i : Nat) (t : Tri), s.ts[i]? = some t →
      (FarInTriangle vs t.v1 t.v2 t.v3 q ↔ FarInTriangle (normalizeVerts vs) t.v1 t.v2 t.v3 (toNorm vs q)) :=
    fun i t ht => far_norm hsc (lt t (List.mem_of_getElem? ht)) fun j => hg i _ _ _ ⟨t, ht, has_k t j⟩
  refine ⟨i, ?_, ?_⟩
  · obtain ⟨t, ht, h'⟩ := h1
    exact ⟨t, ht, (key i t ht).2 h'⟩
  · rintro j ⟨t, ht, h'⟩
    exact h2 j ⟨t, ht, (key j t ht).1 h'⟩

theorem inTriangle_norm {vs : List (Vtx K)} (hs : 0 < scaleFactor vs) (A B C q : Vtx K) :
    InTriangle (toNorm vs A) (toNorm vs B) (toNorm vs C) (toNorm vs q) ↔ InTriangle A B C q := by
  have h2 : 0 < scaleFactor vs ^ 2 := by positivity
  simp only [InTriangle, Clockwise, toNorm, area2_normalized _ _ _ _ _ _ hs.ne', div_neg_iff, h2, h2.not_gt, and_true, and_false, false_or]

theorem coveredBy_norm {vs : List (Vtx K)} (hs : 0 < scaleFactor vs) (out : List Out) (q : Vtx K) (i : Nat) :
    Spec.CoveredBy (normalizeVerts vs) out (toNorm vs q) i ↔ Spec.CoveredBy vs out q i := by
  have get : ∀ {a : Nat} {A' : Vtx K}, (normalizeVerts vs)[a]? = some A' ↔ ∃ A, vs[a]? = some A ∧ A' = toNorm vs A := by
    intro a A'
    rw [normalizeVerts_eq, List.getElem?_map]
    cases hv : vs[a]? with
    | none => simp
    | some A => simp [toNorm, eq_comm]
  constructor
  · rintro ⟨a, b, c, A, B, C, h1, hA, hB, hC, h⟩
    obtain ⟨A, gA, rfl⟩ := get.1 hA
    obtain ⟨B, gB, rfl⟩ := get.1 hB
    obtain ⟨C, gC, rfl⟩ := get.1 hC
    exact ⟨a, b, c, A, B, C, h1, gA, gB, gC, (inTriangle_norm hs A B C q).1 h⟩
  · rintro ⟨a, b, c, A, B, C, h1, hA, hB, hC, h⟩
    exact ⟨a, b, c, _, _, _, h1, get.2 ⟨A, hA, rfl⟩, get.2 ⟨B, hB, rfl⟩, get.2 ⟨C, hC, rfl⟩, (inTriangle_norm hs A B C q).2 h⟩

/-- **C07** in input coordinates, what is guaranteed: a point in general position is strictly inside exactly one output
triangle, or in one of the unbounded triangles that are dropped and in no output triangle. -/
theorem C07_input_partial (fuel : Nat) (bins : Nat → Nat) (vs : List (Vtx K)) (h : Good fuel bins vs) (s : DT)
    (hs : wrapAndTriangulate fuel (bins vs.length) (normalizeVerts vs) none = .ok s)
    (q : Vtx K) (hq : Generic vs (List.range vs.length) q) :
    (∃! i : Nat, Spec.CoveredBy vs (filterSeq s.ts) q i) ∨
    (¬ ∃ i : Nat, Spec.CoveredBy vs (filterSeq s.ts) q i) ∧
      ∃ t ∈ s.ts, (INF0 ≤ t.v1 ∨ INF0 ≤ t.v2 ∨ INF0 ≤ t.v3) ∧ FarInTriangle vs t.v1 t.v2 t.v3 q := by
  have hsc := h.scale
  have hni := h.ids_inf
  have hl : (normalizeVerts vs).length = vs.length := by rw [normalizeVerts_eq]; simp
  have h7 := C07_cover_partial fuel bins vs h s hs _ (hq.norm hsc)
  simp only [coveredBy_norm hsc] at h7
  refine h7.imp id (And.imp id ?_)
  rintro ⟨t, ht, hi, hf⟩
  refine ⟨t, ht, hi, ?_⟩
  rcases h.run (mergeInit_none _) with h1 | ⟨s', done, ins, first, h1, hI, hperm, -⟩
  · rw [h1] at hs; simp at hs
  rw [h1] at hs; simp at hs; subst hs
  have hv : VertsIn (fun v => v ∈ List.range vs.length ∨ (INF0 ≤ v ∧ v ≤ INF3)) s'.ts := by
    intro t ht j
    refine (hI.verts t ht j).imp (fun h => ?_) id
    have := hI.dlt _ (hI.sub _ h)
    rw [hl] at this
    simpa using this
  have hg := (genV_of_generic (hq.norm hsc) hni (fun v hv => by rw [hl]; simpa using hv) hv).gen hI.valid rfl
  obtain ⟨i, hi⟩ := List.mem_iff_getElem?.1 ht
  refine (far_norm hsc (fun j hj => ?_) fun j => hg i _ _ _ ⟨t, hi, has_k t j⟩).2 hf
  rcases hI.ok t ht j with h' | h'
  · rwa [hl] at h'
  · omega

end CDT

namespace CDT
local instance inputCfg : IdCfg := u32Cfg

/-- The sample meets the hypotheses; `(10/7, 30/11)` is in general position and strictly inside one output triangle. -/
example : Good 100 Witness.defaultBins samplePts ∧
    (do let out ← triangulation2d 100 Witness.defaultBins samplePts; Res.ok out.length) = .ok 6 ∧
    (∀ A ∈ samplePts, (10/7 : ℚ) ≠ A.x ∧ (30/11 : ℚ) ≠ A.y) ∧
    (∀ A ∈ samplePts, ∀ B ∈ samplePts, A ≠ B → Plane.area2 A B ⟨10/7, 30/11⟩ ≠ 0) :=
  ⟨sample_good, by decide +kernel, by decide +kernel, by unfold Plane.area2; decide +kernel⟩

end CDT

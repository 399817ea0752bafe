import Verif.Geo.RoundIsect
import Verif.Props.Accept
import Verif.Props.Rounded

/-!
# The constrained triangulation in rounded arithmetic

For inputs whose geometric quantities are not too close to zero (`Plane.Robust`, `Plane.ClearRays`) a constrained run in any arithmetic with
correctly rounded operations takes the same decisions as the exact run. The constraints are arbitrary.
-/

set_option linter.unusedSectionVars false

namespace CDT
open Plane Rounded

/-! ### Statements for the exact run, in input coordinates -/

section
variable {K : Type} [Field K] [LinearOrder K] [IsStrictOrderedRing K] [ExactParams K] [IdCfg]

theorem cross_input {vs : List (Vtx K)} (hs : 0 < scaleFactor vs) {a b x y : Nat} (ha : a < INF0 → a < vs.length)
    (hb : b < INF0 → b < vs.length) (hx : x < INF0 → x < vs.length) (hy : y < INF0 → y < vs.length)
    (h : HP.Cross (hp (normalizeVerts vs) a) (hp (normalizeVerts vs) b) (hp (normalizeVerts vs) x) (hp (normalizeVerts vs) y)) :
    FarCross vs a b x y := by
  obtain ⟨k1, p1, e1⟩ := o_pos_norm hs (hp_norm hs ha) (hp_norm hs hb) (hp_norm hs hx)
  obtain ⟨k2, p2, e2⟩ := o_pos_norm hs (hp_norm hs ha) (hp_norm hs hb) (hp_norm hs hy)
  obtain ⟨k3, p3, e3⟩ := o_pos_norm hs (hp_norm hs hx) (hp_norm hs hy) (hp_norm hs ha)
  obtain ⟨k4, p4, e4⟩ := o_pos_norm hs (hp_norm hs hx) (hp_norm hs hy) (hp_norm hs hb)
  refine farCross_of ⟨?_, ?_⟩
  · rw [e1, e2, mul_mul_mul_comm]
    exact mul_neg_of_pos_of_neg (mul_pos p1 p2) h.1
  · rw [e3, e4, mul_mul_mul_comm]
    exact mul_neg_of_pos_of_neg (mul_pos p3 p4) h.2

/-- **C28** for exact arithmetic, in input coordinates. -/
theorem C28_input_partial (fuel : Nat) (bins : Nat → Nat) (vs : List (Vtx K)) (h : Good fuel bins vs)
    (hf : fuelFor vs.length ≤ fuel) (es : List Edge) (hr : ∀ e ∈ es, e.src < vs.length ∧ e.dst < vs.length)
    (hb : ∀ s, wrapAndTriangulate fuel (bins vs.length) (normalizeVerts vs) (some ((List.range vs.length).map toId)) = .ok s →
      Spec.BoundedOnly vs s.ts es) :
    constrained2d fuel bins vs es ≠ .panic := by
  refine h.no_panic hf hr fun s hs hok e he x y hxy hinf hc =>
    hb s hs e he x y (meshEdge_iff.2 hxy) hinf (cross_input h.scale (fun _ => (hr e he).1) (fun _ => (hr e he).2) ?_ ?_ hc)
  · intro hx
    obtain ⟨i, j, t, ht, hk⟩ := hxy
    obtain ⟨k, rfl, -⟩ := hk.k
    rcases hok.get ht k with h1 | h1
    · exact h1
    · omega
  · intro hy
    obtain ⟨i, j, t, ht, hk⟩ := hxy
    obtain ⟨k, -, rfl, -⟩ := hk.k
    rcases hok.get ht (k + 1) with h1 | h1
    · exact h1
    · omega

/-- **C29** for exact arithmetic, in input coordinates. -/
theorem C29_input_partial (fuel : Nat) (bins : Nat → Nat) (vs : List (Vtx K)) (h : Good fuel bins vs)
    (hf : fuelFor vs.length ≤ fuel) (es : List Edge) (hc : Spec.ClearOfVertices vs es) (hx : Spec.NonCrossing vs es) (s : DT)
    (hs : wrapAndTriangulate fuel (bins vs.length) (normalizeVerts vs) (some ((List.range vs.length).map toId)) = .ok s)
    (hb : Spec.BoundedOnly vs s.ts es) :
    (∃ out, constrained2d fuel bins vs es = .ok out) ∧
    (3 ≤ vs.length → ∃ r, constrainedMesh fuel bins vs es = .ok r ∧ ∀ e ∈ es, ∀ A B, vs[e.src]? = some A → vs[e.dst]? = some B →
      ∃ a b : Nat, vs[a]? = some A ∧ vs[b]? = some B ∧ Spec.MeshEdge r.ts a b ∧ Spec.MeshEdge r.ts b a) :=
  h.accepted hf hc hx hs (C28_input_partial fuel bins vs h hf es hc.inRange fun s' hs' => by
    rw [hs] at hs'; simp at hs'; subst hs'; exact hb)

/-- **C30** in input coordinates: all triangles of the constrained mesh are strictly clockwise, every point in general position
is inside exactly one of them. -/
theorem C30_input (fuel : Nat) (bins : Nat → Nat) (vs : List (Vtx K)) (h : Good fuel bins vs) (es : List Edge) (r : AC)
    (hr : constrainedMesh fuel bins vs es = .ok r) :
    Spec.Adjacency r.ts ∧ (∀ t ∈ r.ts, FarClockwise vs t.v1 t.v2 t.v3) ∧
      ∀ q : Vtx K, Generic vs (List.range vs.length) q →
        ∃! i : Nat, ∃ t : Tri, r.ts[i]? = some t ∧ FarInTriangle vs t.v1 t.v2 t.v3 q := by
  have hl : (normalizeVerts vs).length = vs.length := by rw [normalizeVerts_eq]; simp
  obtain ⟨hv, hok, hT⟩ := h.cmesh_inv hr
  obtain ⟨hadj, -, -, htile, -⟩ := C30_mesh fuel bins vs h es r hr
  have lt : ∀ t ∈ r.ts, ∀ j, t.v j < INF0 → t.v j < vs.length := by
    intro t ht j hj
    rcases hok t ht j with h' | h'
    · rwa [hl] at h'
    · omega
  refine ⟨hadj, fun t ht => ?_, fun q hq => ?_⟩
  · obtain ⟨i, hi⟩ := List.mem_iff_getElem?.1 ht
    exact farClockwise_input h.scale (lt t ht 0) (lt t ht 1) (lt t ht 2) (hv.pos _ _ hi)
  · have hgv : GenV (normalizeVerts vs) r.ts (HP.ofVtx (toNorm vs q)) := by
      refine genV_of_generic (hq.norm h.scale) h.ids_inf (fun v hv => by rw [hl]; simpa using hv) fun t ht j => ?_
      refine (hok t ht j).imp (fun h => ?_) id
      rw [hl] at h; simpa using h
    have hg := hgv.gen hv rfl
    have key : ∀ (i : Nat) (t : Tri), r.ts[i]? = some t →
        (FarInTriangle vs t.v1 t.v2 t.v3 q ↔ FarInTriangle (normalizeVerts vs) t.v1 t.v2 t.v3 (toNorm vs q)) :=
      fun i t ht => far_norm h.scale (lt t (List.mem_of_getElem? ht)) fun j => hg i _ _ _ ⟨t, ht, has_k t j⟩
    obtain ⟨i, ⟨t, ht, h'⟩, h2⟩ := htile _ (hq.norm h.scale)
    refine ⟨i, ⟨t, ht, (key i t ht).2 h'⟩, ?_⟩
    rintro j ⟨t, ht, h'⟩
    exact h2 j ⟨t, ht, (key j t ht).1 h'⟩

end

namespace Rounded

variable {F : Type} [FloatOps F] [Rounded F]

theorem nray (P : ExactParams ℚ) {V : List (Vtx ℚ)} {W u : ℚ} (hr : InRange V) (he : Extent W V)
    (h : Plane.ClearRays u W V) : NRay u (normalizeVerts V) := by
  have hS := scaleFactor_extent P hr he
  have hW := he.pos
  have hW' : W ≠ 0 := hW.ne'
  unfold NRay
  rw [normalizeVerts_eq, hS]
  generalize (bbox V).1 = x0
  generalize (bbox V).2.1 = y0
  simp only [List.forall_mem_map]
  intro a ha b hb f hf hfa hfb k
  have dx : ∀ a b t : ℚ, (a - t) / W - (b - t) / W = (a - b) / W := by intro a b t; ring
  have dp : ∀ (z : ℤ) (a b t : ℚ), pos z ((a - t) / W) - (b - t) / W = (a + 142 / 100 * W * z - b) / W := by
    intro z a b t; unfold pos; field_simp; ring
  have hd : (⟨dirX k, dirY k⟩ : Vtx ℚ) ∈ (axes : List (Vtx ℚ)) := by
    fin_cases k <;> simp [axes, dirX, dirY]
  simp only [dx, dp]
  rcases h a ha b hb f hf (by rintro rfl; exact hfa rfl) (by rintro rfl; exact hfb rfl) _ hd with ⟨h1, h2⟩ | h1
  · left
    simp only at h1 h2
    rw [div_mul_div_comm, div_mul_div_comm, h1, h2]
    simp
  · right
    have e : (b.y - a.y) / W * ((f.x + 142 / 100 * W * dirX k - b.x) / W) - (b.x - a.x) / W * ((f.y + 142 / 100 * W * dirY k - b.y) / W) =
        -(area2 a b ⟨f.x + 142 / 100 * W * dirX k, f.y + 142 / 100 * W * dirY k⟩ / W ^ 2) := by
      unfold area2; field_simp; ring
    rw [e, abs_neg, abs_div, abs_of_pos (pow_pos hW 2), le_div_iff₀ (pow_pos hW 2)]
    exact h1

/-- Hypotheses of the theorems about rounded constrained runs. -/
structure RGoodC [IdCfg] (N : Nat) (bins : Nat → Nat) (vs : List (Vtx F)) (V : List (Vtx ℚ)) (W : ℚ) : Prop extends
    RGood N bins vs V W where
  ray : Plane.ClearRays (u F) W V
  fuelC : fuelFor vs.length ≤ N

variable [IdCfg] {fuel : Nat} {bins : Nat → Nat} {vs : List (Vtx F)} {V : List (Vtx ℚ)} {W : ℚ}

theorem RGoodC.agreeC (h : RGoodC fuel bins vs V W) :
    letI := params F (bins vs.length) W (scaleVal vs)
    AgreeC (normalizeVerts vs) (normalizeVerts V) := by
  let P := params F (bins vs.length) W (scaleVal vs)
  have hr : InRange V := h.range
  exact Rounded.agreeC (P := P) rfl ⟨fun i => rnd_idem _⟩ ((normalize_near h.toInput h.row h.cap).imp fun _ _ h => h.1)
    (nrobust P rfl h.toInput h.robust) (nray P hr h.ext h.ray)

theorem RGoodC.wrap_range (h : RGoodC fuel bins vs V W) :
    letI := params F (bins vs.length) W (scaleVal vs)
    wrapAndTriangulate fuel (bins V.length) (normalizeVerts V) (some ((List.range V.length).map toId)) =
      wrapAndTriangulate fuel (bins vs.length) (normalizeVerts vs) (some ((List.range vs.length).map toId)) := by
  let P := params F (bins vs.length) W (scaleVal vs)
  rw [h.toRGood.wrap _ (mergeInit_range vs.length (by have := h.ids; omega)), h.len]

/-- The rounded constrained mesh is the exact one. -/
theorem RGoodC.mesh (h : RGoodC fuel bins vs V W) (es : List Edge) :
    letI := params F (bins vs.length) W (scaleVal vs)
    constrainedMesh fuel bins vs es = constrainedMesh fuel bins V es := by
  let P := params F (bins vs.length) W (scaleVal vs)
  have hG := h.toRGood.good
  have hw := h.wrap_range
  have hl : (normalizeVerts V).length = (normalizeVerts vs).length := by simp [normalizeVerts_length', h.len]
  rcases hG.run (mergeInit_range _ (by have := hG.ids; omega)) with e | ⟨s, _, _, _, hs, -⟩
  · unfold constrainedMesh
    simp only
    rw [← hw, e]
    rfl
  · obtain ⟨v2t, hb, hA, -, hmi, -⟩ := hG.start hs
    rw [Good.cmesh_eq hs hb]
    unfold constrainedMesh applyConstraints
    simp only
    rw [← hw, hs, Res.ok_bind, ← hl, hb, Res.ok_bind]
    exact h.agreeC.applyLoop hG.unit hG.ids_inf (fun v x hx => (hmi v x hx).1) fuel es _ hA

/-- The rounded constrained run is the exact one. -/
theorem RGoodC.run (h : RGoodC fuel bins vs V W) (es : List Edge) :
    letI := params F (bins vs.length) W (scaleVal vs)
    constrained2d fuel bins vs es = constrained2d fuel bins V es := by
  let P := params F (bins vs.length) W (scaleVal vs)
  unfold constrained2d
  rw [h.len, h.mesh es]

end Rounded

variable {F : Type} [FloatOps F] [Rounded F] [IdCfg] {fuel : Nat} {bins : Nat → Nat} {vs : List (Vtx F)}
  {V : List (Vtx ℚ)} {W : ℚ}

/-- **C27** in rounded arithmetic: a constrained run on a robust input ends, whatever the constraints are. -/
theorem C27_rounded_partial (h : RGoodC fuel bins vs V W) (es : List Edge) : constrained2d fuel bins vs es ≠ .diverge := by
  let P := params F (bins vs.length) W (scaleVal vs)
  rw [h.run]
  exact C27_terminates_partial fuel bins V h.good (by rw [h.len]; exact h.fuelC) es

/-- **C28** in rounded arithmetic: no panic, if the constraints refer to vertices and none of them properly crosses an
unbounded edge of the unconstrained mesh. -/
theorem C28_rounded_partial (h : RGoodC fuel bins vs V W) (es : List Edge)
    (hr : ∀ e ∈ es, e.src < vs.length ∧ e.dst < vs.length)
    (hb : ∀ s, wrapAndTriangulate fuel (bins vs.length) (normalizeVerts vs) (some ((List.range vs.length).map toId)) = .ok s →
      Spec.BoundedOnly V s.ts es) :
    constrained2d fuel bins vs es ≠ .panic := by
  let P := params F (bins vs.length) W (scaleVal vs)
  rw [h.run]
  exact C28_input_partial fuel bins V h.good (by rw [h.len]; exact h.fuelC) es (by rw [h.len]; exact hr)
    fun s hs => hb s (by rw [← h.wrap_range]; exact hs)

/-- **C29** in rounded arithmetic: constraints that do not pass through vertices, do not cross each other and do not cross an
unbounded edge of the unconstrained mesh are accepted and are edges of the final mesh. -/
theorem C29_rounded_partial (h : RGoodC fuel bins vs V W) (es : List Edge) (hc : Spec.ClearOfVertices V es)
    (hx : Spec.NonCrossing V es) (s : DT)
    (hs : wrapAndTriangulate fuel (bins vs.length) (normalizeVerts vs) (some ((List.range vs.length).map toId)) = .ok s)
    (hb : Spec.BoundedOnly V s.ts es) :
    (∃ out, constrained2d fuel bins vs es = .ok out) ∧
    (3 ≤ vs.length → ∃ r, constrainedMesh fuel bins vs es = .ok r ∧ ∀ e ∈ es, ∀ A B, V[e.src]? = some A → V[e.dst]? = some B →
      ∃ a b : Nat, V[a]? = some A ∧ V[b]? = some B ∧ Spec.MeshEdge r.ts a b ∧ Spec.MeshEdge r.ts b a) := by
  let P := params F (bins vs.length) W (scaleVal vs)
  rw [h.run, h.mesh]
  obtain ⟨k1, k2⟩ := C29_input_partial fuel bins V h.good (by rw [h.len]; exact h.fuelC) es hc hx s
    (by rw [h.wrap_range]; exact hs) hb
  exact ⟨k1, fun h3 => k2 (by rw [h.len]; exact h3)⟩

/-- **C30** in rounded arithmetic: the mesh after the constraint phase. -/
theorem C30_rounded (h : RGoodC fuel bins vs V W) (es : List Edge) (r : AC) (hr : constrainedMesh fuel bins vs es = .ok r) :
    Spec.Adjacency r.ts ∧ (∀ t ∈ r.ts, FarClockwise V t.v1 t.v2 t.v3) ∧
      ∀ q : Vtx ℚ, Generic V (List.range V.length) q →
        ∃! i : Nat, ∃ t : Tri, r.ts[i]? = some t ∧ FarInTriangle V t.v1 t.v2 t.v3 q := by
  let P := params F (bins vs.length) W (scaleVal vs)
  rw [h.mesh] at hr
  exact C30_input fuel bins V h.good es r hr

/-- **C30** in rounded arithmetic, the output: clockwise triangles that do not overlap, and no directed edge occurs twice. -/
theorem C30_rounded_output (h : RGoodC fuel bins vs V W) (es : List Edge) (out : List Out)
    (ho : constrained2d fuel bins vs es = .ok out) :
    (∀ a b c, (a, b, c) ∈ out → ∃ A B C, V[a]? = some A ∧ V[b]? = some B ∧ V[c]? = some C ∧ Clockwise A B C) ∧
    (∀ (i j : Nat), i ≠ j → ∀ a b c a' b' c', out[i]? = some (a, b, c) → out[j]? = some (a', b', c') →
      ∀ A B C A' B' C', V[a]? = some A → V[b]? = some B → V[c]? = some C → V[a']? = some A' → V[b']? = some B' →
        V[c']? = some C' → ∀ q, ¬ (InTriangle A B C q ∧ InTriangle A' B' C' q)) ∧
    (∀ (i j : Nat) (t u : Out), out[i]? = some t → out[j]? = some u → i ≠ j → ∀ e : Nat × Nat,
      ¬ (e ∈ Spec.outEdges t ∧ e ∈ Spec.outEdges u)) := by
  let P := params F (bins vs.length) W (scaleVal vs)
  rw [h.run] at ho
  refine ⟨C30_output_clockwise fuel bins V h.good es out ho, ?_, ?_⟩
  · intro i j hij a b c a' b' c' hi hj A B C A' B' C' gA gB gC gA' gB' gC' q
    exact C30_output_disjoint fuel bins V h.good es out ho i j hij a b c a' b' c' hi hj A B C A' B' C' gA gB gC gA' gB' gC' q
  · intro i j t u hi hj hij e
    exact C30_output_manifold fuel bins V h.good es out ho i j t u hi hj hij e

/-- **C31** in rounded arithmetic: an edge of the mesh after the first constraints is still an edge after further constraints
that do not cross it. -/
theorem C31_rounded_partial (h : RGoodC fuel bins vs V W) (es1 es2 : List Edge) (r1 r2 : AC)
    (h1 : constrainedMesh fuel bins vs es1 = .ok r1) (h2 : constrainedMesh fuel bins vs (es1 ++ es2) = .ok r2)
    (x y : Nat) (X Y : Vtx ℚ) (hx : V[x]? = some X) (hy : V[y]? = some Y) (he : Spec.MeshEdge r1.ts x y)
    (hc : ∀ e ∈ es2, ∀ A B, V[e.src]? = some A → V[e.dst]? = some B → ¬ Plane.Cross A B X Y) :
    Spec.MeshEdge r2.ts x y := by
  let P := params F (bins vs.length) W (scaleVal vs)
  rw [h.mesh] at h1 h2
  exact C31_constraint_survives_partial fuel bins V h.good es1 es2 r1 r2 h1 h2 x y X Y hx hy he hc

end CDT

namespace CDT
open Witness Plane Rounded
local instance roundedCCfg : IdCfg := u32Cfg

theorem robustSample_goodC : RGoodC (F := F64) 342 defaultBins (fpts robustSample) (pts robustSample) 12 where
  toRGood := { robustSample_good with fuel := by decide }
  ray := by unfold ClearRays area2 axes; decide +kernel
  fuelC := by decide +kernel

theorem robustSample32_goodC : RGoodC (F := F32) 342 defaultBins robustSample32 (pts robustSample) 12 where
  toRGood := { robustSample32_good with fuel := by decide }
  ray := by unfold ClearRays area2 axes; decide +kernel
  fuelC := by decide +kernel

/-- The constraint from 0 to 6 crosses edges of the unconstrained mesh; it and the constraint from 7 to 2 meet the hypotheses of
`C29_rounded_partial`. -/
example : Spec.ClearOfVertices (pts robustSample) [⟨0, 6⟩, ⟨7, 2⟩] ∧ Spec.NonCrossing (pts robustSample) [⟨0, 6⟩, ⟨7, 2⟩] ∧
    ∃ s, wrapAndTriangulate 342 (defaultBins (fpts robustSample).length) (normalizeVerts (fpts robustSample))
      (some ((List.range (fpts robustSample).length).map toId)) = .ok s ∧
      Spec.BoundedOnly (pts robustSample) s.ts [⟨0, 6⟩, ⟨7, 2⟩] := by
  refine ⟨clear_of_check (by decide +kernel), nonCrossing_of_check (by decide +kernel), ?_⟩
  have key : (do
      let s ← wrapAndTriangulate 342 (defaultBins (fpts robustSample).length) (normalizeVerts (fpts robustSample))
        (some ((List.range (fpts robustSample).length).map toId))
      Res.ok (boundedCheck (pts robustSample) s.ts [⟨0, 6⟩, ⟨7, 2⟩])) = .ok true := by decide +kernel
  rw [Res.bind_eq_ok] at key
  obtain ⟨s, hs, h⟩ := key
  exact ⟨s, hs, bounded_of_check (by simpa using h)⟩

end CDT

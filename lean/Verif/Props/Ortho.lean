import Verif.Geo.Ortho
import Verif.Props.Corner

/-! # C80: what is covered, and which constraints are accepted, for every input -/

set_option linter.unusedSectionVars false
set_option linter.unusedSimpArgs false
set_option linter.unusedVariables false

namespace CDT
open Plane

section Main
variable {K : Type} [Field K] [LinearOrder K] [IsStrictOrderedRing K] [ExactParams K] [IdCfg]

/-- `a` is further than `b` in the direction that `up` says. -/
def Spec.Past (up : Bool) (a b : K) : Prop := if up then b < a else a < b

/-- A vertex is strictly inside the quadrant `i`, `j` at `q`. -/
def Spec.InQuadrant (vs : List (Vtx K)) (i j : Bool) (q : Vtx K) : Prop := ∃ p ∈ vs, Spec.Past i p.x q.x ∧ Spec.Past j p.y q.y

/-- A vertex is in the closed quadrant `i`, `j` at `q`. -/
def Spec.InClosedQuadrant (vs : List (Vtx K)) (i j : Bool) (q : Vtx K) : Prop :=
  ∃ p ∈ vs, Spec.Beyond i p.x q.x ∧ Spec.Beyond j p.y q.y

/-- `q` is strictly inside the convex hull: it is strictly inside of every line that has all points of `vs` on one side. -/
def Spec.InsideHull (vs : List (Vtx K)) (q : Vtx K) : Prop :=
  ∀ A B : Vtx K, A ≠ B → (∀ v ∈ vs, area2 A B v ≤ 0) → area2 A B q < 0

/-- A point with a vertex inside each quadrant is strictly inside the convex hull. -/
theorem Spec.insideHull_of_quadrants {vs : List (Vtx K)} {q : Vtx K} (h : ∀ i j, Spec.InQuadrant vs i j q) : Spec.InsideHull vs q := by
  intro A B hAB hv
  obtain ⟨p, mp, h1, h2⟩ := h (decide (B.y < A.y)) (decide (A.x < B.x))
  have hp := hv p mp
  have hne : B.x - A.x ≠ 0 ∨ B.y - A.y ≠ 0 := by
    by_contra hn
    rw [not_or, not_not, not_not, sub_eq_zero, sub_eq_zero] at hn
    apply hAB
    cases A; cases B
    simp only at hn
    rw [hn.1, hn.2]
  have e : area2 A B q = area2 A B p - ((B.x - A.x) * (p.y - q.y) + (A.y - B.y) * (p.x - q.x)) := by simp only [area2]; ring
  have s1 : 0 ≤ (B.x - A.x) * (p.y - q.y) ∧ (B.x - A.x ≠ 0 → 0 < (B.x - A.x) * (p.y - q.y)) := by
    rcases lt_or_ge A.x B.x with hx | hx
    · simp [Spec.Past, hx] at h2
      have := mul_pos (sub_pos.2 hx) (sub_pos.2 h2)
      exact ⟨this.le, fun _ => this⟩
    · simp [Spec.Past, hx.not_gt] at h2
      have := mul_nonneg_of_nonpos_of_nonpos (sub_nonpos.2 hx) (sub_neg.2 h2).le
      exact ⟨this, fun hn => lt_of_le_of_ne this (Ne.symm (mul_ne_zero hn (sub_neg.2 h2).ne))⟩
  have s2 : 0 ≤ (A.y - B.y) * (p.x - q.x) ∧ (B.y - A.y ≠ 0 → 0 < (A.y - B.y) * (p.x - q.x)) := by
    rcases lt_or_ge B.y A.y with hx | hx
    · simp [Spec.Past, hx] at h1
      have := mul_pos (sub_pos.2 hx) (sub_pos.2 h1)
      exact ⟨this.le, fun _ => this⟩
    · simp [Spec.Past, hx.not_gt] at h1
      have := mul_nonneg_of_nonpos_of_nonpos (sub_nonpos.2 hx) (sub_neg.2 h1).le
      refine ⟨this, fun hn => lt_of_le_of_ne this (Ne.symm (mul_ne_zero ?_ (sub_neg.2 h1).ne))⟩
      intro h0; apply hn; linarith
  rcases hne with hn | hn
  · have := s1.2 hn
    linarith [s2.1]
  · have := s2.2 hn
    linarith [s1.1]

theorem Spec.InsideHull.three {vs : List (Vtx K)} {q : Vtx K} (h : Spec.InsideHull vs q) : 3 ≤ vs.length := by
  have key : ∀ A B : Vtx K, A ≠ B → (∀ v ∈ vs, area2 A B v = 0) → False := by
    intro A B hAB hv
    have h1 := h A B hAB fun v mv => (hv v mv).le
    have h2 := h B A (Ne.symm hAB) fun v mv => by rw [area2_swap, hv v mv]; simp
    rw [area2_swap] at h2
    linarith
  have one : ∀ a : Vtx K, a ≠ ⟨a.x + 1, a.y⟩ := by
    intro a e
    have := congrArg Vtx.x e
    simp at this
  match vs, key with
  | [], key => exact (key ⟨0, 0⟩ _ (one _) (by simp)).elim
  | [a], key => exact (key a _ (one a) (by simp [area2])).elim
  | [a, b], key =>
    by_cases e : a = b
    · subst e
      exact (key a _ (one a) (by simp [area2])).elim
    · exact (key a b e (by intro v mv; simp only [List.mem_cons, List.not_mem_nil, or_false] at mv; rcases mv with rfl | rfl <;> simp only [area2] <;> ring)).elim
  | _ :: _ :: _ :: l, _ => simp

/-- In normalized coordinates, for a line through any two points of the projective plane. -/
theorem Spec.InsideHull.norm {vs : List (Vtx K)} {q : Vtx K} (h : Spec.InsideHull vs q) (hs : 0 < scaleFactor vs) (P Q : HP K)
    (hX : ∃ X : HP K, 0 < HP.o P Q X) (hv : ∀ V ∈ vs, HP.o P Q (HP.ofVtx (toNorm vs V)) ≤ 0) : HP.o P Q (HP.ofVtx (toNorm vs q)) < 0 := by
  set α := HP.o P Q ⟨1, 0, 0⟩ with hα
  set β := HP.o P Q ⟨0, 1, 0⟩ with hβ
  set γ := HP.o P Q ⟨0, 0, 1⟩ with hγ
  have lin : ∀ X : HP K, HP.o P Q X = α * X.x + β * X.y + γ * X.w := by
    intro X; simp only [hα, hβ, hγ, HP.o]; ring
  by_cases h0 : α = 0 ∧ β = 0
  · obtain ⟨V, mV⟩ : ∃ V, V ∈ vs := List.exists_mem_of_ne_nil _ (by rintro rfl; have := h.three; simp at this)
    have := hv V mV
    rw [lin, h0.1, h0.2] at this ⊢
    obtain ⟨X, hX⟩ := hX
    rw [lin, h0.1, h0.2] at hX
    simp only [HP.ofVtx, zero_mul, zero_add, mul_one] at this hX ⊢
    refine lt_of_le_of_ne this ?_
    rintro e
    rw [e, zero_mul] at hX
    exact lt_irrefl _ hX
  have hn : 0 < α * α + β * β := by
    rcases not_and_or.1 h0 with h | h
    · have := mul_self_pos.2 h
      linarith [mul_self_nonneg β]
    · have := mul_self_pos.2 h
      linarith [mul_self_nonneg α]
  obtain ⟨A, eA⟩ := exists_toNorm hs (⟨-(γ * α) / (α * α + β * β), -(γ * β) / (α * α + β * β)⟩ : Vtx K)
  obtain ⟨B, eB⟩ := exists_toNorm hs (⟨-(γ * α) / (α * α + β * β) + β, -(γ * β) / (α * α + β * β) - α⟩ : Vtx K)
  have key : ∀ V : Vtx K, HP.o P Q (HP.ofVtx (toNorm vs V)) = area2 A B V / scaleFactor vs ^ 2 := by
    intro V
    have := o_toNorm hs A B V
    rw [lin, ← neg_eq_iff_eq_neg.2 this, ← eA, ← eB]
    clear_value α β γ
    simp only [HP.o, HP.ofVtx]
    have hn' := hn.ne'
    generalize hN : α * α + β * β = N at *
    have e : γ * (α * α + β * β) / N = γ := by rw [hN]; field_simp
    linear_combination -e
  have hs2 : 0 < scaleFactor vs ^ 2 := by positivity
  rw [key, div_lt_iff₀ hs2, zero_mul]
  refine h A B ?_ fun v mv => ?_
  · rintro rfl
    rw [← eA] at eB
    simp only [Vtx.mk.injEq] at eB
    refine h0 ⟨?_, ?_⟩ <;> [linarith [eB.2]; linarith [eB.1]]
  · have := hv v mv
    rwa [key, div_le_iff₀ hs2, zero_mul] at this

theorem past_norm {vs : List (Vtx K)} (hs : 0 < scaleFactor vs) (k : Fin 4) (p q : Vtx K) :
    ((HP.dir k).out (HP.ofVtx (toNorm vs p)) < (HP.dir k).out (HP.ofVtx (toNorm vs q)) ∧
      (HP.dir (k + 1)).out (HP.ofVtx (toNorm vs p)) < (HP.dir (k + 1)).out (HP.ofVtx (toNorm vs q))) ↔
    Spec.Past (quadX k) q.x p.x ∧ Spec.Past (quadY k) q.y p.y := by
  have d : ∀ a b c : K, (a - c) / scaleFactor vs < (b - c) / scaleFactor vs ↔ a < b := fun a b c => by
    rw [div_lt_div_iff_of_pos_right hs]; constructor <;> intro h <;> linarith
  fin_cases k <;> simp [HP.out, HP.dir, HP.ofVtx, toNorm, quadX, quadY, quadCorner, Spec.Past, d, and_comm]

theorem Good.chainMesh {fuel : Nat} {bins : Nat → Nat} {vs : List (Vtx K)} (h : Good fuel bins vs) {ts : List Tri}
    (hv : Valid (hp (normalizeVerts vs)) ts) (hok : VertsIn (VOk (normalizeVerts vs).length) ts) (hT : Tiled (normalizeVerts vs) ts)
    (hC : Convexish (normalizeVerts vs) ts) (hout : ∀ k : Fin 4, ∃ i, Ent ts i (INF0 + k) (INF0 + (k + 1 : Fin 4)) NONE) :
    ChainMesh (normalizeVerts vs) ts := ⟨hv, hT, hC, fun q => inf_id hok h.ids_inf, hout⟩

/-- **C80**. A point strictly inside the convex hull is covered if, for each of the four quadrants, there is a vertex inside the quadrant
at that point or the corners of the input in that direction are extreme. Any bins, any order. -/
theorem C80_covered (fuel : Nat) (bins : Nat → Nat) (vs : List (Vtx K)) (h : Good fuel bins vs) (out : List Out)
    (ho : triangulation2d fuel bins vs = .ok out) (q : Vtx K) (hq : Spec.InsideHull vs q)
    (hf : ∀ i j, Spec.CornerExtreme vs i j ∨ Spec.InQuadrant vs i j q) : Spec.Covered vs out q := by
  have hl : (normalizeVerts vs).length = vs.length := by rw [normalizeVerts_eq]; simp
  have hni := h.ids_inf
  have hs := h.scale
  obtain ⟨s, rfl, hv, hok, hT, hocc, hC, hout, -⟩ := h.chains hq.three ho
  have hM := h.chainMesh hv hok hT hC hout
  obtain ⟨i, T, hTi, h1, h2, h3⟩ := hT.closed (g := HP.ofVtx (toNorm vs q)) rfl
  obtain ⟨f1, f2, f3⟩ := hM.finite rfl (fun P Q hX hall => hq.norm hs P Q hX fun V mV => by
      obtain ⟨w, gw, ow⟩ := hocc V mV
      have := lt_of_getElem? gw
      rw [← hp_norm_eq hni gw]
      exact hall w ow (by omega)) (fun k => (hf (quadX k) (quadY k)).imp (fun hE => h.extreme hE hok hocc) (by
        rintro ⟨p, mp, hp2⟩
        obtain ⟨w, gw, ow⟩ := hocc p mp
        have := lt_of_getElem? gw
        refine ⟨w, ow, by omega, ?_⟩
        rw [hp_norm_eq hni gw]
        exact (past_norm hs k q p).2 hp2)) (triIn_get hTi) h1 h2 h3
  have get : ∀ {a : Nat}, Occ s.ts a → a < INF0 → ∃ A, vs[a]? = some A := fun ha fa => by
    obtain ⟨P, gP, -⟩ := getI_lt (show _ < vs.length by rw [← hl]; exact (occ_vok hok ha).resolve_right (by omega))
    exact ⟨P, gP⟩
  obtain ⟨A, gA⟩ := get (triIn_get hTi).occ f1
  obtain ⟨B, gB⟩ := get (triIn_get hTi).next.occ f2
  obtain ⟨C, gC⟩ := get (triIn_get hTi).next.next.occ f3
  refine ⟨T.verts, ?_, A, B, C, gA, gB, gC, ?_⟩
  · rw [filterSeq_eq_map, List.mem_map]
    exact ⟨T, List.mem_filter.2 ⟨List.mem_of_getElem? hTi, by simp [Tri.isFinite, isFin_iff, f1, f2, f3]⟩, rfl⟩
  · rw [hp_norm_eq hni gA, hp_norm_eq hni gB] at h1
    rw [hp_norm_eq hni gB, hp_norm_eq hni gC] at h2
    rw [hp_norm_eq hni gC, hp_norm_eq hni gA] at h3
    exact ⟨(o_toNorm_nonneg hs).1 h1, (o_toNorm_nonneg hs).1 h2, (o_toNorm_nonneg hs).1 h3⟩

/-- **C80**, for every input: the points with a vertex inside each of the four quadrants are covered. -/
theorem C80_quadrants (fuel : Nat) (bins : Nat → Nat) (vs : List (Vtx K)) (h : Good fuel bins vs) (out : List Out)
    (ho : triangulation2d fuel bins vs = .ok out) (q : Vtx K) (hf : ∀ i j, Spec.InQuadrant vs i j q) : Spec.Covered vs out q :=
  C80_covered fuel bins vs h out ho q (Spec.insideHull_of_quadrants hf) fun i j => .inr (hf i j)

/-- **C80**, the other way around: what is known of a point of the convex hull that is not covered. -/
theorem C80_uncovered (fuel : Nat) (bins : Nat → Nat) (vs : List (Vtx K)) (h : Good fuel bins vs) (out : List Out)
    (ho : triangulation2d fuel bins vs = .ok out) (q : Vtx K) (hq : Spec.InsideHull vs q) (hc : ¬ Spec.Covered vs out q) :
    ∃ i j, ¬ Spec.InQuadrant vs i j q ∧ ∃ v ∈ vs, (∀ p ∈ vs, Spec.Beyond i p.x v.x → Spec.Beyond j p.y v.y → p = v) ∧
      (∃ p ∈ vs, ¬ Spec.Beyond i v.x p.x) ∧ ∃ p ∈ vs, ¬ Spec.Beyond j v.y p.y := by
  by_contra hn
  refine hc (C80_covered fuel bins vs h out ho q hq fun i j => ?_)
  by_cases hi : Spec.InQuadrant vs i j q
  · exact .inr hi
  refine .inl fun v hv he => ?_
  by_contra hx
  rw [not_or] at hx
  push Not at hx
  exact hn ⟨i, j, hi, v, hv, he, hx.1, hx.2⟩

/-- Every point of the constraints has a vertex in each closed quadrant, except in directions where the corners are extreme. -/
def Spec.Sheltered (vs : List (Vtx K)) (es : List Edge) : Prop :=
  ∀ e ∈ es, ∀ A B, vs[e.src]? = some A → vs[e.dst]? = some B → ∀ x, InsideSegment A B x →
    ∀ i j, Spec.CornerExtreme vs i j ∨ Spec.InClosedQuadrant vs i j x

/-- **C80**. Constraints that do not cross, do not pass through vertices and have a vertex in each closed quadrant of all their points are
accepted, whatever is not covered elsewhere. -/
theorem C80_accepts (fuel : Nat) (bins : Nat → Nat) (vs : List (Vtx K)) (h : Good fuel bins vs) (hfuel : fuelFor vs.length ≤ fuel)
    (h3 : 3 ≤ vs.length) (out0 : List Out) (h0 : triangulation2d fuel bins vs = .ok out0)
    (es : List Edge) (hc : Spec.ClearOfVertices vs es) (hx : Spec.NonCrossing vs es) (hsh : Spec.Sheltered vs es) :
    (∃ out, constrained2d fuel bins vs es = .ok out) ∧
    ∃ r, constrainedMesh fuel bins vs es = .ok r ∧ ∀ e ∈ es, ∀ A B, vs[e.src]? = some A → vs[e.dst]? = some B →
      ∃ a b : Nat, vs[a]? = some A ∧ vs[b]? = some B ∧ Spec.MeshEdge r.ts a b ∧ Spec.MeshEdge r.ts b a := by
  have hl : (normalizeVerts vs).length = vs.length := by rw [normalizeVerts_eq]; simp
  have hni := h.ids_inf
  have hs := h.scale
  obtain ⟨s, rfl, hv, hok, hT, hocc, hC, hout, hrun⟩ := h.chains h3 h0
  have hM := h.chainMesh hv hok hT hC hout
  have hle : ∀ {a : Nat} {A : Vtx K}, vs[a]? = some A → a < INF0 := fun ha => by have := lt_of_getElem? ha; omega
  obtain ⟨ho, hm⟩ := h.accepted hfuel hc hx hrun (h.no_panic hfuel hc.inRange fun s' hs' _ e he x y hxy hinf hcr => by
    rw [hrun] at hs'; simp at hs'; subst hs'
    obtain ⟨ra, rb⟩ := hc.inRange e he
    obtain ⟨A, gA, -⟩ := getI_lt ra
    obtain ⟨B, gB, -⟩ := getI_lt rb
    obtain ⟨a, ga, oa⟩ := hocc A (List.mem_of_getElem? gA)
    obtain ⟨b, gb, ob⟩ := hocc B (List.mem_of_getElem? gB)
    have fa := hle ga
    have fb := hle gb
    rw [hp_norm_eq hni gA, ← hp_norm_eq hni ga, hp_norm_eq hni gB, ← hp_norm_eq hni gb] at hcr
    have hS : ∀ g : HP K, g.w = 1 → (∃ r : K, 0 < r ∧ r < 1 ∧ g.x = (hp (normalizeVerts vs) a).x + r * ((hp (normalizeVerts vs) b).x - (hp (normalizeVerts vs) a).x) ∧
        g.y = (hp (normalizeVerts vs) a).y + r * ((hp (normalizeVerts vs) b).y - (hp (normalizeVerts vs) a).y)) →
        ∀ k, Extreme (normalizeVerts vs) s.ts k ∨ QuadC (normalizeVerts vs) s.ts g k := by
      rintro g wg ⟨r, r0, r1, ex, ey⟩ k
      obtain ⟨q, eq⟩ := exists_toNorm hs ⟨g.x, g.y⟩
      have eg : g = HP.ofVtx (toNorm vs q) := by
        rw [← eq]; cases g; simp only at wg; subst wg; rfl
      have hin : InsideSegment A B q := by
        refine ⟨r, r0, r1, ?_, ?_⟩
        · rw [eg, hp_norm_eq hni ga, hp_norm_eq hni gb] at ex
          simp only [HP.ofVtx, toNorm] at ex
          field_simp at ex
          linarith
        · rw [eg, hp_norm_eq hni ga, hp_norm_eq hni gb] at ey
          simp only [HP.ofVtx, toNorm] at ey
          field_simp at ey
          linarith
      refine (hsh e he A B gA gB q hin (quadX k) (quadY k)).imp (fun hE => h.extreme hE hok hocc) ?_
      rintro ⟨p, mp, hp2⟩
      obtain ⟨w, gw, ow⟩ := hocc p mp
      refine ⟨w, ow, hle gw, ?_⟩
      rw [hp_norm_eq hni gw, eg]
      exact (beyond_norm hs k q p).2 hp2
    obtain ⟨i, j, T, hTi, hk⟩ := hxy
    obtain ⟨z, _, _, hR⟩ := hk.rot
    have hTT : TriIn s.ts x y z := ⟨i, T, _, _, _, hTi, hR⟩
    by_cases fx : x < INF0
    · exact hM.no_cross fx (by omega) (.inl hTT) oa fa ob fb hS hcr
    · by_cases fy : y < INF0
      · exact hM.no_cross fy fx (.inr hTT) oa fa ob fb hS hcr.flip
      · have w0 := hp_w_inf (normalizeVerts vs) fx
        have w1 := hp_w_inf (normalizeVerts vs) fy
        have wa := hp_w_fin (normalizeVerts vs) fa
        have wb := hp_w_fin (normalizeVerts vs) fb
        have := hcr.2
        simp only [HP.o, w0, w1, wa, wb] at this
        nlinarith [mul_self_nonneg ((hp (normalizeVerts vs) x).x * (hp (normalizeVerts vs) y).y - (hp (normalizeVerts vs) x).y * (hp (normalizeVerts vs) y).x)])
  exact ⟨ho, hm h3⟩

/-- **C80**, the region: with closed borders the triangles of the result cover exactly the points enclosed by the constraints. -/
theorem C80_polygon (fuel : Nat) (bins : Nat → Nat) (vs : List (Vtx K)) (h : Good fuel bins vs) (hfuel : fuelFor vs.length ≤ fuel)
    (h3 : 3 ≤ vs.length) (out0 : List Out) (h0 : triangulation2d fuel bins vs = .ok out0)
    (es : List Edge) (hc : Spec.ClearOfVertices vs es) (hx : Spec.NonCrossing vs es) (hsh : Spec.Sheltered vs es) (hb : Spec.Border vs es) :
    ∃ out, constrained2d fuel bins vs es = .ok out ∧ ∀ q, OffEdges (Spec.segments vs es) q →
      (Spec.Covered vs out q ↔ winding (Spec.segments vs es) q = 1) := by
  obtain ⟨⟨out, ho⟩, -⟩ := C80_accepts fuel bins vs h hfuel h3 out0 h0 es hc hx hsh
  exact ⟨out, ho, fun q hq => C57_polygon fuel bins vs h hfuel es hx hb out ho q hq⟩

/-- A check: for each constraint and direction there is a vertex at or beyond both ends. -/
theorem Spec.sheltered_of_check {vs : List (Vtx K)} {es : List Edge}
    (h : ∀ e ∈ es, ∀ A ∈ vs[e.src]?, ∀ B ∈ vs[e.dst]?, ∀ i j : Bool, Spec.CornerExtreme vs i j ∨
      ∃ p ∈ vs, (Spec.Beyond i p.x A.x ∧ Spec.Beyond i p.x B.x) ∧ Spec.Beyond j p.y A.y ∧ Spec.Beyond j p.y B.y) : Spec.Sheltered vs es := by
  intro e he A B gA gB x hx i j
  refine (h e he A gA B gB i j).imp id ?_
  rintro ⟨p, mp, ⟨x1, x2⟩, y1, y2⟩
  obtain ⟨r, r0, r1, ex, ey⟩ := hx
  have cv : ∀ {u : Bool} {c a b m : K}, Spec.Beyond u c a → Spec.Beyond u c b → m = a + r * (b - a) → Spec.Beyond u c m := by
    intro u c a b m h1 h2 hm
    subst hm
    cases u <;> simp only [Spec.Beyond, Bool.false_eq_true, if_false, if_true] at h1 h2 ⊢ <;> nlinarith
  exact ⟨p, mp, cv x1 x2 ex, cv y1 y2 ey⟩

/-! ## Rounded arithmetic -/

/-- **C80** in rounded arithmetic (`f32`, `f64`) on robust inputs and on grids; `V` are the exact positions. -/
theorem C80_covered_rounded {F : Type} [FloatOps F] [Rounded F] (fuel : Nat) (bins : Nat → Nat) (vs : List (Vtx F))
    (V : List (Vtx ℚ)) (W : ℚ) (h : Rounded.RGood fuel bins vs V W) (out : List Out)
    (ho : triangulation2d fuel bins vs = .ok out) (q : Vtx ℚ) (hq : Spec.InsideHull V q)
    (hf : ∀ i j, Spec.CornerExtreme V i j ∨ Spec.InQuadrant V i j q) : Spec.Covered V out q := by
  let P := Rounded.params F (bins vs.length) W (Rounded.scaleVal vs)
  rw [h.run] at ho
  exact C80_covered fuel bins V h.good out ho q hq hf

/-- **C80** for constraints in rounded arithmetic. -/
theorem C80_accepts_rounded {F : Type} [FloatOps F] [Rounded F] (fuel : Nat) (bins : Nat → Nat) (vs : List (Vtx F))
    (V : List (Vtx ℚ)) (W : ℚ) (h : Rounded.RGoodC fuel bins vs V W) (h3 : 3 ≤ V.length) (out0 : List Out)
    (h0 : triangulation2d fuel bins vs = .ok out0) (es : List Edge) (hc : Spec.ClearOfVertices V es) (hx : Spec.NonCrossing V es)
    (hsh : Spec.Sheltered V es) :
    (∃ out, constrained2d fuel bins vs es = .ok out) ∧
    ∃ r, constrainedMesh fuel bins vs es = .ok r ∧ ∀ e ∈ es, ∀ A B, V[e.src]? = some A → V[e.dst]? = some B →
      ∃ a b : Nat, V[a]? = some A ∧ V[b]? = some B ∧ Spec.MeshEdge r.ts a b ∧ Spec.MeshEdge r.ts b a := by
  let P := Rounded.params F (bins vs.length) W (Rounded.scaleVal vs)
  rw [h.toRGood.run] at h0
  rw [h.run, h.mesh]
  exact C80_accepts fuel bins V h.good (by rw [h.len]; exact h.fuelC) h3 out0 h0 es hc hx hsh

end Main

section Example
open Rounded
local instance orthoCfg : IdCfg := u32Cfg

/-- The corner `(3, 14)` has no extreme coordinate, so C79 does not apply. -/
def orthoGrid : List (Int × Int) := [(0,8),(10,16),(3,14),(16,9),(7,0),(6,6),(9,7),(8,10),(5,9),(12,11),(11,5)]

theorem ortho_goodC : RGoodC (F := F64) 700 Witness.defaultBins (flPts binary64 orthoGrid) (intPts orthoGrid) (2 ^ 4) where
  toRGood := C44_grid orthoGrid 4 (by decide) (by decide) (by decide) ⟨by norm_num, by decide +kernel, by decide +kernel⟩
    (by decide) (by decide +kernel) (by decide) (by decide)
  ray := by unfold Plane.ClearRays Plane.area2 Plane.axes; decide +kernel
  fuelC := by decide

example : ¬ Spec.CornersExtreme (intPts orthoGrid) := by
  unfold Spec.CornersExtreme Spec.CornerExtreme Spec.Beyond
  decide +kernel

theorem ortho_run : ∃ out, triangulation2d (F := F64) 700 Witness.defaultBins (flPts binary64 orthoGrid) = .ok out := by
  have h : ∀ r, triangulation2d (F := F64) 700 Witness.defaultBins (flPts binary64 orthoGrid) = r → r.isOk = true → ∃ out,
      triangulation2d (F := F64) 700 Witness.defaultBins (flPts binary64 orthoGrid) = .ok out := by
    rintro (out | _ | _) h1 h2
    · exact ⟨out, h1⟩
    all_goals simp [Res.isOk] at h2
  exact h _ rfl (by decide +kernel)

/-- A point that is covered. -/
example : ∃ out, triangulation2d (F := F64) 700 Witness.defaultBins (flPts binary64 orthoGrid) = .ok out ∧
    Spec.Covered (intPts orthoGrid) out ⟨8, 9⟩ := by
  obtain ⟨out, ho⟩ := ortho_run
  have hq : ∀ i j, Spec.InQuadrant (intPts orthoGrid) i j ⟨8, 9⟩ := by
    unfold Spec.InQuadrant Spec.Past
    decide +kernel
  exact ⟨out, ho, C80_covered_rounded 700 _ _ _ _ ortho_goodC.toRGood out ho _ (Spec.insideHull_of_quadrants hq) fun i j => .inr (hq i j)⟩

/-- Constraints that are accepted. -/
example : ∃ out, constrained2d (F := F64) 700 Witness.defaultBins (flPts binary64 orthoGrid) [⟨8, 9⟩, ⟨5, 6⟩] = .ok out := by
  obtain ⟨out, ho⟩ := ortho_run
  exact (C80_accepts_rounded 700 _ _ _ _ ortho_goodC (by decide) out ho _ (clear_of_check (by decide +kernel))
    (nonCrossing_of_check (by decide +kernel)) (Spec.sheltered_of_check (by
      unfold Spec.CornerExtreme Spec.Beyond
      decide +kernel))).1

end Example
end CDT

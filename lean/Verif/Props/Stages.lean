import Verif.Geo.OneFresh
import Verif.Props.Covering
import Verif.Props.UniqueC

/-! # C82: one constraint after the other -/

set_option linter.unusedSectionVars false
set_option linter.unusedVariables false

namespace CDT
open Plane

variable {K : Type} [Field K] [LinearOrder K] [IsStrictOrderedRing K] [ExactParams K] [IdCfg]

/-- The segment of the constraint properly crosses at most two edges of the mesh. -/
def Spec.CrossesTwo (vs : List (Vtx K)) (e : Edge) (ts : List Tri) : Prop :=
  ∃ x1 y1 x2 y2 : Nat, ∀ x y A B X Y, Spec.MeshEdge ts x y → vs[e.src]? = some A → vs[e.dst]? = some B →
    vs[x]? = some X → vs[y]? = some Y → Cross A B X Y →
    (x = x1 ∧ y = y1) ∨ (x = y1 ∧ y = x1) ∨ (x = x2 ∧ y = y2) ∨ (x = y2 ∧ y = x2)

/-- Two vertices of a mesh with the same position are equal. -/
theorem occ_pos_inj {vs : List (Vtx K)} {ts : List Tri} (hn : vs.length ≤ INF0) (hv : Valid (hp vs) ts) (hT : Tiled vs ts) {a b : Nat}
    {A : Vtx K} (ha : Occ ts a) (hb : Occ ts b) (gA : vs[a]? = some A) (gB : vs[b]? = some A) : a = b := by
  have fa : a < INF0 := by have := lt_of_getElem? gA; omega
  have fb : b < INF0 := by have := lt_of_getElem? gB; omega
  obtain ⟨i, T, hTi, hh⟩ := ha
  have key : ∀ {y z : Nat}, TriIn ts a y z → a = b := by
    intro y z h
    have D := h.pos hv
    obtain ⟨k, U, _, _, _, hUk, hR⟩ := h
    have e : hp vs b = hp vs a := by rw [hp_fin fa gA, hp_fin fb gB]
    have hvt := vert_of_in hv hT fb hb hUk hR (by rw [e, HP.o_same'']) (by rw [e, HP.o_cyc]; exact D.le) (by rw [e, HP.o_same'])
    rcases hR.hasVert.1 hvt with g | g | g
    · exact g
    · rw [g, e, HP.o_same] at D; exact absurd D (lt_irrefl _)
    · rw [g, e, HP.o_same''] at D; exact absurd D (lt_irrefl _)
  have := triIn_get hTi
  rw [hasVert_iff] at hh
  rcases hh with e | e | e
  · exact key (e ▸ this)
  · exact key (e ▸ this.next)
  · exact key (e ▸ this.next.next)

section Run
variable {fuel : Nat} {bins : Nat → Nat} {vs : List (Vtx K)} (h : Good fuel bins vs) (hf : fuelFor vs.length ≤ fuel) {s : DT} {v2t : List Nat}
  (hs : wrapAndTriangulate fuel (bins vs.length) (normalizeVerts vs) (some ((List.range vs.length).map toId)) = .ok s)
  (hv : buildV2t s.ts 0 (List.replicate (normalizeVerts vs).length 0) = .ok v2t)
  (hfar : ∀ a b x y : Nat, a < vs.length → b < vs.length → HasEdge s.ts x y → INF0 ≤ x ∨ INF0 ≤ y →
    ¬ HP.Cross (hp (normalizeVerts vs) a) (hp (normalizeVerts vs) b) (hp (normalizeVerts vs) x) (hp (normalizeVerts vs) y))
include h hf hs hv hfar

/-- The facts about the mesh after some constraints. -/
theorem Good.cstage {es : List Edge} {r : AC}
    (hr : applyLoop (normalizeVerts vs) fuel (s.merge.getD []) es ⟨s.ts, v2t, []⟩ = .ok r) :
    AInv (normalizeVerts vs) s.ts r ∧ r.ts.length = s.ts.length ∧ SameUnb s.ts r.ts ∧
      (∀ e ∈ r.S, e.src ≠ e.dst) ∧ ∀ P ∈ normalizeVerts vs, ∃ w : Nat, (normalizeVerts vs)[w]? = some P ∧ Occ r.ts w := by
  have hl : (normalizeVerts vs).length = vs.length := by rw [normalizeVerts_eq]; simp
  have hni := h.ids_inf
  obtain ⟨v2t', hv', hA, hT, hmi, hml, hlen, hpos⟩ := h.start hs
  rw [hv] at hv'; simp at hv'; subst hv'
  obtain ⟨hB, hkeep⟩ := applyLoop_inv h.unit hni (fun v x hx => (hmi v x hx).1) hA hr
  have hlr := (applyLoop_in hr hA.m.ok).2.1
  have hU : Unb (HasEdge s.ts) r.ts ∧ ∀ e ∈ r.S, e.src ≠ e.dst := by
    have := applyLoop_rule (fun x : AC => AInv (normalizeVerts vs) s.ts x ∧ x.ts.length = s.ts.length ∧ Unb (HasEdge s.ts) x.ts ∧
      ∀ e ∈ x.S, e.src ≠ e.dst) ?_ hr ⟨hA, rfl, fun i x y j hE _ => ⟨i, j, hE⟩, by simp⟩
    · exact this.2.2
    rintro x e x' ⟨hx, lx, ux, sx⟩ hone
    rcases applyOne_total h.unit hni hA.m.valid hmi hx (fuel_le (by omega) hf) e with ⟨h1, -⟩ | ⟨a, b, ga, gb, h1⟩
    · rw [hone] at h1; simp at h1
    rcases h1 with ⟨h1, -⟩ | ⟨hab, ⟨⟨er, h1⟩, -⟩ | ⟨h1, -⟩ | ⟨x1, h1, i1, l1, s1, -, u1, -⟩⟩
    · rw [hone] at h1; simp at h1; subst h1; exact ⟨hx, lx, ux, sx⟩
    · rw [hone] at h1; simp at h1
    · rw [hone] at h1; simp at h1
    · rw [hone] at h1; simp at h1; subst h1
      have la := (hmi _ _ ga).2
      have lb := (hmi _ _ gb).2
      refine ⟨i1, by omega, u1 (Unb.finCross h.unit hni hA.m.valid hmi ux fun p q hpq hn => hfar a b p q (by omega) (by omega) hpq (by omega)) _ ux, ?_⟩
      rw [s1]
      intro e' he'
      rw [List.mem_cons] at he'
      rcases he' with rfl | he'
      · exact hab
      · exact sx e' he'
  refine ⟨hB, hlr, ?_, hU.2, ?_⟩
  · intro x y hxy
    constructor
    · intro hE
      by_cases hx : x < INF0 ∨ y < INF0
      · refine hkeep x y hx hE fun e he a b ga gb => ?_
        have la := (hmi _ _ ga).2
        have lb := (hmi _ _ gb).2
        exact hfar a b x y (by omega) (by omega) hE (by omega)
      · exact steps_far hB.steps hA.m.valid hlr (by tauto) (by tauto) hE
    · rintro ⟨i, j, hE⟩
      exact hU.1 i x y j hE hxy
  · intro P hP
    rw [normalizeVerts_eq, List.mem_map] at hP
    obtain ⟨Q, hQ, rfl⟩ := hP
    obtain ⟨v, gv⟩ := List.mem_iff_getElem?.1 hQ
    obtain ⟨w, hw⟩ : ∃ w, (s.merge.getD [])[v]? = some w := ⟨_, List.getElem?_eq_getElem (hml ▸ lt_of_getElem? gv)⟩
    refine ⟨w, ?_, steps_occ hB.steps (hmi v w hw).1⟩
    rw [normalizeVerts_eq, List.getElem?_map, (hpos _ _ hw).trans gv]; rfl

/-- The meshes after some constraints and after some more. -/
theorem Good.twin {es es2 : List Edge} (hx : Spec.NonCrossing vs (es ++ es2)) {r r' : AC}
    (hr : applyLoop (normalizeVerts vs) fuel (s.merge.getD []) es ⟨s.ts, v2t, []⟩ = .ok r)
    (hr' : applyLoop (normalizeVerts vs) fuel (s.merge.getD []) (es ++ es2) ⟨s.ts, v2t, []⟩ = .ok r') :
    Twin (normalizeVerts vs) r.S r.ts r'.ts := by
  have hni := h.ids_inf
  obtain ⟨v2t', hv', hA, hT, hmi, hml, hlen, hpos⟩ := h.start hs
  obtain ⟨hB, -, u1, ne, al⟩ := h.cstage hf hs hv hfar hr
  obtain ⟨hB', -, u2, -, al'⟩ := h.cstage hf hs hv hfar hr'
  refine ⟨hni, hB.m.valid, hB'.m.valid, tiled_steps hB.steps hA.m.valid hT, tiled_steps hB'.steps hA.m.valid hT, hB.m.ok, hB'.m.ok,
    al, al', fun x y hxy => (u1 x y hxy).symm.trans (u2 x y hxy), ?_⟩
  intro e he
  obtain ⟨-, smem⟩ := applyLoop_S_mem hr (by simp)
  rcases smem e he with h0 | ⟨e0, he0, g1, g2⟩
  · simp at h0
  exact h.merged_edge hf hx hs hv hr' (List.mem_append_left _ he0) g1 g2 (ne e he)

/-- Adding a constraint that crosses at most two edges. -/
theorem Good.stage_two {es : List Edge} {e : Edge} (hx : Spec.NonCrossing vs (es ++ [e])) {r r' : AC}
    (hr : applyLoop (normalizeVerts vs) fuel (s.merge.getD []) es ⟨s.ts, v2t, []⟩ = .ok r)
    (hr' : applyLoop (normalizeVerts vs) fuel (s.merge.getD []) (es ++ [e]) ⟨s.ts, v2t, []⟩ = .ok r')
    (hD : LocD (normalizeVerts vs) r.S r.ts) (h2 : Spec.CrossesTwo vs e r.ts) : LocD (normalizeVerts vs) r'.S r'.ts := by
  have hl : (normalizeVerts vs).length = vs.length := by rw [normalizeVerts_eq]; simp
  have hni := h.ids_inf
  have tw := h.twin hf hs hv hfar hx hr hr'
  obtain ⟨v2t', hv', hA, hT, hmi, hml, hlen, hpos⟩ := h.start hs
  obtain ⟨hB, lr, u1, ne, al⟩ := h.cstage hf hs hv hfar hr
  have hone := hr'
  rw [applyLoop_append, hr] at hone
  simp only [Res.ok_bind, applyLoop, Res.bind_eq_ok, Res.ok.injEq] at hone
  obtain ⟨r1, hone, rfl⟩ := hone
  obtain ⟨a, b, ga, gb, ⟨-, rfl⟩ | ⟨-, -, rfl⟩ | ⟨hab, hm, hi⟩⟩ := applyOne_ok hone
  · exact hD
  · exact hD
  have la := hmi _ _ ga
  have lb := hmi _ _ gb
  have hS : r1.S = ⟨a, b⟩ :: r.S := (insertEdge_in hi (Q := fun _ => True) (fun _ _ _ => trivial)).2.2.2
  have hfin : ∀ x y, HasEdge r.ts x y → HP.Cross (hp (normalizeVerts vs) a) (hp (normalizeVerts vs) b) (hp (normalizeVerts vs) x)
      (hp (normalizeVerts vs) y) → x < INF0 ∧ y < INF0 := by
    intro x y hxy hc
    by_contra hn
    exact hfar a b x y (by omega) (by omega) ((u1 x y hn).2 hxy) (by omega) hc
  have get : ∀ {x a : Nat}, (s.merge.getD [])[x]? = some a → ∃ A, vs[x]? = some A ∧ vs[a]? = some A := by
    intro x a ha
    have l1 : x < vs.length := by rw [← hml]; exact lt_of_getElem? ha
    obtain ⟨A, gA, -⟩ := getI_lt l1
    exact ⟨A, gA, (hpos _ _ ha).trans gA⟩
  have posOf : ∀ {x : Nat}, Occ r.ts x → x < INF0 → ∃ X, vs[x]? = some X := by
    rintro x ⟨i, T, hTi, hh⟩ hlt
    have hm := hB.m.ok.get hTi
    rw [hasVert_iff] at hh
    have : VOk (normalizeVerts vs).length x := by
      rcases hh with e | e | e
      · exact e ▸ hm 0
      · exact e ▸ hm 1
      · exact e ▸ hm 2
    exact ⟨_, List.getElem?_eq_getElem (hl ▸ this.fin hlt)⟩
  have hT2 : TwoCross (normalizeVerts vs) r.ts a b := by
    obtain ⟨x1, y1, x2, y2, h2⟩ := h2
    refine ⟨x1, y1, x2, y2, fun x y hxy hc => ?_⟩
    obtain ⟨fx, fy⟩ := hfin x y hxy hc
    have ox : Occ r.ts x ∧ Occ r.ts y := by obtain ⟨i, j, he⟩ := hxy; exact he.occ
    obtain ⟨X, gX⟩ := posOf ox.1 fx
    obtain ⟨Y, gY⟩ := posOf ox.2 fy
    obtain ⟨A, gA, gA'⟩ := get ga
    obtain ⟨B, gB, gB'⟩ := get gb
    exact h2 x y A B X Y (meshEdge_iff.2 hxy) gA gB gX gY (cross_normalized h.scale hni gA' gB' gX gY hc)
  intro x y c d h1 h2' fx fy fc fd n1 n2
  rw [hS, List.mem_cons, not_or] at n1 n2
  by_cases hold : HasEdge r.ts x y
  · exact tw.keep hD h1 h2' fx fy fc fd n1.2 n2.2 hold
  · have hA' : AInv (normalizeVerts vs) s.ts ({ r with S := ⟨a, b⟩ :: r.S } : AC) := ⟨hB.m, hB.steps, hB.occ⟩
    refine insertEdge_two (ce := ⟨a, b⟩) h.unit hni hA' hA.m.valid hT hab (steps_occ hB.steps la.1) (fuel_le (by simp only; omega) hf) hfin hT2
      hi fx fy h1.edge hold ?_ c d h1 h2' fx fy fc fd
    simp only [Edge.undirEq, Bool.or_eq_false_iff, Bool.and_eq_false_iff, decide_eq_false_iff_not, Edge.mk.injEq]
    have m1 := n1.1
    have m2 := n2.1
    simp only [Edge.mk.injEq, not_and] at m1 m2
    tauto

/-- The local condition for a mesh, in the positions of the input. -/
theorem Good.locD_iff {es : List Edge} {r : AC}
    (hr : applyLoop (normalizeVerts vs) fuel (s.merge.getD []) es ⟨s.ts, v2t, []⟩ = .ok r) :
    LocD (normalizeVerts vs) r.S r.ts ↔ Spec.LocallyDelaunay vs es (r.ts.map Tri.verts) := by
  have hl : (normalizeVerts vs).length = vs.length := by rw [normalizeVerts_eq]; simp
  have hni := h.ids_inf
  obtain ⟨v2t', hv', hA, hT, hmi, hml, hlen, hpos⟩ := h.start hs
  obtain ⟨hB, lr, u1, ne, al⟩ := h.cstage hf hs hv hfar hr
  have hTr := tiled_steps hB.steps hA.m.valid hT
  obtain ⟨-, smem⟩ := applyLoop_S_mem hr (by simp)
  have sall := (applyLoop_S hr).2
  have get : ∀ {x a : Nat}, (s.merge.getD [])[x]? = some a → ∃ A, vs[x]? = some A ∧ vs[a]? = some A := by
    intro x a ha
    have l1 : x < vs.length := by rw [← hml]; exact lt_of_getElem? ha
    obtain ⟨A, gA, -⟩ := getI_lt l1
    exact ⟨A, gA, (hpos _ _ ha).trans gA⟩
  have nget : ∀ {x : Nat} {X : Vtx K}, vs[x]? = some X → (normalizeVerts vs)[x]? = some (toNorm vs X) := by
    intro x X gX
    rw [normalizeVerts_eq, List.getElem?_map, gX]; rfl
  have hle : ∀ {a : Nat} {A : Vtx K}, vs[a]? = some A → a < INF0 := fun ha => by have := lt_of_getElem? ha; omega
  have ic : ∀ {a b c d : Nat} {A B C D : Vtx K}, TriIn r.ts a b c → vs[a]? = some A → vs[b]? = some B → vs[c]? = some C → vs[d]? = some D →
      (¬ InCircle A B C D ↔ HP.ic (hp (normalizeVerts vs) a) (hp (normalizeVerts vs) b) (hp (normalizeVerts vs) c) (hp (normalizeVerts vs) d) ≤ 0) := by
    intro a b c d A B C D ht gA gB gC gD
    rw [← inCircle_norm_iff h.scale, inCircle_ic ((o_pos_cw hni (nget gA) (nget gB) (nget gC)).1 (ht.pos hB.m.valid)), hp_norm_eq hni gA,
      hp_norm_eq hni gB, hp_norm_eq hni gC, hp_norm_eq hni gD, not_lt]
  constructor
  · intro hD t ht u hu a b c d htc huc A B C D gA gB gC gD hno
    rw [List.mem_map] at ht hu
    obtain ⟨T, hTm, rfl⟩ := ht
    obtain ⟨U, hUm, rfl⟩ := hu
    have h1 := triIn_of_corners hTm htc
    refine (ic h1 gA gB gC gD).2 (hD a b c d h1 (triIn_of_corners hUm huc) (hle gA) (hle gB) (hle gC) (hle gD) ?_ ?_)
    · intro hm
      rcases smem _ hm with h0 | ⟨e, he, g1, g2⟩
      · simp at h0
      obtain ⟨A', k1, k2⟩ := get g1
      obtain ⟨B', k3, k4⟩ := get g2
      rw [gA] at k2; cases k2; rw [gB] at k4; cases k4
      exact hno ⟨e, he, .inl ⟨k1, k3⟩⟩
    · intro hm
      rcases smem _ hm with h0 | ⟨e, he, g1, g2⟩
      · simp at h0
      obtain ⟨A', k1, k2⟩ := get g1
      obtain ⟨B', k3, k4⟩ := get g2
      rw [gB] at k2; cases k2; rw [gA] at k4; cases k4
      exact hno ⟨e, he, .inr ⟨k1, k3⟩⟩
  · intro hD a b c d h1 h2 fa fb fc fd n1 n2
    obtain ⟨T, hTm, htc⟩ := h1.corners
    obtain ⟨U, hUm, huc⟩ := h2.corners
    have posOf : ∀ {x : Nat}, Occ r.ts x → x < INF0 → ∃ X, vs[x]? = some X := by
      rintro x ⟨i, T, hTi, hh⟩ hlt
      have hm := hB.m.ok.get hTi
      rw [hasVert_iff] at hh
      have : VOk (normalizeVerts vs).length x := by
        rcases hh with e | e | e
        · exact e ▸ hm 0
        · exact e ▸ hm 1
        · exact e ▸ hm 2
      exact ⟨_, List.getElem?_eq_getElem (hl ▸ this.fin hlt)⟩
    obtain ⟨A, gA⟩ := posOf h1.occ fa
    obtain ⟨B, gB⟩ := posOf h1.next.occ fb
    obtain ⟨C, gC⟩ := posOf h1.next.next.occ fc
    obtain ⟨D, gD⟩ := posOf h2.next.next.occ fd
    have hAB : a ≠ b := by
      rintro rfl
      have := h1.pos hB.m.valid
      rw [HP.o_same] at this; exact lt_irrefl _ this
    -- the merged ends of a constraint are the vertices of the mesh at these positions
    have same : ∀ {v a' x : Nat} {X : Vtx K}, (s.merge.getD [])[v]? = some a' → vs[v]? = some X → vs[x]? = some X → Occ r.ts x → a' = x := by
      intro v a' x X g1 g2 g3 ox
      exact occ_pos_inj hni hB.m.valid hTr (steps_occ hB.steps (hmi _ _ g1).1) ox (nget ((hpos _ _ g1).trans g2)) (nget g3)
    refine (ic h1 gA gB gC gD).1 (hD _ (List.mem_map.2 ⟨T, hTm, rfl⟩) _ (List.mem_map.2 ⟨U, hUm, rfl⟩) a b c d htc huc A B C D gA gB gC gD ?_)
    have mer : ∀ {v : Nat} {X : Vtx K}, vs[v]? = some X → ∃ w, (s.merge.getD [])[v]? = some w := fun g =>
      ⟨_, List.getElem?_eq_getElem (hml ▸ lt_of_getElem? g)⟩
    rintro ⟨e, he, ⟨k1, k2⟩ | ⟨k1, k2⟩⟩ <;> obtain ⟨a', g1⟩ := mer k1 <;> obtain ⟨b', g2⟩ := mer k2
    · have e1 := same g1 k1 gA h1.occ
      have e2 := same g2 k2 gB h1.next.occ
      subst e1; subst e2
      exact n1 (sall e he _ _ g1 g2 hAB)
    · have e1 := same g1 k1 gB h1.next.occ
      have e2 := same g2 k2 gA h1.occ
      subst e1; subst e2
      exact n2 (sall e he _ _ g1 g2 (Ne.symm hAB))

end Run

/-- Without constraints: the local condition from the Delaunay condition. -/
theorem Good.locD_start {fuel : Nat} {bins : Nat → Nat} {vs : List (Vtx K)} (h : Good fuel bins vs) (h3 : 3 ≤ vs.length) {s : DT}
    (hs : wrapAndTriangulate fuel (bins vs.length) (normalizeVerts vs) (some ((List.range vs.length).map toId)) = .ok s)
    {out0 : List Out} (h0 : triangulation2d fuel bins vs = .ok out0) (hD : Spec.Delaunay vs out0) :
    Spec.LocallyDelaunay vs [] (s.ts.map Tri.verts) := by
  have hl : (normalizeVerts vs).length = vs.length := by rw [normalizeVerts_eq]; simp
  have hni := h.ids_inf
  have e0 : out0 = filterSeq s.ts := by
    obtain ⟨s', hs', e, -⟩ := erase_ok (m' := none) hs
    unfold triangulation2d at h0
    rw [if_neg (by omega)] at h0
    simp only [hs', Res.ok_bind, e, Res.ok.injEq] at h0
    exact h0.symm
  have hle : ∀ {a : Nat} {A : Vtx K}, vs[a]? = some A → a < INF0 := fun ha => by have := lt_of_getElem? ha; omega
  intro t ht u hu a b c d htc huc A B C D gA gB gC gD _
  rw [List.mem_map] at ht
  obtain ⟨T, hTm, rfl⟩ := ht
  obtain ⟨o, ho, hoc⟩ := (triIn_of_corners hTm htc).mem_filterSeq (hle gA) (hle gB) (hle gC)
  obtain ⟨A', B', C', g1, g2, g3, -, hc⟩ := hD o (e0 ▸ ho)
  have := hc D (List.mem_of_getElem? gD)
  rintro ⟨m, ⟨e1, e2⟩, e3⟩
  rcases hoc with rfl | rfl | rfl
  · rw [gA] at g1; rw [gB] at g2; rw [gC] at g3; cases g1; cases g2; cases g3
    exact this ⟨m, ⟨e1, e2⟩, e3⟩
  · rw [gB] at g1; rw [gC] at g2; rw [gA] at g3; cases g1; cases g2; cases g3
    exact this ⟨m, ⟨by rw [← e1, e2], e1.symm⟩, by rw [← e1]; exact e3⟩
  · rw [gC] at g1; rw [gA] at g2; rw [gB] at g3; cases g1; cases g2; cases g3
    exact this ⟨m, ⟨e2.symm, by rw [← e2, e1]⟩, by rw [← e2]; exact e3⟩

theorem Spec.NonCrossing.sub {vs : List (Vtx K)} {es es' : List Edge} (h : Spec.NonCrossing vs es) (hs : ∀ e ∈ es', e ∈ es) :
    Spec.NonCrossing vs es' := fun e he e' he' => h e (hs e he) e' (hs e' he')

/-- **C82**, edges that survive: if after the constraints `es` the mesh satisfies the local Delaunay condition, then after the further
constraints `es2` every edge that was there before satisfies it. -/
theorem C82_keep (fuel : Nat) (bins : Nat → Nat) (vs : List (Vtx K)) (h : Good fuel bins vs) (hfuel : fuelFor vs.length ≤ fuel)
    (H : List (Vtx K × Vtx K)) (out0 : List Out) (h0 : triangulation2d fuel bins vs = .ok out0) (hC : Spec.CoversHull H vs out0)
    (es es2 : List Edge) (hx : Spec.NonCrossing vs (es ++ es2)) (r r' : AC) (hr : constrainedMesh fuel bins vs es = .ok r)
    (hr' : constrainedMesh fuel bins vs (es ++ es2) = .ok r') (hD : Spec.LocallyDelaunay vs es (r.ts.map Tri.verts)) :
    ∀ t ∈ r'.ts, ∀ u ∈ r'.ts, ∀ a b c d, Spec.CornersOf t.verts a b c → Spec.CornersOf u.verts b a d → ∀ A B C D,
      vs[a]? = some A → vs[b]? = some B → vs[c]? = some C → vs[d]? = some D → ¬ Spec.Constrains vs es A B →
      Spec.MeshEdge r.ts a b → ¬ InCircle A B C D := by
  have hl : (normalizeVerts vs).length = vs.length := by rw [normalizeVerts_eq]; simp
  have hni := h.ids_inf
  obtain ⟨h3, s, done, ins, hs, hI, hE, hfar⟩ := h.covering h0 hC
  obtain ⟨v2t, hv, hA, hT, hmi, hml, hlen, hpos⟩ := h.start hs
  rw [Good.cmesh_eq hs hv] at hr hr'
  have tw := h.twin hfuel hs hv hfar hx hr hr'
  have hD' := (h.locD_iff hfuel hs hv hfar hr).2 hD
  obtain ⟨hB', -⟩ := h.cstage hfuel hs hv hfar hr'
  obtain ⟨-, smem⟩ := applyLoop_S_mem hr (by simp)
  intro t ht u hu a b c d htc huc A B C D gA gB gC gD hno hab
  have hle : ∀ {a : Nat} {A : Vtx K}, vs[a]? = some A → a < INF0 := fun ha => by have := lt_of_getElem? ha; omega
  have nget : ∀ {x : Nat} {X : Vtx K}, vs[x]? = some X → (normalizeVerts vs)[x]? = some (toNorm vs X) := by
    intro x X gX
    rw [normalizeVerts_eq, List.getElem?_map, gX]; rfl
  have notS : ∀ {x y : Nat} {X Y : Vtx K}, vs[x]? = some X → vs[y]? = some Y → (⟨x, y⟩ : Edge) ∈ r.S → Spec.Constrains vs es X Y := by
    intro x y X Y gX gY hm
    rcases smem _ hm with h0 | ⟨e, he, g1, g2⟩
    · simp at h0
    exact ⟨e, he, .inl ⟨(hpos _ _ g1).symm.trans gX, (hpos _ _ g2).symm.trans gY⟩⟩
  have h1 := triIn_of_corners ht htc
  have := tw.keep hD' h1 (triIn_of_corners hu huc) (hle gA) (hle gB) (hle gC) (hle gD) (fun hm => hno (notS gA gB hm)) (fun hm => by
    obtain ⟨e, he, k⟩ := notS gB gA hm
    exact hno ⟨e, he, k.symm⟩) (meshEdge_iff.1 hab)
  rw [← inCircle_norm_iff h.scale, inCircle_ic ((o_pos_cw hni (nget gA) (nget gB) (nget gC)).1 (h1.pos hB'.m.valid)), not_lt,
    ← hp_norm_eq hni gA, ← hp_norm_eq hni gB, ← hp_norm_eq hni gC, ← hp_norm_eq hni gD]
  exact this

/-- Every constraint crosses at most two edges of the mesh that is built from the constraints before it. -/
def Spec.EachCrossesTwo (mesh : List Edge → Res AC) (vs : List (Vtx K)) (es : List Edge) : Prop :=
  ∀ k e r, es[k]? = some e → mesh (es.take k) = .ok r → Spec.CrossesTwo vs e r.ts

theorem applyLoop_prefix {F : Type} [FloatOps F] {vs : List (Vtx F)} {fuel : Nat} {merge : List Nat} {l1 l2 : List Edge} {s r : AC}
    (h : applyLoop vs fuel merge (l1 ++ l2) s = .ok r) : ∃ r1, applyLoop vs fuel merge l1 s = .ok r1 ∧ applyLoop vs fuel merge l2 r1 = .ok r := by
  rw [applyLoop_append] at h
  exact Res.bind_eq_ok.1 h

/-- **C82**, the mesh: if every constraint crosses at most two edges, the local Delaunay condition holds after all constraints. -/
theorem C82_mesh (fuel : Nat) (bins : Nat → Nat) (vs : List (Vtx K)) (h : Good fuel bins vs) (hfuel : fuelFor vs.length ≤ fuel)
    (H : List (Vtx K × Vtx K)) (out0 : List Out) (h0 : triangulation2d fuel bins vs = .ok out0) (hC : Spec.CoversHull H vs out0)
    (hD : Spec.Delaunay vs out0) (es : List Edge) (hx : Spec.NonCrossing vs es) (h2 : Spec.EachCrossesTwo (constrainedMesh fuel bins vs) vs es)
    (r : AC) (hr : constrainedMesh fuel bins vs es = .ok r) : Spec.LocallyDelaunay vs es (r.ts.map Tri.verts) := by
  obtain ⟨h3, s, done, ins, hs, hI, hE, hfar⟩ := h.covering h0 hC
  obtain ⟨v2t, hv, hA, hT, hmi, hml, hlen, hpos⟩ := h.start hs
  rw [Good.cmesh_eq hs hv] at hr
  have all : ∀ k, k ≤ es.length → ∃ r, applyLoop (normalizeVerts vs) fuel (s.merge.getD []) (es.take k) ⟨s.ts, v2t, []⟩ = .ok r ∧
      LocD (normalizeVerts vs) r.S r.ts := by
    intro k
    induction k with
    | zero =>
      intro _
      refine ⟨⟨s.ts, v2t, []⟩, by simp [applyLoop], ?_⟩
      exact (h.locD_iff (es := []) hfuel hs hv hfar (by simp [applyLoop])).2 (h.locD_start h3 hs h0 hD)
    | succ k ih =>
      intro hk
      obtain ⟨r1, h1, hloc⟩ := ih (by omega)
      obtain ⟨e, he⟩ : ∃ e, es[k]? = some e := ⟨_, List.getElem?_eq_getElem (by omega)⟩
      have ht : es.take (k + 1) = es.take k ++ [e] := by rw [List.take_add_one, he]; rfl
      obtain ⟨r2, hr2, -⟩ := applyLoop_prefix (l1 := es.take (k + 1)) (l2 := es.drop (k + 1)) (by rw [List.take_append_drop]; exact hr)
      refine ⟨r2, hr2, ?_⟩
      rw [ht] at hr2
      refine h.stage_two hfuel hs hv hfar (hx.sub fun e' he' => List.mem_of_mem_take (ht ▸ he')) h1 hr2 hloc ?_
      exact h2 k e r1 he (by rw [Good.cmesh_eq hs hv]; exact h1)
  obtain ⟨r1, h1, hloc⟩ := all es.length le_rfl
  rw [List.take_length, hr] at h1
  simp at h1; subst h1
  exact (h.locD_iff hfuel hs hv hfar hr).1 hloc

/-- **C82**. If the unconstrained result covers the convex hull and is Delaunay, and every constraint crosses at most two edges of the
mesh built from the constraints before it, then the constrained run succeeds and its result is constrained Delaunay. -/
theorem C82_two (fuel : Nat) (bins : Nat → Nat) (vs : List (Vtx K)) (h : Good fuel bins vs) (hfuel : fuelFor vs.length ≤ fuel)
    (H : List (Vtx K × Vtx K)) (out0 : List Out) (h0 : triangulation2d fuel bins vs = .ok out0) (hC : Spec.CoversHull H vs out0)
    (hD : Spec.Delaunay vs out0) (es : List Edge) (hc : Spec.ClearOfVertices vs es) (hx : Spec.NonCrossing vs es)
    (h2 : Spec.EachCrossesTwo (constrainedMesh fuel bins vs) vs es) :
    ∃ out, constrained2d fuel bins vs es = .ok out ∧ Spec.LocallyDelaunay vs es out ∧ Spec.ConstrainedDelaunay vs es out := by
  obtain ⟨⟨out, ho⟩, r, hr, -⟩ := C73_covering fuel bins vs h hfuel H out0 h0 hC es hc hx
  obtain ⟨h3, -⟩ := h.covering h0 hC
  have hm := C82_mesh fuel bins vs h hfuel H out0 h0 hC hD es hx h2 r hr
  obtain ⟨r', ids, s, v2t, hr', -, -, -, -, -, -, -, -, htri⟩ := h.output_run h3 ho
  rw [hr] at hr'; simp at hr'; subst hr'
  have sub : ∀ t ∈ out, t ∈ r.ts.map Tri.verts := by
    intro t ht
    obtain ⟨i, T, hTi, rfl, -⟩ := htri t ht
    exact List.mem_map.2 ⟨T, List.mem_of_getElem? hTi, rfl⟩
  have hloc : Spec.LocallyDelaunay vs es out := fun t ht u hu => hm t (sub t ht) u (sub u hu)
  exact ⟨out, ho, hloc, C68_global fuel bins vs h es out ho hloc⟩

/-- **C82**, the only cause: if the mesh after all constraints violates the local Delaunay condition, then there is a first constraint
after which it is violated; this constraint crosses at least three edges of the mesh before it, and the edges with a violation are edges
that its insertion created. -/
theorem C82_cause (fuel : Nat) (bins : Nat → Nat) (vs : List (Vtx K)) (h : Good fuel bins vs) (hfuel : fuelFor vs.length ≤ fuel)
    (H : List (Vtx K × Vtx K)) (out0 : List Out) (h0 : triangulation2d fuel bins vs = .ok out0) (hC : Spec.CoversHull H vs out0)
    (hD : Spec.Delaunay vs out0) (es : List Edge) (hx : Spec.NonCrossing vs es)
    (r : AC) (hr : constrainedMesh fuel bins vs es = .ok r) (hbad : ¬ Spec.LocallyDelaunay vs es (r.ts.map Tri.verts)) :
    ∃ k e r1 r2, es[k]? = some e ∧ constrainedMesh fuel bins vs (es.take k) = .ok r1 ∧ constrainedMesh fuel bins vs (es.take (k + 1)) = .ok r2 ∧
      Spec.LocallyDelaunay vs (es.take k) (r1.ts.map Tri.verts) ∧ ¬ Spec.LocallyDelaunay vs (es.take (k + 1)) (r2.ts.map Tri.verts) ∧
      ¬ Spec.CrossesTwo vs e r1.ts ∧
      ∀ t ∈ r2.ts, ∀ u ∈ r2.ts, ∀ a b c d, Spec.CornersOf t.verts a b c → Spec.CornersOf u.verts b a d → ∀ A B C D,
        vs[a]? = some A → vs[b]? = some B → vs[c]? = some C → vs[d]? = some D → ¬ Spec.Constrains vs (es.take (k + 1)) A B →
        InCircle A B C D → ¬ Spec.MeshEdge r1.ts a b := by
  obtain ⟨h3, s, done, ins, hs, hI, hE, hfar⟩ := h.covering h0 hC
  obtain ⟨v2t, hv, hA, hT, hmi, hml, hlen, hpos⟩ := h.start hs
  have pre : ∀ k, ∃ r, constrainedMesh fuel bins vs (es.take k) = .ok r := by
    intro k
    have hr' := hr
    rw [Good.cmesh_eq hs hv, ← List.take_append_drop k es] at hr'
    obtain ⟨r1, h1, -⟩ := applyLoop_prefix hr'
    exact ⟨r1, by rw [Good.cmesh_eq hs hv]; exact h1⟩
  let P : Nat → Prop := fun k => ∃ r, constrainedMesh fuel bins vs (es.take k) = .ok r ∧
    ¬ Spec.LocallyDelaunay vs (es.take k) (r.ts.map Tri.verts)
  have hP : ∃ k, P k := ⟨es.length, r, by rw [List.take_length]; exact hr, by rw [List.take_length]; exact hbad⟩
  classical
  obtain ⟨r2, hr2, hb2⟩ := Nat.find_spec hP
  have hmin := fun m (hm : m < Nat.find hP) => Nat.find_min hP hm
  generalize Nat.find hP = k at hr2 hb2 hmin
  rcases k with _ | k
  · exfalso
    rw [List.take_zero] at hr2 hb2
    rw [Good.cmesh_eq hs hv] at hr2
    simp only [applyLoop, Res.ok.injEq] at hr2
    subst hr2
    exact hb2 (h.locD_start h3 hs h0 hD)
  obtain ⟨r1, hr1⟩ := pre k
  have hl1 : Spec.LocallyDelaunay vs (es.take k) (r1.ts.map Tri.verts) := by
    by_contra hn; exact hmin k (by omega) ⟨r1, hr1, hn⟩
  have hk : k < es.length := by
    by_contra hk
    rw [List.take_of_length_le (by omega)] at hr1 hr2 hl1 hb2
    rw [hr1] at hr2; simp at hr2; subst hr2; exact hb2 hl1
  obtain ⟨e, he⟩ : ∃ e, es[k]? = some e := ⟨_, List.getElem?_eq_getElem hk⟩
  have ht : es.take (k + 1) = es.take k ++ [e] := by rw [List.take_add_one, he]; rfl
  refine ⟨k, e, r1, r2, he, hr1, hr2, hl1, hb2, ?_, ?_⟩
  · intro hcr
    rw [ht] at hr2 hb2
    rw [Good.cmesh_eq hs hv] at hr1 hr2
    refine hb2 ((h.locD_iff hfuel hs hv hfar hr2).1 (h.stage_two hfuel hs hv hfar (hx.sub fun e' he' => List.mem_of_mem_take (ht ▸ he')) hr1 hr2
      ((h.locD_iff hfuel hs hv hfar hr1).2 hl1) hcr))
  · intro t ht' u hu a b c d htc huc A B C D gA gB gC gD hno hin hab
    rw [ht] at hr2
    refine C82_keep fuel bins vs h hfuel H out0 h0 hC (es.take k) [e] (hx.sub fun e' he' => List.mem_of_mem_take (ht ▸ he')) r1 r2 hr1 hr2 hl1 t ht' u hu
      a b c d htc huc A B C D gA gB gC gD (fun ⟨e', he', k'⟩ => hno ⟨e', ?_, k'⟩) hab hin
    rw [ht]; exact List.mem_append_left _ he'

/-- **C82** with **C69**: two runs on the same points and the same border constraints, in any order and with any bins, whose constraints
cross at most two edges each: both succeed, and they return the same triangles unless a vertex that can be seen from a triangle is on its
circumcircle. -/
theorem C82_order (fuel fuel' : Nat) (bins bins' : Nat → Nat) (vs vs' : List (Vtx K)) (h : Good fuel bins vs) (h' : Good fuel' bins' vs')
    (hf : fuelFor vs.length ≤ fuel) (hf' : fuelFor vs'.length ≤ fuel') (H H' : List (Vtx K × Vtx K)) (out0 out0' : List Out)
    (h0 : triangulation2d fuel bins vs = .ok out0) (h0' : triangulation2d fuel' bins' vs' = .ok out0')
    (hC : Spec.CoversHull H vs out0) (hC' : Spec.CoversHull H' vs' out0') (hD : Spec.Delaunay vs out0) (hD' : Spec.Delaunay vs' out0')
    (es es' : List Edge) (hc : Spec.ClearOfVertices vs es) (hc' : Spec.ClearOfVertices vs' es')
    (hx : Spec.NonCrossing vs es) (hx' : Spec.NonCrossing vs' es') (hb : Spec.Border vs es) (hb' : Spec.Border vs' es')
    (hs : ∀ q, q ∈ vs ↔ q ∈ vs') (he : ∀ s, s ∈ Spec.segments vs es ↔ s ∈ Spec.segments vs' es')
    (h2 : Spec.EachCrossesTwo (constrainedMesh fuel bins vs) vs es) (h2' : Spec.EachCrossesTwo (constrainedMesh fuel' bins' vs') vs' es') :
    ∃ out out', constrained2d fuel bins vs es = .ok out ∧ constrained2d fuel' bins' vs' es' = .ok out' ∧
      (Spec.NoneOnCircle vs es out → ∀ A B C, Spec.Occurs vs out A B C ↔ Spec.Occurs vs' out' A B C) := by
  obtain ⟨out, ho, hl, -⟩ := C82_two fuel bins vs h hf H out0 h0 hC hD es hc hx h2
  obtain ⟨out', ho', hl', -⟩ := C82_two fuel' bins' vs' h' hf' H' out0' h0' hC' hD' es' hc' hx' h2'
  exact ⟨out, out', ho, ho', fun hg => C69_unique fuel fuel' bins bins' vs vs' h h' hf hf' es es' hx hx' hb hb' hs he out out' ho ho' hl hl' hg⟩

/-! ## Rounded arithmetic -/

/-- **C82** in rounded arithmetic (`f32`, `f64`) on robust inputs and on grids; `V` are the exact positions. -/
theorem C82_two_rounded {F : Type} [FloatOps F] [Rounded F] (fuel : Nat) (bins : Nat → Nat) (vs : List (Vtx F))
    (V : List (Vtx ℚ)) (W : ℚ) (h : Rounded.RGoodC fuel bins vs V W) (H : List (Vtx ℚ × Vtx ℚ)) (out0 : List Out)
    (h0 : triangulation2d fuel bins vs = .ok out0) (hC : Spec.CoversHull H V out0) (hD : Spec.Delaunay V out0)
    (es : List Edge) (hc : Spec.ClearOfVertices V es) (hx : Spec.NonCrossing V es)
    (h2 : Spec.EachCrossesTwo (constrainedMesh fuel bins vs) V es) :
    ∃ out, constrained2d fuel bins vs es = .ok out ∧ Spec.LocallyDelaunay V es out ∧ Spec.ConstrainedDelaunay V es out := by
  let P := Rounded.params F (bins vs.length) W (Rounded.scaleVal vs)
  rw [h.toRGood.run] at h0
  rw [h.run]
  refine C82_two fuel bins V h.good (by rw [h.len]; exact h.fuelC) H out0 h0 hC hD es hc hx fun k e r he hr => h2 k e r he ?_
  rw [h.mesh]; exact hr

/-- **C82**, edges that survive, in rounded arithmetic. -/
theorem C82_keep_rounded {F : Type} [FloatOps F] [Rounded F] (fuel : Nat) (bins : Nat → Nat) (vs : List (Vtx F))
    (V : List (Vtx ℚ)) (W : ℚ) (h : Rounded.RGoodC fuel bins vs V W) (H : List (Vtx ℚ × Vtx ℚ)) (out0 : List Out)
    (h0 : triangulation2d fuel bins vs = .ok out0) (hC : Spec.CoversHull H V out0)
    (es es2 : List Edge) (hx : Spec.NonCrossing V (es ++ es2)) (r r' : AC) (hr : constrainedMesh fuel bins vs es = .ok r)
    (hr' : constrainedMesh fuel bins vs (es ++ es2) = .ok r') (hD : Spec.LocallyDelaunay V es (r.ts.map Tri.verts)) :
    ∀ t ∈ r'.ts, ∀ u ∈ r'.ts, ∀ a b c d, Spec.CornersOf t.verts a b c → Spec.CornersOf u.verts b a d → ∀ A B C D,
      V[a]? = some A → V[b]? = some B → V[c]? = some C → V[d]? = some D → ¬ Spec.Constrains V es A B →
      Spec.MeshEdge r.ts a b → ¬ InCircle A B C D := by
  let P := Rounded.params F (bins vs.length) W (Rounded.scaleVal vs)
  rw [h.toRGood.run] at h0
  rw [h.mesh] at hr hr'
  exact C82_keep fuel bins V h.good (by rw [h.len]; exact h.fuelC) H out0 h0 hC es es2 hx r r' hr hr' hD

/-- **C82**, the only cause, in rounded arithmetic. -/
theorem C82_cause_rounded {F : Type} [FloatOps F] [Rounded F] (fuel : Nat) (bins : Nat → Nat) (vs : List (Vtx F))
    (V : List (Vtx ℚ)) (W : ℚ) (h : Rounded.RGoodC fuel bins vs V W) (H : List (Vtx ℚ × Vtx ℚ)) (out0 : List Out)
    (h0 : triangulation2d fuel bins vs = .ok out0) (hC : Spec.CoversHull H V out0) (hD : Spec.Delaunay V out0)
    (es : List Edge) (hx : Spec.NonCrossing V es) (r : AC) (hr : constrainedMesh fuel bins vs es = .ok r)
    (hbad : ¬ Spec.LocallyDelaunay V es (r.ts.map Tri.verts)) :
    ∃ k e r1 r2, es[k]? = some e ∧ constrainedMesh fuel bins vs (es.take k) = .ok r1 ∧ constrainedMesh fuel bins vs (es.take (k + 1)) = .ok r2 ∧
      Spec.LocallyDelaunay V (es.take k) (r1.ts.map Tri.verts) ∧ ¬ Spec.LocallyDelaunay V (es.take (k + 1)) (r2.ts.map Tri.verts) ∧
      ¬ Spec.CrossesTwo V e r1.ts ∧
      ∀ t ∈ r2.ts, ∀ u ∈ r2.ts, ∀ a b c d, Spec.CornersOf t.verts a b c → Spec.CornersOf u.verts b a d → ∀ A B C D,
        V[a]? = some A → V[b]? = some B → V[c]? = some C → V[d]? = some D → ¬ Spec.Constrains V (es.take (k + 1)) A B →
        InCircle A B C D → ¬ Spec.MeshEdge r1.ts a b := by
  let P := Rounded.params F (bins vs.length) W (Rounded.scaleVal vs)
  rw [h.toRGood.run] at h0
  rw [h.mesh] at hr
  simp only [h.mesh]
  exact C82_cause fuel bins V h.good (by rw [h.len]; exact h.fuelC) H out0 h0 hC hD es hx r hr hbad

/-- **C82** with **C69** in rounded arithmetic; the runs may use different float types. -/
theorem C82_order_rounded {F F' : Type} [FloatOps F] [Rounded F] [FloatOps F'] [Rounded F'] (fuel fuel' : Nat) (bins bins' : Nat → Nat)
    (vs : List (Vtx F)) (vs' : List (Vtx F')) (V V' : List (Vtx ℚ)) (W W' : ℚ) (h : Rounded.RGoodC fuel bins vs V W)
    (h' : Rounded.RGoodC fuel' bins' vs' V' W') (H H' : List (Vtx ℚ × Vtx ℚ)) (out0 out0' : List Out)
    (h0 : triangulation2d fuel bins vs = .ok out0) (h0' : triangulation2d fuel' bins' vs' = .ok out0')
    (hC : Spec.CoversHull H V out0) (hC' : Spec.CoversHull H' V' out0') (hD : Spec.Delaunay V out0) (hD' : Spec.Delaunay V' out0')
    (es es' : List Edge) (hc : Spec.ClearOfVertices V es) (hc' : Spec.ClearOfVertices V' es')
    (hx : Spec.NonCrossing V es) (hx' : Spec.NonCrossing V' es') (hb : Spec.Border V es) (hb' : Spec.Border V' es')
    (hs : ∀ q, q ∈ V ↔ q ∈ V') (he : ∀ s, s ∈ Spec.segments V es ↔ s ∈ Spec.segments V' es')
    (h2 : Spec.EachCrossesTwo (constrainedMesh fuel bins vs) V es) (h2' : Spec.EachCrossesTwo (constrainedMesh fuel' bins' vs') V' es') :
    ∃ out out', constrained2d fuel bins vs es = .ok out ∧ constrained2d fuel' bins' vs' es' = .ok out' ∧
      (Spec.NoneOnCircle V es out → ∀ A B C, Spec.Occurs V out A B C ↔ Spec.Occurs V' out' A B C) := by
  obtain ⟨out, ho, hl, -⟩ := C82_two_rounded fuel bins vs V W h H out0 h0 hC hD es hc hx h2
  obtain ⟨out', ho', hl', -⟩ := C82_two_rounded fuel' bins' vs' V' W' h' H' out0' h0' hC' hD' es' hc' hx' h2'
  exact ⟨out, out', ho, ho', fun hg => C69_rounded fuel fuel' bins bins' vs vs' V V' W W' h h' es es' hx hx' hb hb' hs he out out' ho ho' hl hl' hg⟩

/-! ## An example -/

/-- The edges of the mesh that the constraint crosses, each once. -/
def crossedEdges (vs : List (Vtx K)) (e : Edge) (ts : List Tri) : List (Nat × Nat) :=
  ((ts.flatMap Spec.edges).map fun x => (min x.1 x.2.1, max x.1 x.2.1)).dedup.filter fun x =>
    match vs[e.src]?, vs[e.dst]?, vs[x.1]?, vs[x.2]? with
    | some A, some B, some X, some Y => decide (area2 A B X * area2 A B Y < 0 ∧ area2 X Y A * area2 X Y B < 0)
    | _, _, _, _ => false

def eachTwoCheck (mesh : List Edge → Res AC) (vs : List (Vtx K)) (es : List Edge) : Bool :=
  (List.range es.length).all fun k => match es[k]?, mesh (es.take k) with
    | some e, .ok r => decide ((crossedEdges vs e r.ts).length ≤ 2)
    | _, _ => false

theorem crossesTwo_of_check {vs : List (Vtx K)} {e : Edge} {ts : List Tri} (h : (crossedEdges vs e ts).length ≤ 2) :
    Spec.CrossesTwo vs e ts := by
  have key : ∃ p q : Nat × Nat, ∀ x ∈ crossedEdges vs e ts, x = p ∨ x = q := by
    match hl : crossedEdges vs e ts, h with
    | [], _ => exact ⟨(0, 0), (0, 0), by simp⟩
    | [p], _ => exact ⟨p, p, by simp⟩
    | [p, q], _ => exact ⟨p, q, by simp⟩
    | p :: q :: w :: l, h => simp at h
  obtain ⟨⟨x1, y1⟩, ⟨x2, y2⟩, hk⟩ := key
  refine ⟨x1, y1, x2, y2, fun x y A B X Y hxy gA gB gX gY hc => ?_⟩
  obtain ⟨T, hT, j, hj⟩ := hxy
  have hm : ∀ z ∈ [(x, y), (y, x)], z = (min x y, max x y) → (min x y, max x y) ∈ crossedEdges vs e ts := by
    intro z hz hzz
    unfold crossedEdges
    rw [List.mem_filter]
    refine ⟨List.mem_dedup.2 (List.mem_map.2 ⟨(x, y, j), List.mem_flatMap.2 ⟨T, hT, hj⟩, rfl⟩), ?_⟩
    rw [← hzz]
    simp only [List.mem_cons, List.not_mem_nil, or_false] at hz
    rcases hz with rfl | rfl
    · simp only [gA, gB, gX, gY, decide_eq_true_eq]; exact hc
    · simp only [gA, gB, gX, gY, decide_eq_true_eq]
      refine ⟨by have := hc.1; linarith, ?_⟩
      have := hc.2
      rw [area2_swap Y X A, area2_swap Y X B] at this
      linarith
  rcases le_total x y with hle | hle
  · have := hk _ (hm (x, y) (by simp) (by rw [min_eq_left hle, max_eq_right hle]))
    rw [min_eq_left hle, max_eq_right hle] at this
    simp only [Prod.mk.injEq] at this
    tauto
  · have := hk _ (hm (y, x) (by simp) (by rw [min_eq_right hle, max_eq_left hle]))
    rw [min_eq_right hle, max_eq_left hle] at this
    simp only [Prod.mk.injEq] at this
    tauto

theorem eachTwo_of_check {mesh : List Edge → Res AC} {vs : List (Vtx K)} {es : List Edge} (h : eachTwoCheck mesh vs es = true) :
    Spec.EachCrossesTwo mesh vs es := by
  intro k e r he hr
  have := List.all_eq_true.1 h k (List.mem_range.2 (lt_of_getElem? he))
  simp only [he, hr, decide_eq_true_eq] at this
  exact crossesTwo_of_check this

end CDT

namespace CDT
section Example
open Plane Rounded
local instance stagesCfg : IdCfg := u32Cfg

/-- Five points in a triangle. -/
def stagesGrid : List (Int × Int) := [(3,2),(5,3),(8,2),(4,4),(6,1),(0,0),(16,1),(3,9)]

theorem stages_goodC : RGoodC (F := F64) 500 (fun _ => 1) (flPts binary64 stagesGrid) (intPts stagesGrid) (2 ^ 4) where
  toRGood := C44_grid stagesGrid 4 (by decide) (by decide) (by decide) ⟨by norm_num, by decide +kernel, by decide +kernel⟩
    (by decide) (by decide) (by decide) (by decide)
  ray := by unfold Plane.ClearRays Plane.area2 Plane.axes; decide +kernel
  fuelC := by decide

/-- The first constraint crosses two edges. -/
def stagesEdges : List Edge := [⟨4, 7⟩, ⟨6, 2⟩, ⟨0, 7⟩]

/-- The hypotheses of `C82_two_rounded` hold for this input, by C72; its conclusion. -/
example : ∃ out, constrained2d (F := F64) 500 (fun _ => 1) (flPts binary64 stagesGrid) stagesEdges = .ok out ∧
    Spec.ConstrainedDelaunay (intPts stagesGrid) stagesEdges out := by
  have hin : ∀ p ∈ intPts [(3,2),(5,3),(8,2),(4,4),(6,1)], InTriangle (⟨0, 0⟩ : Vtx ℚ) ⟨3, 9⟩ ⟨16, 1⟩ p := by
    intro p hp
    simp only [intPts, List.map_cons, List.map_nil, List.mem_cons, List.not_mem_nil, or_false] at hp
    rcases hp with rfl | rfl | rfl | rfl | rfl <;> norm_num [InTriangle, Clockwise, area2]
  obtain ⟨out0, h0, hD, hcov⟩ := (C72_triangle_rounded (.inl rfl) 500 (fun _ => 1) (flPts binary64 stagesGrid)
    (intPts [(3,2),(5,3),(8,2),(4,4),(6,1)]) ⟨0, 0⟩ ⟨16, 1⟩ ⟨3, 9⟩ _ stages_goodC.toRGood rfl rfl (by norm_num [Spec.Between])).2
    (by norm_num [Clockwise, area2]) hin
  have hC : Spec.CoversHull (triSides (⟨0, 0⟩ : Vtx ℚ) ⟨3, 9⟩ ⟨16, 1⟩) (intPts stagesGrid) out0 := by
    refine ⟨?_, ⟨⟨3, 2⟩, within_sides.2 (hin _ (by simp [intPts]))⟩, hcov⟩
    intro p hp e he
    simp only [stagesGrid, intPts, List.map_cons, List.map_nil, List.mem_cons, List.not_mem_nil, or_false] at hp
    simp only [triSides, List.mem_cons, List.not_mem_nil, or_false] at he
    rcases hp with rfl | rfl | rfl | rfl | rfl | rfl | rfl | rfl <;> rcases he with rfl | rfl | rfl <;> norm_num [area2]
  obtain ⟨out, ho, -, hcd⟩ := C82_two_rounded 500 (fun _ => 1) _ (intPts stagesGrid) _ stages_goodC _ out0 h0 hC hD stagesEdges
    (clear_of_check (by decide +kernel)) (nonCrossing_of_check (by decide +kernel)) (eachTwo_of_check (by decide +kernel))
  exact ⟨out, ho, hcd⟩

/-- The first constraint crosses two edges, so C59 and C73 do not apply. -/
example : (match constrainedMesh (F := F64) 500 (fun _ => 1) (flPts binary64 stagesGrid) [] with
    | .ok r => (crossedEdges (intPts stagesGrid) ⟨4, 7⟩ r.ts).length
    | _ => 0) = 2 := by decide +kernel

/-- **C82**, two is the largest number: in the witness of `C59_delaunay_refuted` the constraint crosses three edges, and the result is
not locally Delaunay. -/
theorem C82_sharp : (∃ out, constrained2d 506 (fun _ => 1) (flPts binary64 localGrid) [⟨0, 1⟩] = .ok out ∧
      ¬ Spec.LocallyDelaunay (intPts localGrid) [⟨0, 1⟩] out) ∧
    (match constrainedMesh (F := F64) 506 (fun _ => 1) (flPts binary64 localGrid) [] with
      | .ok r => (crossedEdges (intPts localGrid) ⟨0, 1⟩ r.ts).length
      | _ => 0) = 3 :=
  ⟨C59_delaunay_refuted.2.2.2.2, by decide +kernel⟩

end Example
end CDT

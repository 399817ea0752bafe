import Verif.Geo.CdtReg
import Verif.Geo.Run

/-! # The constraint phase on a valid mesh -/

set_option linter.unusedSectionVars false
set_option linter.unusedSimpArgs false
set_option linter.unusedVariables false

namespace CDT

variable {K : Type} [Field K] [LinearOrder K] [IsStrictOrderedRing K] [ExactParams K] [IdCfg]
variable {vs : List (Vtx K)} {ts : List Tri}
open Plane

theorem buildV2t_total {n : Nat} (hn : n ≤ INF0) (full : List Tri) (hl : full.length ≤ NONE) (hok : VertsIn (VOk n) full)
    (ts pre : List Tri) (hfull : full = pre ++ ts) (v2t : List Nat) (hv : v2t.length = n)
    (hpre : ∀ v, v < n → (∃ t ∈ pre, t.hasVert v = true) → ∃ k t, v2t[v]? = some k ∧ full[k]? = some t ∧ t.hasVert v = true) :
    ∃ v2t', buildV2t ts pre.length v2t = .ok v2t' ∧ V2tOk n full v2t' := by
  induction ts generalizing pre v2t with
  | nil =>
    refine ⟨v2t, rfl, hv, ?_⟩
    rintro v hvn ⟨i, t, ht, hh⟩
    rw [hfull, List.append_nil] at ht
    exact hpre v hvn ⟨t, List.mem_of_getElem? ht, hh⟩
  | cons t ts ih =>
    have hlt : pre.length < full.length := by rw [hfull]; simp
    have hid : toId pre.length = pre.length := by
      unfold toId; exact Nat.mod_eq_of_lt (by unfold NONE at hl; omega)
    have hget : full[pre.length]? = some t := by rw [hfull]; simp
    have hvt : VOk n t.v1 ∧ VOk n t.v2 ∧ VOk n t.v3 := ⟨hok.get hget 0, hok.get hget 1, hok.get hget 2⟩
    obtain ⟨w1, s1, l1, g1⟩ := setV2t_total (t := pre.length) hv hvt.1
    obtain ⟨w2, s2, l2, g2⟩ := setV2t_total (t := pre.length) l1 hvt.2.1
    obtain ⟨w3, s3, l3, g3⟩ := setV2t_total (t := pre.length) l2 hvt.2.2
    simp only [buildV2t, hid, s1, s2, s3, Res.ok_bind]
    have := ih (pre ++ [t]) (by rw [hfull]; simp) w3 l3 ?_
    · simpa using this
    · intro v hvn hex
      have hvf : v < INF0 := by omega
      rw [g3 v hvf, g2 v hvf, g1 v hvf]
      by_cases h3 : v = t.v3
      · rw [if_pos ⟨h3, hvn⟩]; exact ⟨_, t, rfl, hget, by rw [hasVert_iff]; simp [h3]⟩
      rw [if_neg (fun h => h3 h.1)]
      by_cases h2 : v = t.v2
      · rw [if_pos ⟨h2, hvn⟩]; exact ⟨_, t, rfl, hget, by rw [hasVert_iff]; simp [h2]⟩
      rw [if_neg (fun h => h2 h.1)]
      by_cases h1 : v = t.v1
      · rw [if_pos ⟨h1, hvn⟩]; exact ⟨_, t, rfl, hget, by rw [hasVert_iff]; simp [h1]⟩
      rw [if_neg (fun h => h1 h.1)]
      refine hpre v hvn ?_
      obtain ⟨t', ht', hh⟩ := hex
      rcases List.mem_append.1 ht' with h | h
      · exact ⟨t', h, hh⟩
      · simp at h; subst h
        rw [hasVert_iff] at hh
        rcases hh with h | h | h
        · exact absurd h.symm h1
        · exact absurd h.symm h2
        · exact absurd h.symm h3

theorem buildV2t_ok {n : Nat} (hn : n ≤ INF0) (hl : ts.length ≤ NONE) (hok : VertsIn (VOk n) ts) :
    ∃ v2t, buildV2t ts 0 (List.replicate n 0) = .ok v2t ∧ V2tOk n ts v2t :=
  buildV2t_total hn ts hl hok ts [] rfl _ (by simp) (by simp)

/-! ## Insertion of one edge -/

/-- The mesh has the edge `x y`. -/
def HasEdge (ts : List Tri) (x y : Nat) : Prop := ∃ i j, Ent ts i x y j

theorem HasEdge.symm {H : Nat → HP K} (hv : Valid H ts) {x y : Nat} (hx : x < INF0 ∨ y < INF0) (h : HasEdge ts x y) : HasEdge ts y x := by
  obtain ⟨i, j, h⟩ := h
  rcases hv.adj _ _ _ _ h with h' | h'
  · omega
  · exact ⟨j, i, h'.2⟩

/-- Entry of an edge with a real vertex. -/
theorem HasEdge.entry {H : Nat → HP K} (hv : Valid H ts) {x y : Nat} (hx : x < INF0 ∨ y < INF0) (h : HasEdge ts x y) :
    ∃ d : EdgeData, d.edge = ⟨x, y⟩ ∧ EOk ts d := by
  obtain ⟨i, j, h⟩ := h
  refine ⟨⟨i, j, ⟨x, y⟩⟩, rfl, h, ?_⟩
  rcases hv.adj _ _ _ _ h with h' | h'
  · omega
  · exact h'.1

/-- State of `apply_constraints` on a valid mesh. -/
structure AInv (vs : List (Vtx K)) (ts0 : List Tri) (s : AC) : Prop where
  m : MInv vs s.ts s.v2t
  steps : Relation.ReflTransGen (MStep (hp vs)) ts0 s.ts
  occ : VertsIn (Occ ts0) s.ts

/-- A successful insertion: the mesh is changed by convex flips only; edges with a real vertex that do not cross
the constraint stay. -/
theorem insertEdge_inv (hu : ∀ v ∈ vs, InUnit v) (hn : vs.length ≤ INF0) {ts0 : List Tri} {s s' : AC} (h : AInv vs ts0 s)
    {ce : Edge} (hocc : Occ s.ts ce.src) {fuel : Nat} (hs : insertEdge vs fuel ce s = .ok s') :
    AInv vs ts0 s' ∧ ∀ x y, (x < INF0 ∨ y < INF0) → HasEdge s.ts x y →
      ¬ HP.Cross (hp vs ce.src) (hp vs ce.dst) (hp vs x) (hp vs y) → HasEdge s'.ts x y := by
  obtain ⟨A, B, l, ha, hb, hl, ⟨_, rfl⟩ | ⟨_, rc, rs, hrc, hrs, rfl⟩⟩ := insertEdge_ok hs
  · exact ⟨h, fun x y _ he _ => he⟩
  rcases registerEdges_geo hu hn h.m ha hb hocc hl with ⟨rfl, _⟩ | ⟨d, rest, rfl, hF, hall, hdis, hlen, -, -⟩
  · exact absurd rfl ‹_›
  have base : ∀ (P : List EdgeData), (∀ e ∈ P, EOk s.ts e) → (∀ e ∈ P, ∀ q ∈ d :: rest, Dis q e) →
      CInv vs ts0 s.ts s.v2t (P.map (·.edge)) ((d :: rest) ++ []) := by
    intro P h1 h2
    refine ⟨h.m, h.steps, h.occ, P, rfl, h1, ?_, ?_, ?_⟩
    · intro e he; rw [List.append_nil] at he; exact (hall e he).1
    · rw [List.append_nil]; exact hdis
    · intro e he q hq; rw [List.append_nil] at hq; exact h2 e he q hq
  have fin : ∀ (P : List EdgeData), (∀ e ∈ P, EOk s.ts e) → (∀ e ∈ P, ∀ q ∈ d :: rest, Dis q e) →
      CInv vs ts0 rs.ts rs.v2t (P.map (·.edge)) [] := by
    intro P h1 h2
    have := (removeCrossed_inv (s := ⟨s.ts, s.v2t, d :: rest, [], 0⟩) hu hn ha hb (base P h1 h2) hrc).1
    exact restoreC_inv hn (s := ⟨rc.ts, rc.v2t, rc.diags, []⟩) this hrs
  have f0 := fin [] (by simp) (by simp)
  refine ⟨⟨f0.m, f0.steps, f0.occ⟩, ?_⟩
  intro x y hxy he hcr
  obtain ⟨e, hee, heok⟩ := he.entry h.m.valid hxy
  have := fin [e] (by simpa using heok) (by
    intro e' he' q hq
    simp at he'; subst he'
    rintro (⟨g1, g2⟩ | ⟨g1, g2⟩)
    · have x1 := (hall q hq).1.1
      have x2 := heok.1
      rw [g1, g2] at x1
      obtain ⟨y1, y2⟩ := h.m.valid.nb_unique x1 x2 heok.2
      have := (hall q hq).2.cross
      rw [y1, y2, hee] at this
      exact hcr this
    · have x1 := h.m.valid.ent_pos (hall q hq).1.1 (hall q hq).1.2
      have x2 := heok.1
      rw [g1, g2] at x1
      obtain ⟨y1, y2⟩ := h.m.valid.nb_unique x1 x2 heok.2
      have := (hall q hq).2.cross
      rw [y1, y2, hee] at this
      exact hcr this.flip)
  obtain ⟨i, j, hij⟩ := this.edge (e := ⟨x, y⟩) (by simp [hee])
  exact ⟨i, j, hij⟩

/-- The merge table sends every vertex to one in the mesh. -/
def MergeOcc (ts : List Tri) (merge : List Nat) : Prop := ∀ (v x : Nat), merge[v]? = some x → Occ ts x

theorem applyLoop_inv (hu : ∀ v ∈ vs, InUnit v) (hn : vs.length ≤ INF0) {ts0 : List Tri} {merge : List Nat}
    (hmo : MergeOcc ts0 merge) {fuel : Nat} {es : List Edge} {s s' : AC} (h : AInv vs ts0 s)
    (hs : applyLoop vs fuel merge es s = .ok s') :
    AInv vs ts0 s' ∧ ∀ x y, (x < INF0 ∨ y < INF0) → HasEdge s.ts x y →
      (∀ e ∈ es, ∀ a b, merge[e.src]? = some a → merge[e.dst]? = some b →
        ¬ HP.Cross (hp vs a) (hp vs b) (hp vs x) (hp vs y)) → HasEdge s'.ts x y := by
  induction es generalizing s with
  | nil => simp [applyLoop] at hs; subst hs; exact ⟨h, fun x y _ he _ => he⟩
  | cons e es ih =>
    simp only [applyLoop, Res.bind_eq_ok] at hs
    obtain ⟨s1, h1, hs⟩ := hs
    have step : AInv vs ts0 s1 ∧ ∀ x y, (x < INF0 ∨ y < INF0) → HasEdge s.ts x y →
      (∀ a b, merge[e.src]? = some a → merge[e.dst]? = some b →
        ¬ HP.Cross (hp vs a) (hp vs b) (hp vs x) (hp vs y)) → HasEdge s1.ts x y := by
      obtain ⟨a, b, ha, hb, ⟨_, rfl⟩ | ⟨_, _, rfl⟩ | ⟨_, _, hi⟩⟩ := applyOne_ok h1
      · exact ⟨h, fun x y _ he _ => he⟩
      · exact ⟨h, fun x y _ he _ => he⟩
      · obtain ⟨i1, i2⟩ := insertEdge_inv hu hn (s := { s with S := ⟨a, b⟩ :: s.S }) ⟨h.m, h.steps, h.occ⟩
          (steps_occ h.steps (hmo _ _ ha)) hi
        exact ⟨i1, fun x y hxy he hc => i2 x y hxy he (hc a b ha hb)⟩
    obtain ⟨i1, i2⟩ := ih step.1 hs
    refine ⟨i1, fun x y hxy he hc => i2 x y hxy (step.2 x y hxy he ?_) ?_⟩
    · exact hc e (by simp)
    · exact fun e' he' => hc e' (by simp [he'])

theorem DInv.mergeOcc {done ins : List Nat} {s : DT} (h : DInv vs done ins s) (hd : done.Perm (List.range vs.length))
    {m : List Nat} (hm : s.merge = some m) : MergeOcc s.ts m := by
  intro v x hx
  obtain ⟨hl, hk⟩ := h.kept m hm
  have hv : v < vs.length := by rw [← hl]; exact lt_of_getElem? hx
  by_cases hvi : v ∈ ins
  · have := hk v hv (.inr hvi)
    rw [this] at hx; simp at hx; subst hx
    exact h.occ _ hvi
  · obtain ⟨y, hy, _, _, _, _, _, hz⟩ := h.merged v (hd.mem_iff.2 (by simpa using hv)) hvi
    have := hz m hm
    rw [this] at hx; simp at hx; subst hx
    exact h.occ _ hy

end CDT

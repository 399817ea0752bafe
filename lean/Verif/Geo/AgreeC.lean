import Verif.Geo.Agree
import Verif.Geo.CdtRun

/-!
# Constrained runs in an arithmetic whose predicates agree with exact arithmetic
-/

set_option linter.unusedSectionVars false

namespace CDT
open FloatOps

variable {F : Type} [FloatOps F]
variable {K : Type} [Field K] [LinearOrder K] [ExactParams K]

/-- Corresponding edges: two vertices, or a vertex and an artificial vertex. -/
inductive EPair (vf : List (Vtx F)) (vk : List (Vtx K)) : EV F → EV K → Prop where
  | fin {a b : Vtx F} {a' b' : Vtx K} (ha : Pair vf vk a a') (hb : Pair vf vk b b') : EPair vf vk (a, b) (a', b')
  | semi {a : Vtx F} {a' : Vtx K} (ha : Pair vf vk a a') (k : Fin 4) : EPair vf vk (semiInf a k) (semiInf a' k)

/-- `Agree`, and the intersection test agrees too. -/
structure AgreeC (vf : List (Vtx F)) (vk : List (Vtx K)) : Prop extends Agree vf vk where
  isect : ∀ e e' d d', EPair vf vk e e' → EPair vf vk d d' → edgesIntersect e d = edgesIntersect e' d'

variable {vf : List (Vtx F)} {vk : List (Vtx K)} [IdCfg]

theorem AgreeC.edgeIsect (h : AgreeC vf vk) {cv : EV F} {cv' : EV K} (hc : EPair vf vk cv cv') (e : Edge) :
    CDT.edgeIsect vf e cv = CDT.edgeIsect vk e cv' := by
  unfold CDT.edgeIsect
  split
  · split
    · rfl
    · congr 1; funext k
      rcases h.get e.dst with ⟨h1, h2⟩ | ⟨a, a', h1, h2, _, ha⟩
      · simp only [h1, h2, Res.panic_bind]
      · simp only [h1, h2, Res.ok_bind, h.isect _ _ _ _ hc (.semi ha k)]
  · split
    · congr 1; funext k
      rcases h.get e.src with ⟨h1, h2⟩ | ⟨a, a', h1, h2, _, ha⟩
      · simp only [h1, h2, Res.panic_bind]
      · simp only [h1, h2, Res.ok_bind, h.isect _ _ _ _ hc (.semi ha k)]
    · rcases h.get e.src with ⟨h1, h2⟩ | ⟨a, a', h1, h2, _, ha⟩
      · simp only [h1, h2, Res.panic_bind]
      · rcases h.get e.dst with ⟨h3, h4⟩ | ⟨b, b', h3, h4, _, hb⟩
        · simp only [h1, h2, h3, h4, Res.panic_bind, Res.ok_bind]
        · simp only [h1, h2, h3, h4, Res.ok_bind, h.isect _ _ _ _ hc (.fin ha hb)]

theorem AgreeC.loopAround (h : AgreeC vf vk) {cv : EV F} {cv' : EV K} (hc : EPair vf vk cv cv') (ts : List Tri)
    (start : Nat) (ce : Edge) (next : Fin 3 → Fin 3) (n i tid : Nat) :
    CDT.loopAround vf ts start ce cv next n i tid = CDT.loopAround vk ts start ce cv' next n i tid := by
  induction n generalizing i tid with
  | zero => rfl
  | succ n ih => simp only [CDT.loopAround, h.edgeIsect hc, ih]

theorem AgreeC.searchFirst (h : AgreeC vf vk) {cv : EV F} {cv' : EV K} (hc : EPair vf vk cv cv') (ts : List Tri)
    (ce : Edge) (start : Nat) : CDT.searchFirst vf ts ce cv start = CDT.searchFirst vk ts ce cv' start := by
  simp only [CDT.searchFirst, h.loopAround hc]

theorem AgreeC.nextIsect (h : AgreeC vf vk) {cv : EV F} {cv' : EV K} (hc : EPair vf vk cv cv') (t : Tri) (tid : Nat)
    (fromE : Edge) : CDT.nextIsect vf cv t tid fromE = CDT.nextIsect vk cv' t tid fromE := by
  simp only [CDT.nextIsect, CDT.nextCandidate, h.edgeIsect hc]

theorem AgreeC.registerLoop (h : AgreeC vf vk) {cv : EV F} {cv' : EV K} (hc : EPair vf vk cv cv') (ts : List Tri)
    (ce : Edge) (n : Nat) (d : EdgeData) : CDT.registerLoop vf ts ce cv n d = CDT.registerLoop vk ts ce cv' n d := by
  induction n generalizing d with
  | zero => rfl
  | succ n ih => simp only [CDT.registerLoop, h.nextIsect hc, ih]

theorem AgreeC.registerEdges (h : AgreeC vf vk) {cv : EV F} {cv' : EV K} (hc : EPair vf vk cv cv') (ts : List Tri)
    (ce : Edge) (v2t : List Nat) : CDT.registerEdges vf ts ce cv v2t = CDT.registerEdges vk ts ce cv' v2t := by
  simp only [CDT.registerEdges, h.searchFirst hc, h.registerLoop hc]

theorem AgreeC.quadDiag (h : AgreeC vf vk) (q : Quad) : CDT.quadDiag vf q = CDT.quadDiag vk q := by
  unfold CDT.quadDiag
  congr 1; funext l
  match l with
  | [] =>
    rcases h.get q.q1 with ⟨e1, e2⟩ | ⟨a, a', e1, e2, _, ha⟩
    · simp only [e1, e2, Res.panic_bind]
    rcases h.get q.q2 with ⟨e3, e4⟩ | ⟨b, b', e3, e4, _, hb⟩
    · simp only [e1, e2, e3, e4, Res.ok_bind, Res.panic_bind]
    rcases h.get q.q3 with ⟨e5, e6⟩ | ⟨c, c', e5, e6, _, hc⟩
    · simp only [e1, e2, e3, e4, e5, e6, Res.ok_bind, Res.panic_bind]
    rcases h.get q.q4 with ⟨e7, e8⟩ | ⟨p, p', e7, e8, _, hp'⟩
    · simp only [e1, e2, e3, e4, e5, e6, e7, e8, Res.ok_bind, Res.panic_bind]
    simp only [e1, e2, e3, e4, e5, e6, e7, e8, Res.ok_bind, h.isect _ _ _ _ (.fin ha hb) (.fin hc hp')]
  | [i] =>
    simp only [CDT.quadDiag1]
    congr 1; funext k
    rcases h.get (q.v (oppQuadIdx i)) with ⟨e1, e2⟩ | ⟨f, f', e1, e2, _, hf⟩
    · simp only [e1, e2, Res.panic_bind]
    rcases h.get (q.v (adjQuadIdx i).1) with ⟨e3, e4⟩ | ⟨b, b', e3, e4, _, hb⟩
    · simp only [e1, e2, e3, e4, Res.ok_bind, Res.panic_bind]
    rcases h.get (q.v (adjQuadIdx i).2) with ⟨e5, e6⟩ | ⟨c, c', e5, e6, _, hc⟩
    · simp only [e1, e2, e3, e4, e5, e6, Res.ok_bind, Res.panic_bind]
    simp only [e1, e2, e3, e4, e5, e6, Res.ok_bind, h.isect _ _ _ _ (.fin hb hc) (.semi hf k)]
  | i :: j :: _ =>
    simp only [CDT.quadDiag2]
    congr 1; funext k
    rcases h.get (q.v (oppQuadIdx i)) with ⟨e1, e2⟩ | ⟨f, f', e1, e2, _, hf⟩
    · simp only [e1, e2, Res.panic_bind]
    simp only [e1, e2, Res.ok_bind]
    congr 1; funext l
    rcases h.get (q.v (oppQuadIdx j)) with ⟨e3, e4⟩ | ⟨b, b', e3, e4, _, hb⟩
    · simp only [e3, e4, Res.panic_bind]
    simp only [e3, e4, Res.ok_bind, h.isect _ _ _ _ (.semi hf k) (.semi hb l)]

theorem AgreeC.removeStep (h : AgreeC vf vk) {cv : EV F} {cv' : EV K} (hc : EPair vf vk cv cv') (d : EdgeData) (s : RC) :
    CDT.removeStep vf cv d s = CDT.removeStep vk cv' d s := by
  simp only [CDT.removeStep, h.quadDiag, h.edgeIsect hc]

theorem AgreeC.removeCrossed (h : AgreeC vf vk) {cv : EV F} {cv' : EV K} (hc : EPair vf vk cv cv') (fuel : Nat) (s : RC) :
    CDT.removeCrossed vf cv fuel s = CDT.removeCrossed vk cv' fuel s := by
  induction fuel generalizing s with
  | zero => cases hs : s.isects <;> simp only [CDT.removeCrossed, hs]
  | succ n ih => cases hs : s.isects <;> simp only [CDT.removeCrossed, hs, h.removeStep hc, ih]

variable [IsStrictOrderedRing K]

theorem AgreeC.restoreStepC (h : AgreeC vf vk) {ce : Edge} {d : EdgeData} {s : RS} (hv : Valid (hp vk) s.ts)
    (hd : EOk s.ts d) : CDT.restoreStepC vf ce d s = CDT.restoreStepC vk ce d s := by
  obtain ⟨p, c, n1, n2, n3, n4, hq⟩ := hd.quadAt hv
  unfold CDT.restoreStepC
  split
  · rfl
  · rw [hq.quad]
    simp only [Res.ok_bind]
    have : CDT.shouldSwapC vf ⟨d.edge.src, d.edge.dst, c, p⟩ = CDT.shouldSwapC vk ⟨d.edge.src, d.edge.dst, c, p⟩ := by
      unfold CDT.shouldSwapC
      split
      · rfl
      · rename_i hi
        simp only [Bool.or_eq_true, not_or, isInf_iff] at hi
        exact h.shouldSwap _ (by simp only; omega) hq.p1 hq.p2
    rw [this]

theorem AgreeC.restoreC (h : AgreeC vf vk) (hn : vk.length ≤ INF0) {ce : Edge} {ts0 : List Tri} {E : List Edge} (fuel : Nat)
    (s : RS) (hI : CInv vk ts0 s.ts s.v2t E s.diags) : CDT.restoreC vf ce fuel s = CDT.restoreC vk ce fuel s := by
  induction fuel generalizing s with
  | zero => cases hs : s.diags <;> simp only [CDT.restoreC, hs]
  | succ n ih =>
    cases hs : s.diags with
    | nil => simp only [CDT.restoreC, hs]
    | cons d rest =>
      obtain ⟨s', h1, h2⟩ := restoreStepC_inv (ce := ce) hn hI hs
      have hd : EOk s.ts d := hI.eok (by rw [hs]; simp)
      simp only [CDT.restoreC, hs]
      rw [h.restoreStepC (s := { s with diags := rest }) hI.m.valid hd, h1]
      simp only [Res.ok_bind]
      rcases h2 with h2 | h2
      · exact ih _ h2.2.mono
      · exact ih _ h2.2

theorem AgreeC.insertEdge (h : AgreeC vf vk) (hu : ∀ v ∈ vk, Plane.InUnit v) (hn : vk.length ≤ INF0) {ts0 : List Tri}
    {s : AC} (hI : AInv vk ts0 s) {ce : Edge} (hocc : Occ s.ts ce.src) (fuel : Nat) :
    CDT.insertEdge vf fuel ce s = CDT.insertEdge vk fuel ce s := by
  unfold CDT.insertEdge
  rcases h.get ce.src with ⟨e1, e2⟩ | ⟨a, a', e1, e2, ga, ha⟩
  · simp only [e1, e2, Res.panic_bind]
  rcases h.get ce.dst with ⟨e3, e4⟩ | ⟨b, b', e3, e4, gb, hb⟩
  · simp only [e1, e2, e3, e4, Res.ok_bind, Res.panic_bind]
  have hc : EPair vf vk (a, b) (a', b') := .fin ha hb
  simp only [e1, e2, e3, e4, Res.ok_bind, h.registerEdges hc]
  cases hl : CDT.registerEdges vk s.ts ce (a', b') s.v2t with
  | err e => rfl
  | panic => rfl
  | diverge => rfl
  | ok l =>
    simp only [Res.ok_bind]
    cases l with
    | nil => rfl
    | cons d rest =>
      simp only [h.removeCrossed hc]
      cases hr : CDT.removeCrossed vk (a', b') fuel ⟨s.ts, s.v2t, d :: rest, [], 0⟩ with
      | err e => rfl
      | panic => rfl
      | diverge => rfl
      | ok rc =>
        simp only [Res.ok_bind]
        rcases registerEdges_geo hu hn hI.m ga gb hocc hl with ⟨hh, _⟩ | ⟨d', rest', hh, hF, hall, hdis, hlen, -, -⟩
        · exact absurd hh (by simp)
        have base : CInv vk ts0 s.ts s.v2t [] ((d :: rest) ++ []) := by
          refine ⟨hI.m, hI.steps, hI.occ, [], rfl, by simp, ?_, ?_, by simp⟩
          · intro e he; rw [List.append_nil] at he; exact (hall e he).1
          · rw [List.append_nil]; exact hdis
        have := (removeCrossed_inv (s := ⟨s.ts, s.v2t, d :: rest, [], 0⟩) hu hn ga gb base hr).1
        rw [h.restoreC hn fuel ⟨rc.ts, rc.v2t, rc.diags, []⟩ this]

theorem AgreeC.applyLoop (h : AgreeC vf vk) (hu : ∀ v ∈ vk, Plane.InUnit v) (hn : vk.length ≤ INF0) {ts0 : List Tri}
    {merge : List Nat} (hmo : MergeOcc ts0 merge) (fuel : Nat) (es : List Edge) (s : AC) (hI : AInv vk ts0 s) :
    CDT.applyLoop vf fuel merge es s = CDT.applyLoop vk fuel merge es s := by
  induction es generalizing s with
  | nil => rfl
  | cons e es ih =>
    have e1 : CDT.applyOne vf fuel merge e s = CDT.applyOne vk fuel merge e s := by
      unfold CDT.applyOne
      cases ha : getI merge e.src with
      | err e => rfl
      | panic => rfl
      | diverge => rfl
      | ok a =>
        simp only [Res.ok_bind]
        congr 1; funext b
        rw [h.insertEdge hu hn (s := { s with S := ⟨a, b⟩ :: s.S }) ⟨hI.m, hI.steps, hI.occ⟩
          (steps_occ hI.steps (hmo _ _ (getI_eq_ok.1 ha)))]
    simp only [CDT.applyLoop, e1]
    cases h1 : CDT.applyOne vk fuel merge e s with
    | err e => rfl
    | panic => rfl
    | diverge => rfl
    | ok s1 =>
      simp only [Res.ok_bind]
      refine ih s1 (applyLoop_inv hu hn hmo (es := [e]) (s := s) (s' := s1) (fuel := fuel) hI ?_).1
      simp only [CDT.applyLoop, h1, Res.ok_bind]

end CDT

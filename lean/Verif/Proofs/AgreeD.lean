import Verif.Proofs.Shows
import Verif.Props.RoundedC

/-!
# Runs with the debug context in an arithmetic whose predicates agree with exact arithmetic

On the inputs of the theorems about rounded runs, the whole run with the debug context, with its outcome and all its snapshots, is
the exact one.
-/

set_option linter.unusedSectionVars false
set_option linter.unusedSimpArgs false
set_option linter.unusedVariables false

namespace CDT
open Plane

section
variable {α β : Type}

theorem D.bind_same {x x' : D α} {y : Res α} {f g : α → D β} (h : x = x') (hq : Quiet x' y) (hf : ∀ a, y = .ok a → f a = g a) :
    x >>= f = x' >>= g := by
  subst h
  funext c
  obtain ⟨q1, -, -⟩ := hq c
  rw [D.bind_def, D.bind_def]
  rcases hx : x c with ⟨r, c'⟩
  rw [hx] at q1
  cases r with
  | ok a => simp only; rw [hf a q1.symm]
  | err e => rfl
  | panic => rfl
  | diverge => rfl

theorem D.lift_same {y y' : Res α} {f g : α → D β} (h : y = y') (hf : ∀ a, y' = .ok a → f a = g a) :
    liftD y >>= f = liftD y' >>= g := D.bind_same (by rw [h]) (Quiet.lift _) hf

theorem D.panic_bind {f : α → D β} : liftD .panic >>= f = liftD .panic := rfl
theorem D.ok_bind {a : α} {f : α → D β} : liftD (.ok a) >>= f = f a := rfl

end

section
variable {F : Type} [FloatOps F]
variable {K : Type} [Field K] [LinearOrder K] [IsStrictOrderedRing K] [FloorRing K] [ExactParams K] [IdCfg]
variable {vf : List (Vtx F)} {vk : List (Vtx K)}

theorem Agree.checkAndSwapD (h : Agree vf vk) {p s o : Nat} {ts : List Tri} {st : List (Nat × Nat)}
    (hI : RInv vk p ts ((s, o) :: st)) (hn : vk.length ≤ INF0) (hpl : p < vk.length) :
    CDT.checkAndSwapD vf p ts s o st = CDT.checkAndSwapD vk p ts s o st := by
  have hv := hI.valid
  have hlen := hv.len
  obtain ⟨T, hT, hT1, hT2, ho⟩ := hI.stack (s, o) (by simp)
  obtain ⟨v1, a, b, n2, n23, n1⟩ := T
  simp only at hT hT1 hT2 ho
  subst hT1 hT2
  have hR := rot_self (⟨v1, a, b, n2, n23, n1⟩ : Tri)
  simp only at hR
  obtain ⟨U, hU, hh⟩ := hv.ent_pos ⟨_, hT, hR.has2⟩ ho
  obtain ⟨c, n3, n4, hRU⟩ := hh.rot
  have hls := lt_of_getElem? hT
  have hq := quadOf_rot hv hU hRU (by omega) v1
  have pS := hR.pos_iff.1 (hv.pos _ _ hT)
  have pU := hRU.pos_iff.1 (hv.pos _ _ hU)
  unfold CDT.checkAndSwapD
  simp only [getI_of hU, D.ok_bind, hq]
  rw [h.shouldSwap ⟨a, b, c, v1⟩ (by simp only; omega) pU pS]

theorem Agree.restoreD (h : Agree vf vk) {p : Nat} (hn : vk.length ≤ INF0) (hpl : p < vk.length) (fuel : Nat)
    (ts : List Tri) (st : List (Nat × Nat)) (hI : RInv vk p ts st) :
    CDT.restoreD vf p fuel ts st = CDT.restoreD vk p fuel ts st := by
  induction fuel generalizing ts st with
  | zero => cases st <;> rfl
  | succ n ih =>
    cases st with
    | nil => rfl
    | cons e st =>
      obtain ⟨s, o⟩ := e
      obtain ⟨ts', st', h1, hI', _⟩ := hI.step hn hpl
      unfold CDT.restoreD
      refine D.bind_same (h.checkAndSwapD hI hn hpl) (checkAndSwapD_quiet _ _ _ _ _ _) fun r hr => ?_
      rw [h1] at hr
      cases hr
      exact ih _ _ hI'

theorem Agree.near_vertex (h : Agree vf vk) {p : Vtx F} {p' : Vtx K} (hp : Pair vf vk p p') (v : Nat) :
    (if isFin v = true then (do
        let a ← getI vf v
        pure (tooClose a p) : Res Bool)
      else pure false) = (if isFin v = true then (do
        let a ← getI vk v
        pure (tooClose a p') : Res Bool)
      else pure false) := by
  split
  · rcases h.get v with ⟨h1, h2⟩ | ⟨a, a', h1, h2, _, ha⟩
    · simp only [h1, h2, Res.panic_bind]
    · simp only [h1, h2, Res.ok_bind, h.close _ _ _ _ ha hp]
  · rfl

theorem Agree.insertVertexD (h : Agree vf vk) {done ins : List Nat} {s : DT} {vid : Nat} (fuel : Nat)
    (hI : DInv vk done ins s) (hsep : Sep vk) (hn : vk.length ≤ INF0) (hvl : vid < vk.length) (hvd : vid ∉ done)
    (hlen : s.ts.length + 2 ≤ NONE) : CDT.insertVertexD vf fuel s vid = CDT.insertVertexD vk fuel s vid := by
  obtain ⟨sh, h1, h2⟩ := insertWith_shape hI hsep hn hvl hvd hlen
  have fin : ∀ r : List Tri × List (Nat × Nat), (∀ G, CDT.insertWith vk G s vid = G r) →
      CDT.finishInsertD vf fuel vid s.merge r = CDT.finishInsertD vk fuel vid s.merge r := by
    intro r hr
    have := shape_go hr h1
    subst this
    obtain ⟨-, -, -, a4, -, -⟩ := h2
    unfold CDT.finishInsertD
    rw [h.restoreD hn hvl _ _ _ a4]
  unfold CDT.insertVertexD
  rcases h.get vid with ⟨e1, e2⟩ | ⟨p, p', e1, e2, _, hp⟩
  · rw [e1, e2]; rfl
  rw [e1, e2, D.ok_bind, D.ok_bind]
  refine D.lift_same (h.findPlacement hp _ _) fun pl hpl => ?_
  cases pl with
  | notFound => rfl
  | inside t =>
    refine D.bind_same rfl (split3D_quiet _ _ _) fun r hs => fin r fun G => ?_
    unfold CDT.insertWith
    simp only [e2, hpl, hs, Res.ok_bind]
  | onEdge t ei e =>
    dsimp only
    refine D.lift_same (h.near_vertex hp _) fun cs hcs => ?_
    split
    · rfl
    rename_i hcs'
    unfold insertOnEdgeD
    refine D.lift_same (h.near_vertex hp _) fun cd hcd => ?_
    split
    · rfl
    rename_i hcd'
    refine D.bind_same rfl (split4D_quiet _ _ _ _ _) fun r hs => fin r fun G => ?_
    unfold CDT.insertWith
    simp only [e2, hpl, Res.ok_bind]
    have near : ∀ {v : Nat} {cb : Bool}, (if isFin v = true then (do
        let a ← getI vk v
        pure (tooClose a p') : Res Bool)
      else pure false) = .ok cb → ¬ cb = true →
        isFin v = false ∨ ∃ a, isFin v = true ∧ getI vk v = .ok a ∧ tooClose a p' = false := by
      intro v cb hv hcb
      cases hf : isFin v with
      | false => exact .inl rfl
      | true =>
        rw [hf, if_pos rfl, Res.bind_eq_ok] at hv
        obtain ⟨a, h1, h2⟩ := hv
        have h3 : tooClose a p' = cb := by simpa using h2
        exact .inr ⟨a, rfl, h1, by rw [h3]; simpa using hcb⟩
    rcases near hcs hcs' with h3 | ⟨x, h3, h4, h5⟩ <;> rcases near hcd hcd' with k3 | ⟨y, k3, k4, k5⟩ <;>
      simp [h3, k3, *]

theorem Agree.insertAllD (h : Agree vf vk) {fuel : Nat} (hsep : Sep vk) (hn : 2 * vk.length + 2 ≤ NONE)
    (hfuel : 6 * vk.length + 10 ≤ fuel) (rest done ins : List Nat) (s : DT) (hI : DInv vk done ins s)
    (hnd : rest.Nodup) (hdis : ∀ v ∈ rest, v ∉ done) (hlt : ∀ v ∈ rest, v < vk.length)
    (hcard : done.length + rest.length ≤ vk.length) :
    CDT.insertAllD vf fuel rest s = CDT.insertAllD vk fuel rest s := by
  induction rest generalizing done ins s with
  | nil => rfl
  | cons v rest ih =>
    have hl := hI.len
    simp only [List.length_cons] at hcard
    have hni : vk.length ≤ INF0 := by unfold NONE at hn; unfold INF0; have := IdCfg.big; omega
    have hins := insertVertex_total (fuel := fuel) hI hsep hni
      (hlt v (by simp)) (hdis v (by simp)) (by omega) (by omega)
    rw [List.nodup_cons] at hnd
    have hd' : ∀ w ∈ rest, w ∉ v :: done := by
      intro w hw hc
      rcases List.mem_cons.1 hc with rfl | hc
      · exact hnd.1 hw
      · exact hdis w (by simp [hw]) hc
    have hl' : ∀ w ∈ rest, w < vk.length := fun w hw => hlt w (by simp [hw])
    unfold CDT.insertAllD
    congr 1
    funext stop
    split
    · rfl
    refine D.bind_same (h.insertVertexD fuel hI hsep hni (hlt v (by simp)) (hdis v (by simp)) (by omega))
      (insertVertexD_quiet _ _ _ _) fun s' hs' => ?_
    rw [hs'] at hins
    cases hins with
    | merged h' ht => exact ih _ _ _ h' hnd.2 hd' hl' (by simp; omega)
    | inserted h' hs hr => exact ih _ _ _ h' hnd.2 hd' hl' (by simp; omega)

theorem Agree.wrapD (h : Agree vf vk) {fuel bins : Nat} {m : Option (List Nat)} (hsep : Sep vk) (hn : 2 * vk.length + 2 ≤ NONE)
    (hfuel : 6 * vk.length + 10 ≤ fuel) (hm : MergeInit vk.length m) (hsort : binSort bins vf = binSort bins vk) :
    wrapAndTriangulateD fuel bins vf m = wrapAndTriangulateD fuel bins vk m := by
  have hB := IdCfg.big
  have hni : vk.length ≤ INF0 := by unfold NONE at hn; unfold INF0; omega
  unfold wrapAndTriangulateD
  refine D.lift_same hsort fun out ho => ?_
  cases out with
  | nil => rfl
  | cons first rest =>
    have hperm := binSort_perm (by unfold NONE at hn; omega) ho
    have hnd : (first :: rest).Nodup := hperm.nodup_iff.2 List.nodup_range
    have hlt : ∀ v ∈ first :: rest, v < vk.length := fun v hv => by simpa using hperm.subset hv
    have hlen := hperm.length_eq
    simp at hlen
    rw [List.nodup_cons] at hnd
    refine D.lift_same rfl fun tid ht => D.bind_same rfl (Quiet.event _ _ _ _ _) fun _ _ => ?_
    rw [lastId_initial] at ht
    cases ht
    exact h.insertAllD hsep hn hfuel rest [first] [first] _ (initial_dinv (hlt first (by simp)) hni m hm) hnd.2
      (by intro v hv hc; simp at hc; subst hc; exact hnd.1 hv) (fun v hv => hlt v (by simp [hv])) (by simp; omega)

/-! ## Constraints -/

theorem AgreeC.removeStepD (h : AgreeC vf vk) {cv : EV F} {cv' : EV K} (hc : EPair vf vk cv cv') (d : EdgeData) (s : RC) :
    CDT.removeStepD vf cv d s = CDT.removeStepD vk cv' d s := by
  simp only [CDT.removeStepD, h.quadDiag, h.edgeIsect hc]

theorem AgreeC.removeCrossedD (h : AgreeC vf vk) {cv : EV F} {cv' : EV K} (hc : EPair vf vk cv cv') (fuel : Nat) (s : RC) :
    CDT.removeCrossedD vf cv fuel s = CDT.removeCrossedD vk cv' fuel s := by
  induction fuel generalizing s with
  | zero => cases hs : s.isects <;> simp only [CDT.removeCrossedD, hs]
  | succ n ih => cases hs : s.isects <;> simp only [CDT.removeCrossedD, hs, h.removeStepD hc, ih]

theorem AgreeC.restoreStepCD (h : AgreeC vf vk) {ce : Edge} {d : EdgeData} {s : RS} (hv : Valid (hp vk) s.ts)
    (hd : EOk s.ts d) : CDT.restoreStepCD vf ce d s = CDT.restoreStepCD vk ce d s := by
  obtain ⟨p, c, n1, n2, n3, n4, hq⟩ := hd.quadAt hv
  unfold CDT.restoreStepCD
  split
  · rfl
  · rw [hq.quad]
    simp only [D.ok_bind]
    have : CDT.shouldSwapC vf ⟨d.edge.src, d.edge.dst, c, p⟩ = CDT.shouldSwapC vk ⟨d.edge.src, d.edge.dst, c, p⟩ := by
      unfold CDT.shouldSwapC
      split
      · rfl
      · rename_i hi
        simp only [Bool.or_eq_true, not_or, isInf_iff] at hi
        exact h.shouldSwap _ (by simp only; omega) hq.p1 hq.p2
    rw [this]

theorem AgreeC.restoreCD (h : AgreeC vf vk) (hn : vk.length ≤ INF0) {ce : Edge} {ts0 : List Tri} {E : List Edge} (fuel : Nat)
    (s : RS) (hI : CInv vk ts0 s.ts s.v2t E s.diags) : CDT.restoreCD vf ce fuel s = CDT.restoreCD vk ce fuel s := by
  induction fuel generalizing s with
  | zero => cases hs : s.diags <;> simp only [CDT.restoreCD, hs]
  | succ n ih =>
    cases hs : s.diags with
    | nil => simp only [CDT.restoreCD, hs]
    | cons d rest =>
      obtain ⟨s', h1, h2⟩ := restoreStepC_inv (ce := ce) hn hI hs
      have hd : EOk s.ts d := hI.eok (by rw [hs]; simp)
      simp only [CDT.restoreCD, hs]
      refine D.bind_same (h.restoreStepCD (s := { s with diags := rest }) hI.m.valid hd) (restoreStepCD_quiet _ _ _ _) fun s1 hs1 => ?_
      rw [h1] at hs1
      cases hs1
      rcases h2 with h2 | h2
      · exact ih _ h2.2.mono
      · exact ih _ h2.2

theorem AgreeC.insertEdgeD (h : AgreeC vf vk) (hu : ∀ v ∈ vk, Plane.InUnit v) (hn : vk.length ≤ INF0) {ts0 : List Tri}
    {s : AC} (hI : AInv vk ts0 s) {ce : Edge} (hocc : Occ s.ts ce.src) (fuel : Nat) :
    CDT.insertEdgeD vf fuel ce s = CDT.insertEdgeD vk fuel ce s := by
  unfold CDT.insertEdgeD
  rcases h.get ce.src with ⟨e1, e2⟩ | ⟨a, a', e1, e2, ga, ha⟩
  · simp only [e1, e2, D.panic_bind]
  rcases h.get ce.dst with ⟨e3, e4⟩ | ⟨b, b', e3, e4, gb, hb⟩
  · simp only [e1, e2, e3, e4, D.ok_bind, D.panic_bind]
  have hc : EPair vf vk (a, b) (a', b') := .fin ha hb
  simp only [e1, e2, e3, e4, D.ok_bind]
  refine D.lift_same (h.registerEdges hc _ _ _) fun l hl => ?_
  cases l with
  | nil => rfl
  | cons d rest =>
    refine D.bind_same (h.removeCrossedD hc _ _) (removeCrossedD_quiet _ _ _ _) fun rc hr => ?_
    rcases registerEdges_geo hu hn hI.m ga gb hocc hl with ⟨hh, _⟩ | ⟨d', rest', hh, hF, hall, hdis, hlen, -, -⟩
    · exact absurd hh (by simp)
    have base : CInv vk ts0 s.ts s.v2t [] ((d :: rest) ++ []) := by
      refine ⟨hI.m, hI.steps, hI.occ, [], rfl, by simp, ?_, ?_, by simp⟩
      · intro e he; rw [List.append_nil] at he; exact (hall e he).1
      · rw [List.append_nil]; exact hdis
    have := (removeCrossed_inv (s := ⟨s.ts, s.v2t, d :: rest, [], 0⟩) hu hn ga gb base hr).1
    rw [h.restoreCD hn fuel ⟨rc.ts, rc.v2t, rc.diags, []⟩ this]

theorem AgreeC.applyLoopD (h : AgreeC vf vk) (hu : ∀ v ∈ vk, Plane.InUnit v) (hn : vk.length ≤ INF0) {ts0 : List Tri}
    {merge : List Nat} (hmo : MergeOcc ts0 merge) (fuel : Nat) (es : List Edge) (s : AC) (hI : AInv vk ts0 s) :
    CDT.applyLoopD vf fuel merge es s = CDT.applyLoopD vk fuel merge es s := by
  induction es generalizing s with
  | nil => rfl
  | cons e es ih =>
    unfold CDT.applyLoopD
    congr 1
    funext stop
    split
    · rfl
    refine D.bind_same ?_ (applyOneD_quiet _ _ _ _ _) fun s1 h1 => ?_
    · unfold CDT.applyOneD
      refine D.lift_same rfl fun a ha => D.lift_same rfl fun b hb => ?_
      rw [h.insertEdgeD hu hn (s := { s with S := ⟨a, b⟩ :: s.S }) ⟨hI.m, hI.steps, hI.occ⟩
          (steps_occ hI.steps (hmo _ _ (getI_eq_ok.1 ha)))]
    · refine ih s1 (applyLoop_inv hu hn hmo (es := [e]) (s := s) (s' := s1) (fuel := fuel) hI ?_).1
      simp only [CDT.applyLoop, h1, Res.ok_bind]

end

/-! ## Rounded runs -/

theorem D.cdt_same [IdCfg] {w w' : D DT} {A A' : DT → D AC} (cfg : DebugCfg) (hw : w = w')
    (hA : ∀ s c c', w' (.new cfg) = (.ok s, c) → c'.cfg = c.cfg → c'.step = c.step → A s c' = A' s c') (G : AC → D (List Out)) :
    (w >>= fun s => pushSnap .beforeConstraints s.ts [] [] >>= fun _ => A s >>= G) (.new cfg) =
      (w' >>= fun s => pushSnap .beforeConstraints s.ts [] [] >>= fun _ => A' s >>= G) (.new cfg) := by
  subst hw
  rw [D.bind_def, D.bind_def]
  rcases hx : w (.new cfg) with ⟨r, c⟩
  cases r with
  | err e => rfl
  | panic => rfl
  | diverge => rfl
  | ok s =>
    dsimp only
    rw [D.bind_def, D.bind_def]
    obtain ⟨q1, q2, q3⟩ := Quiet.snap .beforeConstraints s.ts [] [] c
    rcases hy : pushSnap .beforeConstraints s.ts [] [] c with ⟨r', c'⟩
    rw [hy] at q1 q2 q3
    dsimp only at q1 q2 q3
    subst q1
    dsimp only
    rw [D.bind_def, D.bind_def, hA s c c' hx q2 q3]

namespace Rounded
variable {F : Type} [FloatOps F] [Rounded F] [IdCfg] {fuel : Nat} {bins : Nat → Nat} {vs : List (Vtx F)}
  {V : List (Vtx ℚ)} {W : ℚ}

theorem RGood.wrapD (h : RGood fuel bins vs V W) (m : Option (List Nat)) (hm : MergeInit vs.length m) :
    letI := params F (bins vs.length) W (scaleVal vs)
    wrapAndTriangulateD fuel (bins vs.length) (normalizeVerts vs) m =
      wrapAndTriangulateD fuel (bins vs.length) (normalizeVerts V) m := by
  let P := params F (bins vs.length) W (scaleVal vs)
  have hG := h.good
  have hl : (normalizeVerts V).length = vs.length := by rw [normalizeVerts_length', h.len]
  refine h.agree.wrapD hG.sep ?_ ?_ ?_ (Rounded.binSort_eq P _ ((normalize_near h.toInput h.row h.cap).imp fun _ _ h => h.2))
  · rw [hl]; exact h.ids
  · rw [hl]; exact h.fuel
  · rw [hl]; exact hm

/-- The rounded run with the debug context is the exact one. -/
theorem RGood.runD (h : RGood fuel bins vs V W) (cfg : DebugCfg) :
    letI := params F (bins vs.length) W (scaleVal vs)
    triangulation2dD fuel bins vs cfg = triangulation2dD fuel bins V cfg := by
  let P := params F (bins vs.length) W (scaleVal vs)
  unfold triangulation2dD
  rw [h.len, h.wrapD none (mergeInit_none _)]

/-- The loop over the constraints, after the insertions or after a forced end. -/
theorem RGoodC.applyD (h : RGoodC fuel bins vs V W) (es : List Edge) (cfg : DebugCfg) {s : DT} {c c' : DCtx}
    (hx : letI := params F (bins vs.length) W (scaleVal vs)
      wrapAndTriangulateD fuel (bins V.length) (normalizeVerts V) (some ((List.range V.length).map toId)) (.new cfg) = (.ok s, c))
    (hcfg : c'.cfg = c.cfg) (hstep : c'.step = c.step) :
    letI := params F (bins vs.length) W (scaleVal vs)
    applyConstraintsD (normalizeVerts vs) fuel s.ts es (s.merge.getD []) c' =
      applyConstraintsD (normalizeVerts V) fuel s.ts es (s.merge.getD []) c' := by
  let P := params F (bins vs.length) W (scaleVal vs)
  have hG := h.toRGood.good
  have hl : (normalizeVerts V).length = (normalizeVerts vs).length := by simp [normalizeVerts_length', h.len]
  have hx : wrapAndTriangulateD fuel (bins V.length) (normalizeVerts V) (some ((List.range V.length).map toId)) (.new cfg) = (.ok s, c) := hx
  obtain ⟨w1, w2, w3⟩ := wrapD_eq fuel (bins V.length) (normalizeVerts V) (some ((List.range V.length).map toId)) cfg
  rw [hx] at w1 w2 w3
  simp only at w1 w2 w3
  symm at w1
  rw [Res.bind_eq_ok] at w1
  obtain ⟨sorted, hb, w1⟩ := w1
  cases sorted with
  | nil => simp at w1
  | cons first rest =>
    have w3 := w3 s rfl first rest hb
    simp only at w1
    by_cases hfull : allowed cfg.forceEnd 0 rest.length = rest.length
    · rw [hfull, List.take_length] at w1
      have hw : wrapAndTriangulate fuel (bins V.length) (normalizeVerts V) (some ((List.range V.length).map toId)) = .ok s := by
        unfold wrapAndTriangulate
        rw [hb, Res.ok_bind]
        simp only [lastId_initial, Res.ok_bind]
        exact w1
      obtain ⟨v2t, hv, hA, -, hM, -⟩ := hG.start hw
      unfold applyConstraintsD
      rw [← hl, hv, D.ok_bind, D.ok_bind]
      rw [h.agreeC.applyLoopD hG.unit hG.ids_inf (fun v x hx => (hM v x hx).1) fuel es _ hA]
    · have hstop : forcedEnd c'.cfg.forceEnd (c'.step + 1) = true := by
        rw [hcfg, w2, hstep]
        have := congrFun w3 1
        cases hfe : cfg.forceEnd with
        | none => rw [hfe] at hfull; simp [allowed] at hfull
        | some k =>
          rw [hfe] at this hfull
          simp only [allowed] at this hfull
          simp only [forcedEnd, decide_eq_true_eq]
          omega
      have hadv : advanceStep c' = (.ok true, { c' with step := c'.step + 1 }) := by
        unfold advanceStep; rw [hstop]
      unfold applyConstraintsD
      rw [← hl, D.bind_def, D.bind_def]
      cases hv : buildV2t s.ts 0 (List.replicate (normalizeVerts V).length 0) with
      | ok v2t =>
        show applyLoopD (normalizeVerts vs) fuel (s.merge.getD []) es ⟨s.ts, v2t, []⟩ c' =
          applyLoopD (normalizeVerts V) fuel (s.merge.getD []) es ⟨s.ts, v2t, []⟩ c'
        cases es with
        | nil => rfl
        | cons e es =>
          unfold applyLoopD
          rw [D.bind_def, D.bind_def, hadv]
          rfl
      | err e => rfl
      | panic => rfl
      | diverge => rfl

/-- The rounded constrained run with the debug context is the exact one. -/
theorem RGoodC.runD (h : RGoodC fuel bins vs V W) (es : List Edge) (cfg : DebugCfg) :
    letI := params F (bins vs.length) W (scaleVal vs)
    constrained2dD fuel bins vs es cfg = constrained2dD fuel bins V es cfg := by
  let P := params F (bins vs.length) W (scaleVal vs)
  have hw := h.toRGood.wrapD _ (mergeInit_range vs.length (by have := h.ids; omega))
  unfold constrained2dD
  rw [h.len]
  split
  · rfl
  exact D.cdt_same cfg hw (fun s c c' hx q2 q3 => h.applyD es cfg (by rw [h.len]; exact hx) q2 q3) _

end Rounded
end CDT

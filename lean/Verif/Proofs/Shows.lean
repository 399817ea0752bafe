import Verif.Proofs.Tell
import Verif.Props.Input
import Verif.Props.Accept

/-!
# The geometry of the recorded snapshots

Every snapshot of a run in exact arithmetic is reached from the four first triangles by splits of a triangle, splits of an edge
and swaps of a diagonal of a convex quad.
-/

set_option linter.unusedSectionVars false
set_option linter.unusedSimpArgs false
set_option linter.unusedVariables false

namespace CDT
open Plane

section
variable {α β : Type} {P : Snap → Prop}

/-- Everything that `x` records satisfies `P`. -/
def Shows (P : Snap → Prop) (x : D α) : Prop := ∀ c, (∀ s ∈ c.snaps, P s) → ∀ s ∈ (x c).2.snaps, P s

theorem Shows.pure {a : α} : Shows P (Pure.pure a : D α) := fun _ h => h

theorem Shows.last {y : Res α} : Shows P (liftD y) := fun _ h => h

theorem Shows.bind {x : D α} {y : Res α} {f : α → D β} (h : Shows P x) (hq : Quiet x y) (hf : ∀ a, y = .ok a → Shows P (f a)) :
    Shows P (x >>= f) := by
  intro c hc
  have h1 := h c hc
  obtain ⟨q1, -, -⟩ := hq c
  rw [D.bind_def]
  rcases hx : x c with ⟨r, c'⟩
  rw [hx] at h1 q1
  cases r with
  | ok a => exact hf a q1.symm c' h1
  | err e => exact h1
  | panic => exact h1
  | diverge => exact h1

theorem Shows.lift {y : Res α} {f : α → D β} (hf : ∀ a, y = .ok a → Shows P (f a)) : Shows P (liftD y >>= f) :=
  Shows.bind .last (Quiet.lift y) hf

end

section
variable [IdCfg] {P : Snap → Prop}

theorem Shows.event {p : Phase} {e : Event} {ts : List Tri} {ids nbs : List Nat} (h : ∀ k ch, P ⟨k, p, e, ch, ts⟩) :
    Shows P (pushEvent p e ts ids nbs) := by
  intro c hc
  unfold pushEvent
  split
  · exact hc
  split
  · intro s hs
    rcases List.mem_append.1 hs with hs | hs
    · exact hc s hs
    · simp only [List.mem_singleton] at hs
      subst hs
      exact h _ _
  · exact hc

theorem Shows.event_then {β : Type} {p : Phase} {e : Event} {ts : List Tri} {ids nbs : List Nat} {f : Unit → D β}
    (h : ∀ k ch, P ⟨k, p, e, ch, ts⟩) (hf : Shows P (f ())) : Shows P (pushEvent p e ts ids nbs >>= f) :=
  Shows.bind (Shows.event h) (Quiet.event _ _ _ _ _) fun _ _ => hf

theorem Shows.advance {β : Type} {f : Bool → D β} (hf : ∀ b, Shows P (f b)) : Shows P (advanceStep >>= f) := by
  intro c hc
  rw [D.bind_def]
  exact hf _ _ hc

variable {F : Type} [FloatOps F]

theorem split3D_shows {ts : List Tri} {t v : Nat}
    (h : ∀ r, split3 ts t v = .ok r → ∀ k p e ch, p ≠ .filterTriangles → P ⟨k, p, e, ch, r.1⟩) : Shows P (split3D ts t v) :=
  Shows.lift fun r hr => Shows.event_then (fun _ _ => h r hr _ _ _ _ (by simp)) .pure

theorem split4D_shows {ts : List Tri} {t : Nat} {ei : Fin 3} {e : Edge} {v : Nat}
    (h : ∀ r, split4 ts t ei e v = .ok r → ∀ k p e ch, p ≠ .filterTriangles → P ⟨k, p, e, ch, r.1⟩) : Shows P (split4D ts t ei e v) :=
  Shows.lift fun _ _ => Shows.lift fun r hr => Shows.event_then (fun _ _ => h r hr _ _ _ _ (by simp)) .pure

theorem checkAndSwapD_shows {vs : List (Vtx F)} {p : Nat} {ts : List Tri} {a b : Nat} {st : List (Nat × Nat)}
    (h : ∀ r, checkAndSwap vs p ts a b st = .ok r → ∀ k p e ch, p ≠ .filterTriangles → P ⟨k, p, e, ch, r.1⟩) :
    Shows P (checkAndSwapD vs p ts a b st) := by
  unfold checkAndSwapD
  refine Shows.lift fun t2 h1 => Shows.lift fun sw h2 => ?_
  split
  · rename_i hsw
    refine Shows.lift fun t1 h3 => Shows.lift fun ts1 h4 => Shows.lift fun ts2 h5 => ?_
    refine Shows.event_then (fun _ _ => ?_) .pure
    refine h (ts2, pushQ (pushQ st a (quadOf t2 a p).2.1) b (quadOf t2 a p).2.2) ?_ _ _ _ _ (by simp)
    unfold checkAndSwap
    simp only [h1, h2, Res.ok_bind, hsw, if_true, h3, h4, h5]
  · exact .pure

theorem swapQuadD_shows {ts : List Tri} {v2t : List Nat} {d : EdgeData} {q : Quad}
    (h : ∀ w, swapQuad ts v2t d q = .ok w → ∀ k p e ch, p ≠ .filterTriangles → P ⟨k, p, e, ch, w.ts⟩) :
    Shows P (swapQuadD ts v2t d q) :=
  Shows.lift fun r hr => Shows.event_then (fun _ _ => h r hr _ _ _ _ (by simp)) .pure

end

section
variable {K : Type} [Field K] [LinearOrder K] [IsStrictOrderedRing K] [FloorRing K] [ExactParams K] [IdCfg]
variable {vs : List (Vtx K)}

/-- Triangles reached from the first four by splits and swaps. -/
def Reach (vs : List (Vtx K)) (ts : List Tri) : Prop :=
  ∃ first, first < vs.length ∧ Relation.ReflTransGen (MStep (hp vs)) (initialTriangles first) ts ∧ VertsIn (VOk vs.length) ts

/-- The snapshot shows reached triangles; after the filter, some of them. -/
def Good1 (vs : List (Vtx K)) (s : Snap) : Prop :=
  (s.phase ≠ .filterTriangles → Reach vs s.ts) ∧
  (s.phase = .filterTriangles → ∃ ts, Reach vs ts ∧ ∀ t ∈ s.ts, t ∈ ts ∧ t.isFinite = true)

theorem Good1.of {ts : List Tri} (h : Reach vs ts) (k : Nat) (p : Phase) (e : Event) (ch : List Nat) (hp' : p ≠ .filterTriangles) :
    Good1 vs ⟨k, p, e, ch, ts⟩ := ⟨fun _ => h, fun h => absurd h hp'⟩

theorem Reach.step {ts ts' : List Tri} (h : Reach vs ts) (hs : Relation.ReflTransGen (MStep (hp vs)) ts ts')
    (ho : VertsIn (VOk vs.length) ts') : Reach vs ts' := by
  obtain ⟨f, h1, h2, -⟩ := h
  exact ⟨f, h1, h2.trans hs, ho⟩

theorem restoreD_shows {p : Nat} (hn : vs.length ≤ INF0) (hpl : p < vs.length) : ∀ (fuel : Nat) (ts : List Tri) (st : List (Nat × Nat)),
    RInv vs p ts st → Reach vs ts → Shows (Good1 vs) (restoreD vs p fuel ts st)
  | 0, ts, [], _, _ => .pure
  | _ + 1, ts, [], _, _ => .pure
  | 0, ts, _ :: _, _, _ => .last
  | fuel + 1, ts, (a, b) :: st, hI, hr => by
    obtain ⟨ts', st', e, hI', hc⟩ := hI.step hn hpl
    have hr' : Reach vs ts' := by
      rcases hc with ⟨rfl, -⟩ | ⟨hf, -⟩
      · exact hr
      · exact hr.step (flips_steps (vs := vs) (.single hf)) hI'.ok
    unfold restoreD
    refine Shows.bind (checkAndSwapD_shows ?_) (checkAndSwapD_quiet _ _ _ _ _ _) fun r h => ?_
    · intro r h k p' e' ch hp'
      rw [e] at h
      cases h
      exact Good1.of hr' _ _ _ _ hp'
    · rw [e] at h
      cases h
      exact restoreD_shows hn hpl fuel ts' st' hI' hr'

theorem shape_go {s : DT} {vid : Nat} {sh : Shape} {r : List Tri × List (Nat × Nat)} (h1 : ∀ G, insertWith vs G s vid = G r)
    (h2 : ∀ G, insertWith vs G s vid = sh.eval G) : sh = .go r.1 r.2 := by
  classical
  cases sh with
  | fail => have := (h1 fun _ => .panic).symm.trans (h2 _); simp [Shape.eval] at this
  | keep s' => have := (h1 fun _ => .panic).symm.trans (h2 _); simp [Shape.eval] at this
  | go ts1 st =>
    have := (h1 fun x => if x = r then .panic else .diverge).symm.trans (h2 _)
    simp only [Shape.eval, if_true] at this
    by_cases hc : (ts1, st) = r
    · subst hc; rfl
    · rw [if_neg hc] at this; simp at this

theorem insertVertexD_shows {done ins : List Nat} {s : DT} {vid fuel : Nat} (hI : DInv vs done ins s)
    (hsep : Sep vs) (hn : vs.length ≤ INF0) (hvl : vid < vs.length) (hvd : vid ∉ done)
    (hlen : s.ts.length + 2 ≤ NONE) (hr : Reach vs s.ts) : Shows (Good1 vs) (insertVertexD vs fuel s vid) := by
  obtain ⟨sh, h1, h2⟩ := insertWith_shape hI hsep hn hvl hvd hlen
  have fin : ∀ r : List Tri × List (Nat × Nat), (∀ G, insertWith vs G s vid = G r) →
      Reach vs r.1 ∧ Shows (Good1 vs) (finishInsertD vs fuel vid s.merge r) := by
    intro r h
    have := shape_go h h1
    subst this
    obtain ⟨a1, a2, a3, a4, a5, a6⟩ := h2
    have hr' : Reach vs r.1 := hr.step (.single a1) a4.ok
    refine ⟨hr', ?_⟩
    unfold finishInsertD
    exact Shows.bind (restoreD_shows hn hvl _ _ _ a4 hr') (restoreD_quiet _ _ _ _ _) fun _ _ => Shows.lift fun _ _ => .pure
  unfold insertVertexD
  refine Shows.lift fun p hp' => Shows.lift fun pl hpl => ?_
  cases pl with
  | notFound => exact .last
  | inside t =>
    have go : ∀ r, split3 s.ts t vid = .ok r → ∀ G, insertWith vs G s vid = G r := by
      intro r hs G
      unfold insertWith
      simp only [hp', hpl, hs, Res.ok_bind]
    exact Shows.bind (split3D_shows fun r hs k p e ch hne => Good1.of (fin r (go r hs)).1 _ _ _ _ hne) (split3D_quiet _ _ _)
      fun r hs => (fin r (go r hs)).2
  | onEdge t ei e =>
    dsimp only
    refine Shows.lift fun cs hcs => ?_
    split
    · exact .pure
    rename_i hcs'
    unfold insertOnEdgeD
    refine Shows.lift fun cd hcd => ?_
    split
    · exact .pure
    rename_i hcd'
    have go : ∀ r, split4 s.ts t ei e vid = .ok r → ∀ G, insertWith vs G s vid = G r := by
      intro r hs G
      unfold insertWith
      simp only [hp', hpl, Res.ok_bind]
      have near : ∀ {v : Nat} {cb : Bool}, (if isFin v = true then (do
          let a ← getI vs v
          pure (tooClose a p) : Res Bool)
        else pure false) = .ok cb → ¬ cb = true →
          isFin v = false ∨ ∃ a, isFin v = true ∧ getI vs v = .ok a ∧ tooClose a p = false := by
        intro v cb hv hcb
        cases hf : isFin v with
        | false => exact .inl rfl
        | true =>
          rw [hf, if_pos rfl, Res.bind_eq_ok] at hv
          obtain ⟨a, h1, h2⟩ := hv
          have h3 : tooClose a p = cb := by simpa using h2
          exact .inr ⟨a, rfl, h1, by rw [h3]; simpa using hcb⟩
      rcases near hcs hcs' with h3 | ⟨x, h3, h4, h5⟩ <;> rcases near hcd hcd' with k3 | ⟨y, k3, k4, k5⟩ <;>
        simp [h3, k3, *]
    exact Shows.bind (split4D_shows fun r hs k p e ch hne => Good1.of (fin r (go r hs)).1 _ _ _ _ hne) (split4D_quiet _ _ _ _ _)
      fun r hs => (fin r (go r hs)).2

theorem insertAllD_shows {fuel : Nat} (hsep : Sep vs) (hn : 2 * vs.length + 2 ≤ NONE)
    (hfuel : 6 * vs.length + 10 ≤ fuel) (rest done ins : List Nat) (s : DT) (hI : DInv vs done ins s)
    (hnd : rest.Nodup) (hdis : ∀ v ∈ rest, v ∉ done) (hlt : ∀ v ∈ rest, v < vs.length)
    (hcard : done.length + rest.length ≤ vs.length) (hr : Reach vs s.ts) : Shows (Good1 vs) (insertAllD vs fuel rest s) := by
  have hB := IdCfg.big
  have hni : vs.length ≤ INF0 := by unfold NONE at *; unfold INF0; omega
  induction rest generalizing done ins s with
  | nil => exact .pure
  | cons v rest ih =>
    have hl := hI.len
    rw [List.nodup_cons] at hnd
    simp only [List.length_cons] at hcard
    have hlen : s.ts.length + 2 ≤ NONE := by omega
    unfold insertAllD
    refine Shows.advance fun b => ?_
    split
    · exact .pure
    refine Shows.bind (insertVertexD_shows hI hsep hni (hlt v (by simp)) (hdis v (by simp)) hlen hr) (insertVertexD_quiet _ _ _ _)
      fun s' hs' => ?_
    have ht := insertVertex_total (fuel := fuel) hI hsep hni (hlt v (by simp)) (hdis v (by simp)) (by omega) hlen
    rw [hs'] at ht
    have hdis' : ∀ w ∈ rest, w ∉ v :: done := by
      intro w hw hc
      rcases List.mem_cons.1 hc with rfl | hc
      · exact hnd.1 hw
      · exact hdis w (by simp [hw]) hc
    cases ht with
    | merged h ht =>
      exact ih _ _ _ h hnd.2 hdis' (fun w hw => hlt w (by simp [hw])) (by simp; omega) (by rw [ht]; exact hr)
    | inserted h hs hr' =>
      exact ih _ _ _ h hnd.2 hdis' (fun w hw => hlt w (by simp [hw])) (by simp; omega) (hr.step hs h.ok)

theorem wrapD_shows {fuel : Nat} {bins : Nat → Nat} {ws : List (Vtx K)} (h : Good fuel bins ws) {m : Option (List Nat)}
    (hm : MergeInit ws.length m) : Shows (Good1 (normalizeVerts ws)) (wrapAndTriangulateD fuel (bins ws.length) (normalizeVerts ws) m) := by
  have hB := IdCfg.big
  have hl : (normalizeVerts ws).length = ws.length := by rw [normalizeVerts_eq]; simp
  have hni : ws.length ≤ INF0 := by have := h.ids; unfold NONE at *; unfold INF0; omega
  unfold wrapAndTriangulateD
  refine Shows.lift fun sorted hb => ?_
  cases sorted with
  | nil => exact .last
  | cons first rest =>
    have hperm := binSort_perm (by rw [hl]; have := h.ids; unfold NONE at this; omega) hb
    have hnd : (first :: rest).Nodup := hperm.nodup_iff.2 List.nodup_range
    have hlt : ∀ v ∈ first :: rest, v < (normalizeVerts ws).length := fun v hv => by simpa using hperm.subset hv
    have hlen := hperm.length_eq
    simp at hlen
    rw [List.nodup_cons] at hnd
    have hD := initial_dinv (hlt first (by simp)) (by rw [hl]; exact hni) m (by rw [hl]; exact hm)
    have hR : Reach (normalizeVerts ws) (initialTriangles first) := ⟨first, hlt first (by simp), .refl, hD.ok⟩
    refine Shows.lift fun tid ht => Shows.event_then (fun _ _ => Good1.of hR _ _ _ _ (by simp)) ?_
    rw [lastId_initial] at ht
    cases ht
    exact insertAllD_shows h.sep (by rw [hl]; exact h.ids) (by rw [hl]; exact h.fuel) rest [first] [first] _ hD hnd.2
      (by intro v hv hc; simp at hc; subst hc; exact hnd.1 hv) (fun v hv => hlt v (by simp [hv]))
      (by simp only [List.length_cons, List.length_nil]; omega) hR

/-! ## Constraints -/

theorem removeStepD_shows (hu : ∀ v ∈ vs, InUnit v) (hn : vs.length ≤ INF0) {a b : Nat} {A B : Vtx K}
    (ha : vs[a]? = some A) (hb : vs[b]? = some B) {ts0 : List Tri} {E : List Edge} {d : EdgeData} {rest : List EdgeData}
    {s : RC} (h : CInv vs ts0 s.ts s.v2t E (s.isects ++ s.diags)) (he : s.isects = d :: rest) (hr : Reach vs s.ts) :
    Shows (Good1 vs) (removeStepD vs (A, B) d { s with isects := rest }) := by
  rw [he, List.cons_append] at h
  obtain ⟨p, c, n1, n2, n3, n4, hq⟩ := (h.eok (d := d) (by simp)).quadAt h.m.valid
  unfold removeStepD
  split
  · exact .last
  rename_i hnc
  refine Shows.lift fun q hqq => Shows.lift fun r hrr => ?_
  split
  · exact .pure
  rename_i hcr
  refine Shows.bind (swapQuadD_shows ?_) (swapQuadD_quiet _ _ _ _) fun w _ => Shows.lift fun x _ => ?_
  · intro w hw k ph e ch hne
    rw [hq.quad] at hqq
    cases hqq
    have hm := h.m
    obtain ⟨S, hS, hRS⟩ := hq.s
    obtain ⟨U, hU, hRU⟩ := hq.o
    have va := Ent.vok hm.ok ⟨S, hS, hRS.has2⟩
    have vp := Ent.vok hm.ok ⟨S, hS, hRS.has1⟩
    have vc := Ent.vok hm.ok ⟨U, hU, hRU.has2⟩
    rcases quadDiag_spec hu hn va.1 va.2 vc.2 vp.1 hq.p1 hq.p2 with ⟨h1, h2⟩ | ⟨r', h1, h2, h3⟩
    · rw [h1] at hrr; simp at hrr
    · rw [h1] at hrr; cases hrr
      have hc : Convex4 (hp vs) d p c := h3.1 (by simpa using hcr)
      obtain ⟨ts', v2t', g1, g2, g3⟩ := hm.swap hn hq hc
      rw [g1] at hw; cases hw
      exact Good1.of (hr.step (.single (.flip g2 hc.1 hc.2)) g3.ok) _ _ _ _ hne
  · split <;> exact .pure

theorem removeStep_steps (hu : ∀ v ∈ vs, InUnit v) (hn : vs.length ≤ INF0) {a b : Nat} {A B : Vtx K}
    (ha : vs[a]? = some A) (hb : vs[b]? = some B) {ts0 : List Tri} {E : List Edge} {d : EdgeData} {rest : List EdgeData}
    {s s' : RC} (h : CInv vs ts0 s.ts s.v2t E (s.isects ++ s.diags)) (he : s.isects = d :: rest) (hr : Reach vs ts0)
    (hs : removeStep vs (A, B) d { s with isects := rest } = .ok s') : Reach vs s'.ts := by
  have := removeStep_inv hu hn ha hb h he hs
  exact hr.step this.steps this.m.ok

theorem removeCrossedD_shows (hu : ∀ v ∈ vs, InUnit v) (hn : vs.length ≤ INF0) {a b : Nat} {A B : Vtx K}
    (ha : vs[a]? = some A) (hb : vs[b]? = some B) {ts0 : List Tri} {E : List Edge} (hr : Reach vs ts0) : ∀ (fuel : Nat) (s : RC),
    CInv vs ts0 s.ts s.v2t E (s.isects ++ s.diags) → Shows (Good1 vs) (removeCrossedD vs (A, B) fuel s)
  | 0, s, h => by
    unfold removeCrossedD
    split
    · exact .pure
    · exact .last
  | fuel + 1, s, h => by
    unfold removeCrossedD
    split
    · exact .pure
    · rename_i d rest he
      exact Shows.bind (removeStepD_shows hu hn ha hb h he (hr.step h.steps h.m.ok)) (removeStepD_quiet _ _ _ _) fun s' hs' =>
        removeCrossedD_shows hu hn ha hb hr fuel s' (removeStep_inv hu hn ha hb h he hs')

theorem restoreStepCD_shows (hn : vs.length ≤ INF0) {ce : Edge} {ts0 : List Tri} {E : List Edge} {d : EdgeData}
    {rest : List EdgeData} {s : RS} (h : CInv vs ts0 s.ts s.v2t E s.diags) (he : s.diags = d :: rest) (hr : Reach vs s.ts) :
    Shows (Good1 vs) (restoreStepCD vs ce d { s with diags := rest }) := by
  rw [he] at h
  obtain ⟨p, c, n1, n2, n3, n4, hq⟩ := (h.eok (d := d) (by simp)).quadAt h.m.valid
  unfold restoreStepCD
  split
  · exact .pure
  rename_i hne
  refine Shows.lift fun q hqq => Shows.lift fun sw hsw => ?_
  split
  · rename_i hsw'
    refine Shows.bind (swapQuadD_shows ?_) (swapQuadD_quiet _ _ _ _) fun w _ => .pure
    intro w hw k ph e ch hph
    have hgeo := restoreStepC_geo (ce := ce) hn (s := { s with diags := rest }) h.m hq
    have hstep : restoreStepC vs ce d { s with diags := rest } =
        .ok ⟨w.ts, w.v2t, rest.map (·.upd w.ttl w.tfr d.f d.t) ++ [⟨d.f, d.t, ⟨q.q3, q.q4⟩⟩], (d.f, d.t) :: s.hist⟩ := by
      unfold restoreStepC
      rw [if_neg hne, hqq, Res.ok_bind, hsw, Res.ok_bind, if_pos hsw', hw, Res.ok_bind]
    rcases hgeo with e1 | ⟨_, hc, _, ts', v2t', g2, g3, e1⟩
    · rw [hstep] at e1
      injection e1 with e1
      have : ((d.f, d.t) :: s.hist) = s.hist := congrArg RS.hist e1
      have := congrArg List.length this
      simp at this
    · rw [hstep] at e1
      injection e1 with e1
      have e2 : w.ts = ts' := congrArg RS.ts e1
      rw [e2]
      exact Good1.of (hr.step (.single (.flip g2 hc.1 hc.2)) g3.ok) _ _ _ _ hph
  · exact .pure

theorem restoreCD_shows (hn : vs.length ≤ INF0) {ce : Edge} {ts0 : List Tri} {E : List Edge} (hr : Reach vs ts0) :
    ∀ (fuel : Nat) (s : RS), CInv vs ts0 s.ts s.v2t E s.diags → Shows (Good1 vs) (restoreCD vs ce fuel s)
  | 0, s, h => by
    unfold restoreCD
    split
    · exact .pure
    · exact .last
  | fuel + 1, s, h => by
    unfold restoreCD
    split
    · exact .pure
    · rename_i d rest he
      refine Shows.bind (restoreStepCD_shows hn h he (hr.step h.steps h.m.ok)) (restoreStepCD_quiet _ _ _ _) fun s' hs' => ?_
      obtain ⟨s1, h1, h2⟩ := restoreStepC_inv (ce := ce) hn h he
      rw [hs'] at h1
      cases h1
      refine restoreCD_shows (E := E) hn hr fuel s' ?_
      rcases h2 with h2 | h2
      · exact h2.2.mono
      · exact h2.2

theorem insertEdgeD_shows (hu : ∀ v ∈ vs, InUnit v) (hn : vs.length ≤ INF0) {ts0 : List Tri} {s : AC} (h : AInv vs ts0 s)
    {ce : Edge} (hocc : Occ s.ts ce.src) {fuel : Nat} (hr : Reach vs ts0) : Shows (Good1 vs) (insertEdgeD vs fuel ce s) := by
  unfold insertEdgeD
  refine Shows.lift fun A ha => Shows.lift fun B hb => Shows.lift fun l hl => ?_
  rw [getI_eq_ok] at ha hb
  cases l with
  | nil => exact .pure
  | cons d rest =>
    rcases registerEdges_geo hu hn h.m ha hb hocc hl with ⟨h0, _⟩ | ⟨d', rest', e, hF, hall, hdis, hlen, -, -⟩
    · simp at h0
    cases e
    have base : CInv vs ts0 s.ts s.v2t [] ((d :: rest) ++ []) := by
      refine ⟨h.m, h.steps, h.occ, [], rfl, by simp, ?_, ?_, by simp⟩
      · intro e he; rw [List.append_nil] at he; exact (hall e he).1
      · rw [List.append_nil]; exact hdis
    refine Shows.bind (removeCrossedD_shows hu hn ha hb hr fuel ⟨s.ts, s.v2t, d :: rest, [], 0⟩ base) (removeCrossedD_quiet _ _ _ _)
      fun rc hrc => ?_
    have h2 := (removeCrossed_inv (s := ⟨s.ts, s.v2t, d :: rest, [], 0⟩) hu hn ha hb base hrc).1
    exact Shows.bind (restoreCD_shows hn hr fuel ⟨rc.ts, rc.v2t, rc.diags, []⟩ h2) (restoreCD_quiet _ _ _ _) fun _ _ => .pure

theorem applyLoopD_shows (hu : ∀ v ∈ vs, InUnit v) (hn : vs.length ≤ INF0) {ts0 : List Tri} {merge : List Nat}
    (hmo : MergeOcc ts0 merge) {fuel : Nat} (hr : Reach vs ts0) : ∀ (es : List Edge) (s : AC), AInv vs ts0 s →
      Shows (Good1 vs) (applyLoopD vs fuel merge es s)
  | [], s, h => .pure
  | e :: es, s, h => by
    unfold applyLoopD
    refine Shows.advance fun b => ?_
    split
    · exact .pure
    refine Shows.bind ?_ (applyOneD_quiet _ _ _ _ _) fun s' hs' => ?_
    · unfold applyOneD
      refine Shows.lift fun a ha => Shows.lift fun b hb => ?_
      split
      · exact .pure
      split
      · exact .pure
      · rw [getI_eq_ok] at ha
        exact insertEdgeD_shows hu hn (s := { s with S := ⟨a, b⟩ :: s.S }) ⟨h.m, h.steps, h.occ⟩ (steps_occ h.steps (hmo _ _ ha)) hr
    · have : applyLoop vs fuel merge [e] s = .ok s' := by simp [applyLoop, hs']
      exact applyLoopD_shows hu hn hmo hr es s' (applyLoop_inv hu hn hmo h this).1

end

end CDT

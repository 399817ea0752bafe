import Verif.Proofs.PanicC
import Verif.Props.PanicC
import Verif.Props.Debug

/-!
# What the debug context records

Rules for following the recorded snapshots through the code of `Model/Debug.lean`. No law of arithmetic is used.
-/

set_option linter.unusedSectionVars false
set_option linter.unusedSimpArgs false
set_option linter.unusedVariables false

namespace CDT

namespace Spec
variable [IdCfg]

/-- A snapshot that refers to nothing that does not exist, for `n` input vertices. -/
structure SnapOk (n : Nat) (s : Snap) : Prop where
  /-- Vertices of triangles are input vertices or the four artificial ones. -/
  vert : ∀ t ∈ s.ts, ∀ k, t.v k < n ∨ t.v k = INF0 ∨ t.v k = INF1 ∨ t.v k = INF2 ∨ t.v k = INF3
  /-- Every triangle has an input vertex. -/
  real : ∀ t ∈ s.ts, ∃ k, t.v k < n
  /-- Except after the filter, neighbors are triangles of the snapshot. -/
  nbr : s.phase ≠ .filterTriangles → ∀ t ∈ s.ts, ∀ k, t.n k < s.ts.length ∨ t.n k = NONE
  /-- The triangles reported as changed are triangles of the snapshot. -/
  changed : ∀ i ∈ s.changed, i < s.ts.length
  /-- The vertex of a split is an input vertex. -/
  split : ∀ v, s.event = .split v → v < n
  /-- After the filter only input vertices are left. -/
  fin : s.phase = .filterTriangles → ∀ t ∈ s.ts, ∀ k, t.v k < n

/-- How the snapshot `b` may differ from the triangles before it: only triangles that it reports as changed have other vertices
(or exist at all); except after a split, other neighbors as well; after the filter no triangle is new. -/
structure Delta (ts : List Tri) (b : Snap) : Prop where
  verts : b.phase ≠ .filterTriangles → ∀ i, i ∉ b.changed → (b.ts[i]?).map Tri.verts = (ts[i]?).map Tri.verts
  whole : b.phase ≠ .filterTriangles → b.phase ≠ .splitTriangle → b.phase ≠ .splitQuad → ∀ i, i ∉ b.changed → b.ts[i]? = ts[i]?
  filter : b.phase = .filterTriangles → ∀ t ∈ b.ts, t ∈ ts

end Spec

section
variable [IdCfg]

/-- Everything is recorded. -/
def RecordsAll (c : DCtx) : Prop := c.cfg.phases = .all ∧ c.cfg.steps = .all

/-- The snapshots recorded so far, when the triangles are `ts`. -/
structure Log (n : Nat) (ts : List Tri) (c : DCtx) : Prop where
  ok : ∀ s ∈ c.snaps, Spec.SnapOk n s
  chain : RecordsAll c → c.snaps.IsChain fun a b => Spec.Delta a.ts b
  last : RecordsAll c → ∀ s ∈ c.snaps.getLast?, s.ts = ts

/-- `x`, started with the triangles `ts`, keeps the log; on success the triangles are as `Q` says. -/
def Tells {α : Type} (n : Nat) (ts : List Tri) (x : D α) (Q : α → List Tri → Prop) : Prop :=
  ∀ c, Log n ts c → (∃ ts', Log n ts' (x c).2) ∧ ∀ a, (x c).1 = .ok a → ∃ ts', Log n ts' (x c).2 ∧ Q a ts'

variable {α β : Type} {n : Nat} {ts : List Tri}

theorem Tells.pure {Q : α → List Tri → Prop} {a : α} (h : Q a ts) : Tells n ts (Pure.pure a : D α) Q := by
  intro c hc
  refine ⟨⟨ts, hc⟩, fun b hb => ?_⟩
  have : (Res.ok a : Res α) = .ok b := hb
  simp only [Res.ok.injEq] at this
  exact ⟨ts, hc, this ▸ h⟩

theorem Tells.fail {Q : α → List Tri → Prop} {y : Res α} (h : ∀ a, y ≠ .ok a) : Tells n ts (liftD y) Q :=
  fun c hc => ⟨⟨ts, hc⟩, fun b hb => absurd hb (h b)⟩

theorem Tells.bind {x : D α} {f : α → D β} {Q : α → List Tri → Prop} {R : β → List Tri → Prop} (h : Tells n ts x Q)
    (hf : ∀ a ts', Q a ts' → Tells n ts' (f a) R) : Tells n ts (x >>= f) R := by
  intro c hc
  have h1 := h c hc
  rw [D.bind_def]
  rcases hx : x c with ⟨r, c'⟩
  rw [hx] at h1
  obtain ⟨h1, h2⟩ := h1
  cases r with
  | ok a =>
    obtain ⟨ts', l, q⟩ := h2 a rfl
    exact hf a ts' q c' l
  | err e => exact ⟨h1, fun _ h => by simp at h⟩
  | panic => exact ⟨h1, fun _ h => by simp at h⟩
  | diverge => exact ⟨h1, fun _ h => by simp at h⟩

theorem Tells.lift {y : Res α} {f : α → D β} {R : β → List Tri → Prop} (hf : ∀ a, y = .ok a → Tells n ts (f a) R) :
    Tells n ts (liftD y >>= f) R := by
  intro c hc
  rw [D.bind_def]
  cases y with
  | ok a => exact hf a rfl c hc
  | err e => exact ⟨⟨ts, hc⟩, fun _ h => by simp [liftD] at h⟩
  | panic => exact ⟨⟨ts, hc⟩, fun _ h => by simp [liftD] at h⟩
  | diverge => exact ⟨⟨ts, hc⟩, fun _ h => by simp [liftD] at h⟩

theorem Tells.advance {f : Bool → D β} {R : β → List Tri → Prop} (hf : ∀ b, Tells n ts (f b) R) : Tells n ts (advanceStep >>= f) R := by
  intro c hc
  rw [D.bind_def]
  exact hf _ _ ⟨hc.ok, hc.chain, hc.last⟩

theorem Tells.mono {x : D α} {Q R : α → List Tri → Prop} (h : Tells n ts x Q) (hq : ∀ a ts', Q a ts' → R a ts') : Tells n ts x R :=
  fun c hc => ⟨(h c hc).1, fun a ha => by obtain ⟨ts', l, q⟩ := (h c hc).2 a ha; exact ⟨ts', l, hq a ts' q⟩⟩

/-- A value known by other means. -/
theorem Tells.quiet {x : D α} {y : Res α} {Q : α → List Tri → Prop} (h : Tells n ts x Q) (hq : Quiet x y) :
    Tells n ts x (fun a ts' => Q a ts' ∧ y = .ok a) :=
  fun c hc => ⟨(h c hc).1, fun a ha => by
    obtain ⟨ts', l, q⟩ := (h c hc).2 a ha
    exact ⟨ts', l, q, by rw [← (hq c).1]; exact ha⟩⟩

theorem pushEvent_all {c : DCtx} (h : RecordsAll c) (p : Phase) (e : Event) (ts : List Tri) (ids nbs : List Nat) :
    pushEvent p e ts ids nbs c =
      (.ok (), { c with snaps := c.snaps ++ [⟨c.step, p, e, ids ++ nbs.filter (fun n => decide (n ≠ NONE)), ts⟩] }) := by
  unfold pushEvent
  rw [h.1, h.2]
  rfl

theorem pushEvent_log {c : DCtx} {p : Phase} {e : Event} {ts' : List Tri} {ids nbs : List Nat} (hc : Log n ts c)
    (ho : ∀ k, Spec.SnapOk n ⟨k, p, e, ids ++ nbs.filter (fun n => decide (n ≠ NONE)), ts'⟩)
    (hd : c.snaps ≠ [] → ∀ k, Spec.Delta ts ⟨k, p, e, ids ++ nbs.filter (fun n => decide (n ≠ NONE)), ts'⟩) :
    Log n ts' (pushEvent p e ts' ids nbs c).2 := by
  by_cases ha : RecordsAll c
  · rw [pushEvent_all ha]
    refine ⟨?_, fun _ => ?_, fun _ s hs => ?_⟩
    · intro s hs
      rcases List.mem_append.1 hs with hs | hs
      · exact hc.ok s hs
      · simp only [List.mem_singleton] at hs
        subst hs
        exact ho _
    · refine List.IsChain.append (hc.chain ha) (List.isChain_singleton _) ?_
      intro x hx y hy
      simp only [List.head?_cons, Option.mem_def, Option.some.injEq] at hy
      subst hy
      rw [hc.last ha x hx]
      refine hd ?_ _
      rintro h0
      rw [h0] at hx
      simp at hx
    · simp only [List.getLast?_append, List.getLast?_singleton, Option.some_or, Option.mem_def, Option.some.injEq] at hs
      subst hs
      rfl
  · have hcfg : (pushEvent p e ts' ids nbs c).2.cfg = c.cfg := (Quiet.event p e ts' ids nbs c).2.1
    have hna : ¬ RecordsAll (pushEvent p e ts' ids nbs c).2 := by unfold RecordsAll; rw [hcfg]; exact ha
    refine ⟨?_, fun h => absurd h hna, fun h => absurd h hna⟩
    unfold pushEvent
    split
    · exact hc.ok
    · split
      · intro s hs
        rcases List.mem_append.1 hs with hs | hs
        · exact hc.ok s hs
        · simp only [List.mem_singleton] at hs
          subst hs
          exact ho _
      · exact hc.ok

theorem Tells.event {p : Phase} {e : Event} {ts' : List Tri} {ids nbs : List Nat} {f : Unit → D β} {R : β → List Tri → Prop}
    (ho : ∀ k, Spec.SnapOk n ⟨k, p, e, ids ++ nbs.filter (fun n => decide (n ≠ NONE)), ts'⟩)
    (hd : ∀ k, Spec.Delta ts ⟨k, p, e, ids ++ nbs.filter (fun n => decide (n ≠ NONE)), ts'⟩)
    (hf : Tells n ts' (f ()) R) : Tells n ts (pushEvent p e ts' ids nbs >>= f) R := by
  intro c hc
  have hl := pushEvent_log hc ho (fun _ => hd)
  have h1 := (Quiet.event p e ts' ids nbs c).1
  rw [D.bind_def]
  rcases hx : pushEvent p e ts' ids nbs c with ⟨r, c'⟩
  rw [hx] at hl h1
  simp only at h1
  subst h1
  exact hf c' hl

/-! ## Snapshots of a mesh whose ids are in range -/

theorem IdOk.cases {n v : Nat} (h : IdOk n v) : v < n ∨ v = INF0 ∨ v = INF1 ∨ v = INF2 ∨ v = INF3 := by
  have hb := IdCfg.big
  unfold IdOk at h
  unfold INF0 INF1 INF2 INF3 at *
  omega

theorem Sane.snap {k : Nat} {p : Phase} {e : Event} {ids : List Nat} (h : Sane n ts) (hp : p ≠ .filterTriangles)
    (hi : ∀ i ∈ ids, i < ts.length) (he : ∀ v, e = .split v → v < n) : Spec.SnapOk n ⟨k, p, e, ids, ts⟩ where
  vert := fun t ht k => (h.vert t ht k).cases
  real := h.real
  nbr := fun _ => h.nbr
  changed := hi
  split := he
  fin := fun h => absurd h hp

theorem mem_changed {ids nbs : List Nat} {m : Nat} (h1 : ∀ i ∈ ids, i < m) (h2 : ∀ i ∈ nbs, i < m ∨ i = NONE) :
    ∀ i ∈ ids ++ nbs.filter (fun n => decide (n ≠ NONE)), i < m := by
  intro i hi
  rcases List.mem_append.1 hi with hi | hi
  · exact h1 i hi
  · simp only [List.mem_filter, decide_eq_true_eq] at hi
    exact (h2 i hi.1).resolve_right hi.2

theorem updNb_at_verts {ts ts' : List Tri} {n o w : Nat} (h : updNb ts n o w = .ok ts') (i : Nat) :
    (ts'[i]?).map Tri.verts = (ts[i]?).map Tri.verts := by
  rcases updNb_ok h with ⟨_, rfl⟩ | ⟨_, t, ht, rfl⟩
  · rfl
  · rw [List.getElem?_set]
    split
    · rename_i e
      subst e
      have h0 := Tri.updN_v t o w 0
      have h1 := Tri.updN_v t o w 1
      have h2 := Tri.updN_v t o w 2
      simp only [Tri.v_0, Tri.v_1, Tri.v_2] at h0 h1 h2
      rw [if_pos (lt_of_getElem? ht), ht]
      simp only [Option.map_some, Tri.verts, h0, h1, h2]
    · rfl

theorem updNb_at {ts ts' : List Tri} {n o w : Nat} (h : updNb ts n o w = .ok ts') {i : Nat} (hi : i ≠ n) : ts'[i]? = ts[i]? := by
  rcases updNb_ok h with ⟨_, rfl⟩ | ⟨_, t, ht, rfl⟩
  · rfl
  · rw [List.getElem?_set_ne (by omega)]

theorem Delta.of_eq {k : Nat} {p : Phase} {e : Event} (hp : p ≠ .filterTriangles) : Spec.Delta ts ⟨k, p, e, [], ts⟩ :=
  ⟨fun _ _ _ => rfl, fun _ _ _ _ _ => rfl, fun h => absurd h hp⟩

/-! ## Insertion -/

variable {F : Type} [FloatOps F]

theorem split3D_tells {t p : Nat} (h : Sane n ts) (hp : p < n) (hl : ts.length + 1 ≤ IdCfg.maxId) :
    Tells n ts (split3D ts t p) (fun r ts' => ts' = r.1 ∧ split3 ts t p = .ok r) := by
  unfold split3D
  refine Tells.lift fun r hr => ?_
  have hs := (split3_sane h hp hl hr).1
  have hlen := split3_length hr
  obtain ⟨a, t3, ts1, h3, ha, h1, h2, -⟩ := split3_ok hr
  obtain ⟨e2, e3, -⟩ := nextId_of h3 (by omega)
  have ht := lt_of_getElem? ha
  refine Tells.event (fun k => hs.snap (by simp) ?_ ?_) (fun k => ⟨fun _ i hi => ?_, fun _ h => absurd rfl h, fun h => by simp at h⟩)
    (Tells.pure ⟨rfl, hr⟩)
  · intro i hi
    simp only [List.filter_nil, List.append_nil, List.mem_cons, List.not_mem_nil, or_false] at hi
    omega
  · rintro v hv
    simp only [Event.split.injEq] at hv
    omega
  · simp only [List.filter_nil, List.append_nil, List.mem_cons, List.not_mem_nil, or_false, not_or] at hi
    obtain ⟨i1, i2, i3⟩ := hi
    rw [updNb_at_verts h2, updNb_at_verts h1, List.getElem?_set_ne (by omega)]
    rcases Nat.lt_or_ge i ts.length with hlt | hge
    · rw [List.getElem?_append_left hlt]
    · rw [List.getElem?_eq_none (by simp; omega), List.getElem?_eq_none hge]

theorem split4D_tells {t p : Nat} {ei : Fin 3} {e : Edge} (h : Sane n ts) (hp : p < n) (hl : ts.length + 1 ≤ IdCfg.maxId)
    (hs : IdOk n e.src) (hd : IdOk n e.dst) :
    Tells n ts (split4D ts t ei e p) (fun r ts' => ts' = r.1 ∧ split4 ts t ei e p = .ok r) := by
  unfold split4D
  refine Tells.lift fun a ha => Tells.lift fun r hr => ?_
  rw [getI_eq_ok] at ha
  have hs := (split4_sane h hp hl hs hd hr).1
  have hlen := split4_length hr
  obtain ⟨a', b, t4, ts1, ha', h4, hb, h1, h2, -⟩ := split4_ok hr
  rw [ha] at ha'
  cases ha'
  obtain ⟨e2, e3, -⟩ := nextId_of h4 (by omega)
  have ht := lt_of_getElem? ha
  have ht2 := lt_of_getElem? hb
  refine Tells.event (fun k => hs.snap (by simp) ?_ ?_) (fun k => ⟨fun _ i hi => ?_, fun _ _ h => absurd rfl h, fun h => by simp at h⟩)
    (Tells.pure ⟨rfl, hr⟩)
  · intro i hi
    simp only [List.filter_nil, List.append_nil, List.mem_cons, List.not_mem_nil, or_false] at hi
    omega
  · rintro v hv
    simp only [Event.split.injEq] at hv
    omega
  · simp only [List.filter_nil, List.append_nil, List.mem_cons, List.not_mem_nil, or_false, not_or] at hi
    obtain ⟨i1, i2, i3, i4⟩ := hi
    rw [updNb_at_verts h2, updNb_at_verts h1, List.getElem?_set_ne (Ne.symm i2), List.getElem?_set_ne (Ne.symm i1)]
    rcases Nat.lt_or_ge i ts.length with hlt | hge
    · rw [List.getElem?_append_left hlt]
    · rw [List.getElem?_eq_none (by simp; omega), List.getElem?_eq_none hge]

theorem checkAndSwapD_tells {vs : List (Vtx F)} {p a b : Nat} {st : List (Nat × Nat)} {ts : List Tri} (h : Sane vs.length ts)
    (hp : p < vs.length) (ha : a < ts.length) (hb : b < ts.length) (hst : StackOk ts.length st) :
    Tells vs.length ts (checkAndSwapD vs p ts a b st) (fun r ts' => ts' = r.1 ∧ checkAndSwap vs p ts a b st = .ok r) := by
  have hq := checkAndSwapD_quiet vs p ts a b st
  suffices hh : Tells vs.length ts (checkAndSwapD vs p ts a b st) (fun r ts' => ts' = r.1) from hh.quiet hq
  unfold checkAndSwapD
  refine Tells.lift fun t2 ht2 => Tells.lift fun sw hsw => ?_
  split
  · refine Tells.lift fun t1 ht1 => Tells.lift fun ts1 h1 => Tells.lift fun ts2 h2 => ?_
    have hr : checkAndSwap vs p ts a b st = .ok (ts2, pushQ (pushQ st a (quadOf t2 a p).2.1) b (quadOf t2 a p).2.2) := by
      unfold checkAndSwap
      rw [ht2, Res.ok_bind]
      dsimp only
      rw [hsw, Res.ok_bind, if_pos ‹_›, ht1, Res.ok_bind, h1, Res.ok_bind, h2, Res.ok_bind]
    have hs := (checkAndSwap_sane h hp ha hb hst hr).1
    rw [getI_eq_ok] at ht1 ht2
    have l1 := updNb_length h1
    have l2 := updNb_length h2
    simp only [List.length_set] at l1
    obtain ⟨m1, m2⟩ := quadOf_nbrs (Q := fun j => j < ts.length ∨ j = NONE) t2 a p (h.nbr.get ht2)
    have n31 := h.nbr.get ht1 2
    simp only [Tri.n_2] at n31
    have key : ∀ i, i ∉ [a, b] ++ [(quadOf t2 a p).2.1, t1.n31].filter (fun n => decide (n ≠ NONE)) → ts2[i]? = ts[i]? := by
      intro i hi
      simp only [List.mem_append, List.mem_cons, List.not_mem_nil, or_false, List.mem_filter, decide_eq_true_eq, not_or, not_and, not_not] at hi
      obtain ⟨⟨i1, i2⟩, i3⟩ := hi
      have s1 : ts1[i]? = ts[i]? := by
        by_cases e : i = t1.n31
        · rcases updNb_ok h1 with ⟨_, rfl⟩ | ⟨hne, t, ht, rfl⟩
          · rw [List.getElem?_set_ne (Ne.symm i2), List.getElem?_set_ne (Ne.symm i1)]
          · exact absurd (e ▸ i3 (.inr e)) hne
        · rw [updNb_at h1 e, List.getElem?_set_ne (Ne.symm i2), List.getElem?_set_ne (Ne.symm i1)]
      by_cases e : i = (quadOf t2 a p).2.1
      · rcases updNb_ok h2 with ⟨_, e2⟩ | ⟨hne, t, ht, _⟩
        · rw [e2, s1]
        · exact absurd (e ▸ i3 (.inl e)) hne
      · rw [updNb_at h2 e, s1]
    refine Tells.event (fun k => hs.snap (by simp) (mem_changed ?_ ?_) (fun v hv => by simp at hv))
      (fun k => ⟨fun _ i hi => by rw [key i hi], fun _ _ _ i hi => key i hi, fun h => by simp at h⟩) (Tells.pure rfl)
    · intro i hi
      simp only [List.mem_cons, List.not_mem_nil, or_false] at hi
      dsimp only
      omega
    · intro i hi
      simp only [List.mem_cons, List.not_mem_nil, or_false] at hi
      dsimp only
      rcases hi with rfl | rfl <;> omega
  · exact Tells.pure rfl

theorem restoreD_tells {vs : List (Vtx F)} {p : Nat} (hp : p < vs.length) : ∀ (fuel : Nat) {ts : List Tri}
    {st : List (Nat × Nat)} (h : Sane vs.length ts) (hs : StackOk ts.length st),
    Tells vs.length ts (restoreD vs p fuel ts st) (fun r ts' => ts' = r)
  | 0, ts, [], h, hs => Tells.pure rfl
  | _ + 1, ts, [], h, hs => Tells.pure rfl
  | 0, ts, _ :: _, h, hs => Tells.fail (by simp)
  | fuel + 1, ts, (a, b) :: st, h, hs => by
    obtain ⟨ha, hb⟩ := hs (a, b) (by simp)
    have hs' : StackOk ts.length st := fun e he => hs e (by simp [he])
    refine Tells.bind (checkAndSwapD_tells h hp ha hb hs') ?_
    rintro r _ ⟨rfl, hr⟩
    obtain ⟨h1, h2⟩ := checkAndSwap_sane h hp ha hb hs' hr
    exact restoreD_tells hp fuel h1 h2

theorem finishInsertD_tells {vs : List (Vtx F)} {vid : Nat} (hp : vid < vs.length) (fuel : Nat) (m : Option (List Nat))
    {r : List Tri × List (Nat × Nat)} (h : Sane vs.length r.1) (hs : StackOk r.1.length r.2) :
    Tells vs.length r.1 (finishInsertD vs fuel vid m r) (fun s ts' => ts' = s.ts) := by
  refine Tells.bind (restoreD_tells hp fuel h hs) ?_
  rintro ts _ rfl
  exact Tells.lift fun tid _ => Tells.pure rfl

theorem insertVertexD_tells {vs : List (Vtx F)} {vid : Nat} (hp : vid < vs.length) (fuel : Nat) {s : DT} (h : Sane vs.length s.ts)
    (hl : s.ts.length + 1 ≤ IdCfg.maxId) : Tells vs.length s.ts (insertVertexD vs fuel s vid) (fun s' ts' => ts' = s'.ts) := by
  unfold insertVertexD
  refine Tells.lift fun p _ => Tells.lift fun pl hpl => ?_
  have hfm := findLoop_from hpl
  cases pl with
  | notFound => exact Tells.fail (by simp)
  | inside t =>
    refine Tells.bind (split3D_tells h hp hl) ?_
    rintro r _ ⟨rfl, hr⟩
    obtain ⟨h1, h2⟩ := split3_sane h hp hl hr
    exact finishInsertD_tells hp fuel _ h1 h2
  | onEdge t ei e =>
    obtain ⟨a, ha, he⟩ := hfm
    have hv := h.vert.get ha
    have hsrc : IdOk vs.length e.src := by rw [he]; exact hv _
    have hdst : IdOk vs.length e.dst := by rw [he]; exact hv _
    refine Tells.lift fun cs _ => ?_
    split
    · exact Tells.pure rfl
    · unfold insertOnEdgeD
      refine Tells.lift fun cd _ => ?_
      split
      · exact Tells.pure rfl
      · refine Tells.bind (split4D_tells h hp hl hsrc hdst) ?_
        rintro r _ ⟨rfl, hr⟩
        obtain ⟨h1, h2⟩ := split4_sane h hp hl hsrc hdst hr
        exact finishInsertD_tells hp fuel _ h1 h2

theorem insertAllD_tells {vs : List (Vtx F)} (hn : vs.length ≤ INF0) (fuel : Nat) : ∀ (l : List Nat) {s : DT} (hlt : ∀ v ∈ l, v < vs.length)
    (h : Sane vs.length s.ts) (ht : s.tid < s.ts.length) (hl : s.ts.length + 2 * l.length ≤ IdCfg.maxId),
    Tells vs.length s.ts (insertAllD vs fuel l s) (fun s' ts' => ts' = s'.ts ∧ Sane vs.length s'.ts ∧ s'.ts.length ≤ IdCfg.maxId)
  | [], s, hlt, h, ht, hl => Tells.pure ⟨rfl, h, by simpa using hl⟩
  | v :: l, s, hlt, h, ht, hl => by
    simp only [List.length_cons] at hl
    refine Tells.advance fun stop => ?_
    split
    · exact Tells.pure ⟨rfl, h, by omega⟩
    · refine Tells.bind ((insertVertexD_tells (hlt v (by simp)) fuel h (by omega)).quiet (insertVertexD_quiet vs fuel s v)) ?_
      rintro s' _ ⟨rfl, hs'⟩
      obtain ⟨a1, a2, a3⟩ := insertVertex_sane hn (hlt v (by simp)) h ht (by omega) hs'
      exact insertAllD_tells hn fuel l (fun w hw => hlt w (by simp [hw])) a1 a2 (by omega)

theorem wrapD_tells {vs : List (Vtx F)} (fuel b : Nat) (m : Option (List Nat)) (hn : 2 * vs.length + 2 ≤ NONE) {c : DCtx} (hc : c.snaps = []) :
    (∃ ts', Log vs.length ts' (wrapAndTriangulateD fuel b vs m c).2) ∧ ∀ s, (wrapAndTriangulateD fuel b vs m c).1 = .ok s →
      Log vs.length s.ts (wrapAndTriangulateD fuel b vs m c).2 ∧ Sane vs.length s.ts ∧ s.ts.length ≤ IdCfg.maxId := by
  have hb := IdCfg.big
  have hlog : ∀ ts, Log vs.length ts c := fun ts =>
    ⟨by rw [hc]; simp, by rw [hc]; intro _; exact List.isChain_nil, by rw [hc]; simp⟩
  unfold wrapAndTriangulateD
  rw [D.bind_def]
  cases hs : binSort b vs with
  | err e => exact ⟨⟨[], hlog _⟩, fun s h => by simp [liftD] at h⟩
  | panic => exact ⟨⟨[], hlog _⟩, fun s h => by simp [liftD] at h⟩
  | diverge => exact ⟨⟨[], hlog _⟩, fun s h => by simp [liftD] at h⟩
  | ok order =>
    cases order with
    | nil => exact ⟨⟨[], hlog _⟩, fun s h => by simp [liftD] at h⟩
    | cons first rest =>
      have hp := binSort_perm (by unfold NONE at hn; omega) hs
      obtain ⟨h1, h2, h3, h4, h5⟩ := perm_parts hp
      have hinf : vs.length ≤ INF0 := by unfold INF0; unfold NONE at hn; omega
      have hsane := initial_sane h1
      have hlast : lastId (initialTriangles first) = .ok 3 := by
        unfold lastId
        rw [if_neg (by simp [initialTriangles])]
        simp only [initialTriangles, List.length_cons, List.length_nil, Res.ok.injEq]
        unfold toId
        exact Nat.mod_eq_of_lt (by omega)
      have hlen : (initialTriangles first).length = 4 := rfl
      have hpush : Log vs.length (initialTriangles first) (pushSnap .firstVertexInsertion (initialTriangles first) [0] [] c).2 :=
        pushEvent_log (hlog []) (fun k => hsane.snap (by simp) (by intro i hi; simp at hi; simp [hi, hlen]) (by simp))
          (fun h => absurd hc h)
      have hall := insertAllD_tells hinf fuel rest (s := ⟨initialTriangles first, 3, m⟩) h4 hsane (show 3 < 4 by omega)
        (by rw [hlen]; unfold NONE at hn; omega) _ hpush
      have e : (liftD (lastId (initialTriangles first)) >>= fun tid => pushSnap .firstVertexInsertion (initialTriangles first) [0] [] >>= fun _ =>
          insertAllD vs fuel rest ⟨initialTriangles first, tid, m⟩) c =
          insertAllD vs fuel rest ⟨initialTriangles first, 3, m⟩ (pushSnap .firstVertexInsertion (initialTriangles first) [0] [] c).2 := by
        rw [hlast, D.bind_def]
        show (pushSnap .firstVertexInsertion (initialTriangles first) [0] [] >>= fun _ =>
          insertAllD vs fuel rest ⟨initialTriangles first, 3, m⟩) c = _
        rw [D.bind_def]
        have := (Quiet.snap .firstVertexInsertion (initialTriangles first) [0] [] c).1
        rcases hx : pushSnap .firstVertexInsertion (initialTriangles first) [0] [] c with ⟨r, c'⟩
        rw [hx] at this
        simp only at this
        subst this
        rfl
      simp only [liftD]
      show (∃ ts', Log vs.length ts' (((liftD (lastId (initialTriangles first)) >>= fun tid => pushSnap .firstVertexInsertion (initialTriangles first) [0] [] >>= fun _ =>
          insertAllD vs fuel rest ⟨initialTriangles first, tid, m⟩) c).2)) ∧ ∀ s, (((liftD (lastId (initialTriangles first)) >>= fun tid => pushSnap .firstVertexInsertion (initialTriangles first) [0] [] >>= fun _ =>
          insertAllD vs fuel rest ⟨initialTriangles first, tid, m⟩) c).1) = .ok s → Log vs.length s.ts (((liftD (lastId (initialTriangles first)) >>= fun tid => pushSnap .firstVertexInsertion (initialTriangles first) [0] [] >>= fun _ =>
          insertAllD vs fuel rest ⟨initialTriangles first, tid, m⟩) c).2) ∧ _
      rw [e]
      refine ⟨hall.1, fun s hs => ?_⟩
      obtain ⟨ts', l, rfl, q1, q2⟩ := hall.2 s hs
      exact ⟨l, q1, q2⟩

/-! ## Constraints -/

theorem Sane.swapC {n : Nat} {ts : List Tri} {v2t : List Nat} (h : Sane n ts) (hi : IdsC n ts v2t) {d : EdgeData} {q : Quad} {w : Swapped}
    (hf : d.f < ts.length) (ht : d.t < ts.length) (hq : IdOk n q.q1 ∧ IdOk n q.q2 ∧ IdOk n q.q3 ∧ IdOk n q.q4) (h4 : q.q4 < n)
    (hw : swapQuad ts v2t d q = .ok w) : Sane n w.ts := by
  have hid := hi.swap hf ht hq hw
  have hl := (swapQuad_length hw).1
  obtain ⟨tt, tf, ts1, v1, htt, htf, ettl, etfr, h1, h2, h3, h5⟩ := swapQuad_ok hw
  have hreal : ∀ {us us' : List Tri} {a o x : Nat}, updNb us a o x = .ok us' → (∀ t ∈ us, ∃ k, t.v k < n) → ∀ t ∈ us', ∃ k, t.v k < n := by
    intro us us' a o x hu hr
    rcases updNb_ok hu with ⟨_, rfl⟩ | ⟨_, t, ht, rfl⟩
    · exact hr
    · intro s hs
      rcases List.mem_or_eq_of_mem_set hs with hs | rfl
      · exact hr s hs
      · obtain ⟨k, hk⟩ := hr t (List.mem_of_getElem? ht)
        exact ⟨k, by rw [Tri.updN_v]; exact hk⟩
  refine ⟨hid.vert, hid.nbr, hreal h2 (hreal h1 ?_), ?_⟩
  · intro s hs
    rcases List.mem_or_eq_of_mem_set hs with hs | rfl
    · rcases List.mem_or_eq_of_mem_set hs with hs | rfl
      · exact h.real s hs
      · exact ⟨1, h4⟩
    · exact ⟨2, h4⟩
  · rintro he
    have := h.ne
    rw [he] at hl
    exact this (List.length_eq_zero_iff.1 hl.symm)

theorem swapQuadD_tells {n : Nat} {ts : List Tri} {v2t : List Nat} (h : Sane n ts) (hi : IdsC n ts v2t) {d : EdgeData} {q : Quad}
    (hf : d.f < ts.length) (ht : d.t < ts.length) (hq : IdOk n q.q1 ∧ IdOk n q.q2 ∧ IdOk n q.q3 ∧ IdOk n q.q4) (h4 : q.q4 < n) :
    Tells n ts (swapQuadD ts v2t d q) (fun w ts' => ts' = w.ts ∧ swapQuad ts v2t d q = .ok w) := by
  unfold swapQuadD
  refine Tells.lift fun w hw => ?_
  have hs := h.swapC hi hf ht hq h4 hw
  have hl := (swapQuad_length hw).1
  obtain ⟨tt, tf, ts1, v1, htt, htf, ettl, etfr, h1, h2, -, -⟩ := swapQuad_ok hw
  have n1 := hi.nbr.get htt (oppEdgeIdx (tt.vertexIndex q.q2))
  have n2 := hi.nbr.get htf (nextCcwEdge (oppEdgeIdx (tf.vertexIndex q.q2)))
  rw [← ettl] at n1
  rw [← etfr] at n2
  have key : ∀ i, i ∉ [d.f, d.t] ++ [w.ttl, w.tfr].filter (fun n => decide (n ≠ NONE)) → w.ts[i]? = ts[i]? := by
    intro i hi
    simp only [List.mem_append, List.mem_cons, List.not_mem_nil, or_false, List.mem_filter, decide_eq_true_eq, not_or, not_and, not_not] at hi
    obtain ⟨⟨i1, i2⟩, i3⟩ := hi
    have s1 : ts1[i]? = ts[i]? := by
      by_cases e : i = w.ttl
      · rcases updNb_ok h1 with ⟨_, rfl⟩ | ⟨hne, t, ht, rfl⟩
        · rw [List.getElem?_set_ne (Ne.symm i2), List.getElem?_set_ne (Ne.symm i1)]
        · exact absurd (e ▸ i3 (.inl e)) hne
      · rw [updNb_at h1 e, List.getElem?_set_ne (Ne.symm i2), List.getElem?_set_ne (Ne.symm i1)]
    by_cases e : i = w.tfr
    · rcases updNb_ok h2 with ⟨_, e2⟩ | ⟨hne, t, ht, _⟩
      · rw [e2, s1]
      · exact absurd (e ▸ i3 (.inr e)) hne
    · rw [updNb_at h2 e, s1]
  refine Tells.event (fun k => hs.snap (by simp) (mem_changed ?_ ?_) (fun v hv => by simp at hv))
      (fun k => ⟨fun _ i hi => by rw [key i hi], fun _ _ _ i hi => key i hi, fun h => by simp at h⟩) (Tells.pure ⟨rfl, hw⟩)
  · intro i hi
    simp only [List.mem_cons, List.not_mem_nil, or_false] at hi
    omega
  · intro i hi
    simp only [List.mem_cons, List.not_mem_nil, or_false] at hi
    rw [hl]
    rcases hi with rfl | rfl <;> assumption

section
variable {vs : List (Vtx F)} {cv : EV F}

theorem removeStepD_tells (hn : vs.length ≤ INF0) {s : RC} {d : EdgeData} {rest : List EdgeData} (h : RCOk vs cv s) (hs : Sane vs.length s.ts)
    (e : s.isects = d :: rest) :
    Tells vs.length s.ts (removeStepD vs cv d { s with isects := rest }) (fun s' ts' => ts' = s'.ts ∧ Sane vs.length s'.ts) := by
  obtain ⟨hf, ht, i1, i2⟩ := h.q1 d (by rw [e]; simp)
  unfold removeStepD
  split
  · exact Tells.fail (by simp)
  · refine Tells.lift fun q hq => Tells.lift fun r hr => ?_
    split
    · exact Tells.pure ⟨rfl, hs⟩
    · have hqq := toQuad_verts hq h.ids.vert ⟨i1, i2⟩
      have h4 : q.q4 < vs.length := by
        refine hqq.2.2.2.real ?_
        by_contra hc
        have := (quadDiag_panic_iff hn hqq.1 hqq.2.1 hqq.2.2.1 hqq.2.2.2).2 (.inl (by simpa using hc))
        rw [hr] at this
        simp at this
      refine Tells.bind (swapQuadD_tells hs h.ids hf ht hqq h4) ?_
      rintro w _ ⟨rfl, hw⟩
      have := hs.swapC h.ids hf ht hqq h4 hw
      refine Tells.lift fun x _ => ?_
      split <;> exact Tells.pure ⟨rfl, this⟩

theorem removeCrossedD_tells (hn : vs.length ≤ INF0) : ∀ (fuel : Nat) {s : RC} (h : RCOk vs cv s) (hs : Sane vs.length s.ts),
    Tells vs.length s.ts (removeCrossedD vs cv fuel s) (fun s' ts' => ts' = s'.ts ∧ Sane vs.length s'.ts)
  | 0, s, h, hs => by
    unfold removeCrossedD
    split
    · exact Tells.pure ⟨rfl, hs⟩
    · exact Tells.fail (by simp)
  | fuel + 1, s, h, hs => by
    unfold removeCrossedD
    split
    · exact Tells.pure ⟨rfl, hs⟩
    · rename_i d rest e
      refine Tells.bind ((removeStepD_tells hn h hs e).quiet (removeStepD_quiet _ _ _ _)) ?_
      rintro s' _ ⟨⟨rfl, h1⟩, h2⟩
      exact removeCrossedD_tells hn fuel (h.step e h2) h1

theorem restoreStepCD_tells {ce : Edge} {s : RS} {d : EdgeData} {rest : List EdgeData} (h : RSOk vs.length s) (hs : Sane vs.length s.ts)
    (e : s.diags = d :: rest) :
    Tells vs.length s.ts (restoreStepCD vs ce d { s with diags := rest }) (fun s' ts' => ts' = s'.ts ∧ Sane vs.length s'.ts) := by
  obtain ⟨hf, ht, i1, i2⟩ := h.q d (by rw [e]; simp)
  unfold restoreStepCD
  split
  · exact Tells.pure ⟨rfl, hs⟩
  · refine Tells.lift fun q hq => Tells.lift fun sw hsw => ?_
    split
    · rename_i hc
      simp only [Bool.and_eq_true] at hc
      have hqq := toQuad_verts hq h.ids.vert ⟨i1, i2⟩
      have h4 : q.q4 < vs.length := by
        refine hqq.2.2.2.real ?_
        by_contra hi
        unfold shouldSwapC at hsw
        rw [if_pos (by simp only [Bool.not_eq_false] at hi; simp [hi])] at hsw
        simp only [Res.ok.injEq] at hsw
        rw [← hsw] at hc
        simp at hc
      refine Tells.bind (swapQuadD_tells hs h.ids hf ht hqq h4) ?_
      rintro w _ ⟨rfl, hw⟩
      exact Tells.pure ⟨rfl, hs.swapC h.ids hf ht hqq h4 hw⟩
    · exact Tells.pure ⟨rfl, hs⟩

theorem restoreCD_tells {ce : Edge} : ∀ (fuel : Nat) {s : RS} (h : RSOk vs.length s) (hs : Sane vs.length s.ts),
    Tells vs.length s.ts (restoreCD vs ce fuel s) (fun s' ts' => ts' = s'.ts ∧ Sane vs.length s'.ts)
  | 0, s, h, hs => by
    unfold restoreCD
    split
    · exact Tells.pure ⟨rfl, hs⟩
    · exact Tells.fail (by simp)
  | fuel + 1, s, h, hs => by
    unfold restoreCD
    split
    · exact Tells.pure ⟨rfl, hs⟩
    · rename_i d rest e
      refine Tells.bind ((restoreStepCD_tells h hs e).quiet (restoreStepCD_quiet _ _ _ _)) ?_
      rintro s' _ ⟨⟨rfl, h1⟩, h2⟩
      exact restoreCD_tells fuel (h.step e h2) h1

theorem applyOneD_tells (hn : vs.length ≤ INF0) (fuel : Nat) {merge : List Nat} {e : Edge} {s : AC}
    (h : IdsC vs.length s.ts s.v2t) (hs : Sane vs.length s.ts) :
    Tells vs.length s.ts (applyOneD vs fuel merge e s) (fun s' ts' => ts' = s'.ts ∧ Sane vs.length s'.ts) := by
  unfold applyOneD
  refine Tells.lift fun a _ => Tells.lift fun b _ => ?_
  split
  · exact Tells.pure ⟨rfl, hs⟩
  split
  · exact Tells.pure ⟨rfl, hs⟩
  unfold insertEdgeD
  refine Tells.lift fun A _ => Tells.lift fun B _ => Tells.lift fun l hl => ?_
  cases l with
  | nil => exact Tells.pure ⟨rfl, hs⟩
  | cons d l =>
    have h1 := registered_ok hn h hl
    refine Tells.bind ((removeCrossedD_tells hn fuel h1 hs).quiet (removeCrossedD_quiet _ _ _ _)) ?_
    rintro rc _ ⟨⟨rfl, h2⟩, h3⟩
    have h4 := h1.run h3
    refine Tells.bind (restoreCD_tells (s := ⟨rc.ts, rc.v2t, rc.diags, []⟩) fuel ⟨h4.ids, h4.q2⟩ h2) ?_
    rintro rs _ ⟨rfl, h5⟩
    exact Tells.pure ⟨rfl, h5⟩

theorem applyLoopD_tells (hn : vs.length ≤ INF0) (fuel : Nat) {merge : List Nat} : ∀ (es : List Edge) {s : AC}
    (h : IdsC vs.length s.ts s.v2t) (hs : Sane vs.length s.ts),
    Tells vs.length s.ts (applyLoopD vs fuel merge es s) (fun s' ts' => ts' = s'.ts ∧ Sane vs.length s'.ts)
  | [], s, h, hs => Tells.pure ⟨rfl, hs⟩
  | e :: es, s, h, hs => by
    refine Tells.advance fun stop => ?_
    split
    · exact Tells.pure ⟨rfl, hs⟩
    · refine Tells.bind ((applyOneD_tells hn fuel h hs).quiet (applyOneD_quiet _ _ _ _ _)) ?_
      rintro s' _ ⟨⟨rfl, h1⟩, h2⟩
      exact applyLoopD_tells hn fuel es (applyOne_ids hn h h2) h1

end

/-! ## The filter -/

theorem emitD_mem {t : Tri} {l : List Tri} {x : Tri} (h : x ∈ emitD t l) : x ∈ l ∨ (x = t ∧ t.isFinite = true) := by
  unfold emitD at h
  split at h
  · rcases List.mem_append.1 h with h | h
    · exact .inl h
    · exact .inr ⟨by simpa using h, ‹_›⟩
  · exact .inl h

theorem exploreD_mem (S : List Edge) (ts : List Tri) : ∀ (fuel : Nat) (st : List Nat) (s : FloodD),
    (∀ t ∈ s.dbg, t ∈ ts ∧ t.isFinite = true) → ∀ r, exploreD S ts fuel st s = .ok r → ∀ t ∈ r.dbg, t ∈ ts ∧ t.isFinite = true
  | 0, [], s, h, r, hr => by simp [exploreD] at hr; subst hr; exact h
  | _ + 1, [], s, h, r, hr => by simp [exploreD] at hr; subst hr; exact h
  | 0, _ :: _, s, h, r, hr => by simp [exploreD] at hr
  | fuel + 1, n :: st, s, h, r, hr => by
    unfold exploreD at hr
    split at hr
    · exact exploreD_mem S ts fuel st s h r hr
    · rw [Res.bind_eq_ok] at hr
      obtain ⟨vis, _, hr⟩ := hr
      split at hr
      · exact exploreD_mem S ts fuel st s h r hr
      · rw [Res.bind_eq_ok] at hr
        obtain ⟨t, ht, hr⟩ := hr
        rw [getI_eq_ok] at ht
        refine exploreD_mem S ts fuel _ _ ?_ r hr
        intro x hx
        rcases emitD_mem hx with hx | ⟨rfl, hx⟩
        · exact h x hx
        · exact ⟨List.mem_of_getElem? ht, hx⟩

theorem floodLoopD_mem (S : List Edge) (ts : List Tri) (fuel : Nat) : ∀ (l : List Tri) (i : Nat) (s : FloodD), (∀ t ∈ l, t ∈ ts) →
    (∀ t ∈ s.dbg, t ∈ ts ∧ t.isFinite = true) → ∀ r, floodLoopD S ts fuel l i s = .ok r → ∀ t ∈ r.dbg, t ∈ ts ∧ t.isFinite = true
  | [], i, s, hl, h, r, hr => by simp [floodLoopD] at hr; subst hr; exact h
  | t :: l, i, s, hl, h, r, hr => by
    unfold floodLoopD at hr
    rw [Res.bind_eq_ok] at hr
    obtain ⟨vis, _, hr⟩ := hr
    split at hr
    · rw [Res.bind_eq_ok] at hr
      obtain ⟨s', hs', hr⟩ := hr
      refine floodLoopD_mem S ts fuel l _ _ (fun x hx => hl x (by simp [hx])) ?_ r hr
      refine exploreD_mem S ts fuel _ _ ?_ s' hs'
      intro x hx
      rcases emitD_mem hx with hx | ⟨rfl, hx⟩
      · exact h x hx
      · exact ⟨hl x (by simp), hx⟩
    · exact floodLoopD_mem S ts fuel l _ s (fun x hx => hl x (by simp [hx])) h r hr

theorem Sane.filtered {n k : Nat} {ts us : List Tri} (h : Sane n ts) (hu : ∀ t ∈ us, t ∈ ts ∧ t.isFinite = true) :
    Spec.SnapOk n ⟨k, .filterTriangles, .snapshot, [], us⟩ where
  vert := fun t ht k => (h.vert t (hu t ht).1 k).cases
  real := fun t ht => h.real t (hu t ht).1
  nbr := fun h => absurd rfl h
  changed := fun i hi => by simp at hi
  split := fun v hv => by simp at hv
  fin := fun _ t ht k => by
    obtain ⟨h1, h2⟩ := hu t ht
    refine (h.vert t h1 k).fin ?_
    simp only [Tri.isFinite, Bool.and_eq_true] at h2
    obtain ⟨⟨f1, f2⟩, f3⟩ := h2
    fin_cases k
    · exact f1
    · exact f2
    · exact f3

theorem cdtFilterD_tells {n : Nat} {ts : List Tri} (h : Sane n ts) (fuel : Nat) (S : List Edge) :
    Tells n ts (cdtFilterD fuel ts S) (fun o ts' => ts'.map Tri.verts = o) := by
  unfold cdtFilterD
  refine Tells.lift fun s hs => ?_
  have hm := floodLoopD_mem S ts fuel ts 0 ⟨List.replicate ts.length false, [], []⟩ (fun _ h => h) (by simp) s hs
  have he := (floodLoopD_eq S ts fuel ts 0 ⟨List.replicate ts.length false, [], []⟩ rfl).1 s hs
  exact Tells.event (fun k => h.filtered hm) (fun k => ⟨fun h => absurd rfl h, fun h => absurd rfl h, fun _ t ht => (hm t ht).1⟩)
    (Tells.pure he.2)

end

end CDT

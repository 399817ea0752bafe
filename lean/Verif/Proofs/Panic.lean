import Verif.Proofs.Generic
import Verif.Props.Simple

/-!
# Where the unconstrained triangulation can panic

No law of arithmetic is used here. The only thing known of the mesh is that ids are in range and that every triangle
has a vertex which is not artificial; this is kept by every operation whatever the predicates answer.
-/

set_option linter.unusedSectionVars false
set_option linter.unusedSimpArgs false
set_option linter.unusedVariables false

namespace CDT
open FloatOps

variable {F : Type} [FloatOps F] [IdCfg]

theorem Res.bind_ne_panic {α β : Type} {x : Res α} {f : α → Res β} (hx : x ≠ .panic)
    (hf : ∀ a, x = .ok a → f a ≠ .panic) : (x >>= f) ≠ .panic := by
  cases x with
  | ok a => exact hf a rfl
  | err e => simp
  | panic => exact absurd rfl hx
  | diverge => simp

theorem getI_ne_panic {α : Type} {l : List α} {i : Nat} (h : i < l.length) : getI l i ≠ .panic := by
  unfold getI; rw [List.getElem?_eq_getElem h]; simp

/-- An id of an input vertex or of an artificial one. -/
def IdOk (n v : Nat) : Prop := v < n ∨ (INF0 ≤ v ∧ v ≤ IdCfg.maxId)

/-- Ids are in range and every triangle has an input vertex. -/
structure Sane (n : Nat) (ts : List Tri) : Prop where
  vert : VertsIn (IdOk n) ts
  nbr : NbrsIn (fun j => j < ts.length ∨ j = NONE) ts
  real : ∀ t ∈ ts, ∃ k, t.v k < n
  ne : ts ≠ []

/-- Every triangle has the vertices of an old one, or `p` as its first vertex. -/
def FromOld (p : Nat) (ts ts' : List Tri) : Prop :=
  ∀ t ∈ ts', t.v1 = p ∨ ∃ s ∈ ts, ∀ k, t.v k = s.v k

theorem FromOld.refl (p : Nat) (ts : List Tri) : FromOld p ts ts := fun t ht => .inr ⟨t, ht, fun _ => rfl⟩

theorem FromOld.trans {p : Nat} {ts us ws : List Tri} (h : FromOld p ts us) (h' : FromOld p us ws) : FromOld p ts ws := by
  intro t ht
  rcases h' t ht with e | ⟨s, hs, e⟩
  · exact .inl e
  · rcases h s hs with e' | ⟨r, hr, e'⟩
    · left
      have := e 0
      simp only [Tri.v_0] at this
      rw [this, e']
    · exact .inr ⟨r, hr, fun k => by rw [e, e']⟩

theorem FromOld.set {p : Nat} {ts : List Tri} (i : Nat) (t : Tri) (h : t.v1 = p) : FromOld p ts (ts.set i t) := by
  intro s hs
  rcases List.mem_or_eq_of_mem_set hs with hs | rfl
  · exact .inr ⟨s, hs, fun _ => rfl⟩
  · exact .inl h

theorem FromOld.append {p : Nat} {ts us : List Tri} (h : ∀ t ∈ us, t.v1 = p) : FromOld p ts (ts ++ us) := by
  intro s hs
  rcases List.mem_append.1 hs with hs | hs
  · exact .inr ⟨s, hs, fun _ => rfl⟩
  · exact .inl (h s hs)

theorem updNb_fromOld {ts ts' : List Tri} {n o w p : Nat} (h : updNb ts n o w = .ok ts') : FromOld p ts ts' := by
  rcases updNb_ok h with ⟨_, rfl⟩ | ⟨_, t, ht, rfl⟩
  · exact .refl _ _
  · intro s hs
    rcases List.mem_or_eq_of_mem_set hs with hs | rfl
    · exact .inr ⟨s, hs, fun _ => rfl⟩
    · exact .inr ⟨t, List.mem_of_getElem? ht, fun k => Tri.updN_v _ _ _ _⟩

theorem split3_fromOld {ts : List Tri} {t1 p : Nat} {r : List Tri × List (Nat × Nat)} (h : split3 ts t1 p = .ok r) :
    FromOld p ts r.1 := by
  obtain ⟨t, t3, ts1, _, ht, h1, h2, _⟩ := split3_ok h
  refine .trans (.append ?_) (.trans (.set t1 _ ?_) (.trans (updNb_fromOld h1) (updNb_fromOld h2)))
  · simp
  · rfl

theorem split4_fromOld {ts : List Tri} {t1 : Nat} {ei : Fin 3} {e : Edge} {p : Nat}
    {r : List Tri × List (Nat × Nat)} (h : split4 ts t1 ei e p = .ok r) : FromOld p ts r.1 := by
  obtain ⟨a, b, t4, ts1, ha, _, hb, h1, h2, _⟩ := split4_ok h
  refine .trans (.append ?_) (.trans (.set t1 _ ?_) (.trans (.set (a.n ei) _ ?_) (.trans (updNb_fromOld h1) (updNb_fromOld h2))))
  · simp
  · rfl
  · rfl

theorem checkAndSwap_fromOld {vs : List (Vtx F)} {p : Nat} {ts : List Tri} {a b : Nat} {st : List (Nat × Nat)}
    {r : List Tri × List (Nat × Nat)} (h : checkAndSwap vs p ts a b st = .ok r) : FromOld p ts r.1 := by
  obtain ⟨t2, ht2, ⟨_, rfl⟩ | ⟨_, t1, ts1, _, h1, h2, _⟩⟩ := checkAndSwap_ok h
  · exact .refl _ _
  · have hq4 : (quadOf t2 a p).1.q4 = p := (quadOf_verts (Q := fun _ => True) t2 a p (by simp)).2.2.2
    exact .trans (.set a _ hq4) (.trans (.set b _ hq4) (.trans (updNb_fromOld h1) (updNb_fromOld h2)))

theorem Sane.step {n p : Nat} {ts ts' : List Tri} (h : Sane n ts) (hp : p < n) (hv : VertsIn (IdOk n) ts')
    (hn : NbrsIn (fun j => j < ts'.length ∨ j = NONE) ts') (hl : ts'.length ≠ 0) (ho : FromOld p ts ts') : Sane n ts' where
  vert := hv
  nbr := hn
  real := fun t ht => by
    rcases ho t ht with e | ⟨s, hs, e⟩
    · exact ⟨0, by simpa [e] using hp⟩
    · obtain ⟨k, hk⟩ := h.real s hs
      exact ⟨k, by rw [e]; exact hk⟩
  ne := by rintro rfl; simp at hl

/-! ## The search -/

theorem infLocal_ne_panic {v : Nat} (h : INF0 ≤ v) (h' : v ≤ IdCfg.maxId) : infLocal v ≠ .panic := by
  unfold infLocal
  have hb : 7 ≤ IdCfg.maxId := IdCfg.big
  have : v - INF0 ≤ 3 := by unfold INF0 at *; omega
  rw [if_neg (by omega)]
  generalize v - INF0 = d at this
  obtain rfl | rfl | rfl | rfl : d = 0 ∨ d = 1 ∨ d = 2 ∨ d = 3 := by omega
  all_goals simp

theorem IdOk.real {n v : Nat} (h : IdOk n v) (hf : isInf v = false) : v < n := by
  rw [isInf_false_iff] at hf
  rcases h with h | ⟨h, _⟩
  · exact h
  · omega

theorem IdOk.art {n v : Nat} (hn : n ≤ INF0) (h : IdOk n v) (hf : isInf v = true) : INF0 ≤ v ∧ v ≤ IdCfg.maxId := by
  rw [isInf_iff] at hf
  rcases h with h | h
  · omega
  · exact h

/-- The places of a walk: an existing triangle or no triangle. -/
def Walk.InRange (m : Nat) : Walk → Prop
  | .found _ => True
  | .go _ c => c < m ∨ c = NONE

theorem placement1_ne_panic {vs : List (Vtx F)} {p : Vtx F} {t : Tri} {tid prev cur : Nat} {i : Fin 3}
    (hv : ∀ k, IdOk vs.length (t.v k)) (hn : vs.length ≤ INF0) (hi : isInf (t.v i) = true)
    (ho : ∀ k, k ≠ i → isInf (t.v k) = false) : placement1 vs p t tid i prev cur ≠ .panic := by
  have h1 : nextCwVert i ≠ i := by fin_cases i <;> decide
  have h2 : nextCcwVert i ≠ i := by fin_cases i <;> decide
  have e := (hv i).art hn hi
  unfold placement1
  refine Res.bind_ne_panic (getI_ne_panic ((hv _).real (ho _ h1))) fun a _ =>
    Res.bind_ne_panic (getI_ne_panic ((hv _).real (ho _ h2))) fun b _ => ?_
  dsimp only
  split
  · simp
  · refine Res.bind_ne_panic (infLocal_ne_panic e.1 e.2) fun k _ => ?_
    repeat' split
    all_goals simp

theorem placement2_ne_panic {vs : List (Vtx F)} {p : Vtx F} {t : Tri} {tid prev cur : Nat} {i j k : Fin 3}
    (hv : ∀ k, IdOk vs.length (t.v k)) (hn : vs.length ≤ INF0) (hi : isInf (t.v i) = true) (hj : isInf (t.v j) = true)
    (hij : i ≠ j) (hk : isInf (t.v k) = false) : placement2 vs p t tid i j prev cur ≠ .panic := by
  have hki : k ≠ i := by rintro rfl; rw [hi] at hk; simp at hk
  have hkj : k ≠ j := by rintro rfl; rw [hj] at hk; simp at hk
  have ho : oppVertFromEdge i j = .ok k := by
    have : ∀ i j k : Fin 3, i ≠ j → k ≠ i → k ≠ j → oppVertFromEdge i j = .ok k := by decide
    exact this i j k hij hki hkj
  have hin : ∀ l, l ≠ k → isInf (t.v l) = true := by
    intro l hl
    have : ∀ i j k l : Fin 3, i ≠ j → k ≠ i → k ≠ j → l ≠ k → l = i ∨ l = j := by decide
    have := this i j k l hij hki hkj hl
    rcases this with rfl | rfl <;> assumption
  have e1 := (hv _).art hn (hin (nextCwVert k) (by fin_cases k <;> decide))
  have e2 := (hv _).art hn (hin (nextCcwVert k) (by fin_cases k <;> decide))
  unfold placement2
  rw [ho]
  simp only [Res.ok_bind]
  refine Res.bind_ne_panic (getI_ne_panic ((hv _).real hk)) fun f _ =>
    Res.bind_ne_panic (infLocal_ne_panic e1.1 e1.2) fun ka _ => ?_
  split
  · simp
  · refine Res.bind_ne_panic (infLocal_ne_panic e2.1 e2.2) fun kb _ => ?_
    repeat' split
    all_goals simp

theorem findStep_ne_panic {vs : List (Vtx F)} {p : Vtx F} {ts : List Tri} {prev cur : Nat} (h : Sane vs.length ts)
    (hn : vs.length ≤ INF0) (hc : cur < ts.length) : findStep vs p ts prev cur ≠ .panic := by
  unfold findStep
  refine Res.bind_ne_panic (getI_ne_panic hc) fun t ht => ?_
  rw [getI_eq_ok] at ht
  have hv := h.vert.get ht
  obtain ⟨k, hk⟩ := h.real t (List.mem_of_getElem? ht)
  have hkf : isInf (t.v k) = false := by rw [isInf_false_iff]; omega
  have e0 : t.v 0 = t.v1 := rfl
  have e1 : t.v 1 = t.v2 := rfl
  have e2 : t.v 2 = t.v3 := rfl
  have v0 := hv 0
  have v1 := hv 1
  have v2 := hv 2
  rw [e0] at v0
  rw [e1] at v1
  rw [e2] at v2
  unfold collectInfTri
  cases b1 : isInf t.v1 <;> cases b2 : isInf t.v2 <;> cases b3 : isInf t.v3
  · simp only [Bool.false_eq_true, if_false, List.append_nil, List.length_nil, Nat.zero_le, if_true, Res.ok_bind]
    refine Res.bind_ne_panic (getI_ne_panic (v0.real b1)) fun a _ => Res.bind_ne_panic (getI_ne_panic (v1.real b2)) fun b _ =>
      Res.bind_ne_panic (getI_ne_panic (v2.real b3)) fun c _ => ?_
    repeat' split
    all_goals simp
  · refine placement1_ne_panic (i := 2) hv hn b3 fun l hl => ?_
    fin_cases l <;> simp_all
  · refine placement1_ne_panic (i := 1) hv hn b2 fun l hl => ?_
    fin_cases l <;> simp_all
  · exact placement2_ne_panic (i := 1) (j := 2) (k := 0) hv hn b2 b3 (by decide) b1
  · refine placement1_ne_panic (i := 0) hv hn b1 fun l hl => ?_
    fin_cases l <;> simp_all
  · exact placement2_ne_panic (i := 0) (j := 2) (k := 1) hv hn b1 b3 (by decide) b2
  · exact placement2_ne_panic (i := 0) (j := 1) (k := 2) hv hn b1 b2 (by decide) b3
  · fin_cases k <;> simp_all

theorem placement1_go {vs : List (Vtx F)} {p : Vtx F} {t : Tri} {tid prev cur : Nat} {i : Fin 3} {w : Walk}
    (h : placement1 vs p t tid i prev cur = .ok w) : (∃ pl, w = .found pl) ∨ ∃ k, w = .go cur (t.n k) := by
  simp only [placement1, Res.bind_eq_ok] at h
  obtain ⟨a, _, b, _, h⟩ := h
  split at h
  · simp at h; exact .inr ⟨_, h.symm⟩
  simp only [Res.bind_eq_ok] at h
  obtain ⟨k, _, h⟩ := h
  repeat' split at h
  all_goals simp at h; subst h
  all_goals first | exact .inl ⟨_, rfl⟩ | exact .inr ⟨_, rfl⟩

theorem placement2_go {vs : List (Vtx F)} {p : Vtx F} {t : Tri} {tid prev cur : Nat} {i j : Fin 3} {w : Walk}
    (h : placement2 vs p t tid i j prev cur = .ok w) : (∃ pl, w = .found pl) ∨ ∃ k, w = .go cur (t.n k) := by
  simp only [placement2, Res.bind_eq_ok] at h
  obtain ⟨fi, _, a, _, k, _, h⟩ := h
  split at h
  · simp at h; exact .inr ⟨_, h.symm⟩
  simp only [Res.bind_eq_ok] at h
  obtain ⟨k', _, h⟩ := h
  repeat' split at h
  all_goals simp at h; subst h
  all_goals first | exact .inl ⟨_, rfl⟩ | exact .inr ⟨_, rfl⟩

theorem findStep_range {vs : List (Vtx F)} {p : Vtx F} {ts : List Tri} {prev cur : Nat} (h : Sane vs.length ts)
    {w : Walk} (hw : findStep vs p ts prev cur = .ok w) : w.InRange ts.length := by
  simp only [findStep, Res.bind_eq_ok] at hw
  obtain ⟨t, ht, inf, hinf, hw⟩ := hw
  rw [getI_eq_ok] at ht
  have hn := h.nbr.get ht
  have key : (∃ pl, w = .found pl) ∨ ∃ k, w = .go cur (t.n k) := by
    split at hw
    · simp only [Res.bind_eq_ok] at hw
      obtain ⟨a, _, b, _, c, _, hw⟩ := hw
      repeat' split at hw
      all_goals simp at hw; subst hw
      · exact .inr ⟨0, rfl⟩
      · exact .inr ⟨1, rfl⟩
      · exact .inr ⟨2, rfl⟩
      all_goals exact .inl ⟨_, rfl⟩
    · exact placement1_go hw
    · exact placement2_go hw
  rcases key with ⟨pl, rfl⟩ | ⟨k, rfl⟩
  · trivial
  · exact hn k

theorem findLoop_ne_panic {vs : List (Vtx F)} {p : Vtx F} {ts : List Tri} (h : Sane vs.length ts) (hn : vs.length ≤ INF0)
    (n prev cur : Nat) (hc : cur < ts.length ∨ cur = NONE) : findLoop vs p ts n prev cur ≠ .panic := by
  induction n generalizing prev cur with
  | zero => simp [findLoop]
  | succ n ih =>
    simp only [findLoop]
    split
    · simp
    · refine Res.bind_ne_panic (findStep_ne_panic h hn (hc.resolve_right ‹_›)) fun w hw => ?_
      have := findStep_range h hw
      cases w with
      | found pl => simp
      | go a b => exact ih a b this

/-! ## Mesh updates -/

theorem updNb_ne_panic {ts : List Tri} {n o w : Nat} (h : n < ts.length ∨ n = NONE) : updNb ts n o w ≠ .panic := by
  unfold updNb
  split
  · simp
  · exact Res.bind_ne_panic (getI_ne_panic (h.resolve_right ‹_›)) fun _ _ => by simp

theorem nextId_len {ts : List Tri} (hl : ts.length ≤ IdCfg.maxId) : nextId ts = ts.length := by
  unfold nextId toId; exact Nat.mod_eq_of_lt (by omega)

theorem addId_next {ts : List Tri} (hl : ts.length + 1 ≤ IdCfg.maxId) : addId (nextId ts) 1 = .ok (ts.length + 1) := by
  rw [nextId_len (by omega)]; unfold addId; rw [if_pos hl]

theorem split3_ne_panic {n : Nat} {ts : List Tri} {t p : Nat} (h : Sane n ts) (ht : t < ts.length)
    (hl : ts.length + 1 ≤ IdCfg.maxId) : split3 ts t p ≠ .panic := by
  unfold split3
  rw [addId_next hl]
  simp only [Res.ok_bind]
  refine Res.bind_ne_panic (getI_ne_panic ht) fun a ha => ?_
  rw [getI_eq_ok] at ha
  have hn := h.nbr.get ha
  have h0 := hn 0
  have h1 := hn 1
  simp only [Tri.n_0, Tri.n_1] at h0 h1
  refine Res.bind_ne_panic (updNb_ne_panic (by simp; omega)) fun ts1 h1' => ?_
  have := updNb_length h1'
  refine Res.bind_ne_panic (updNb_ne_panic (by rw [this]; simp; omega)) fun _ _ => by simp

/-- All neighbors are below `m` or missing. -/
abbrev NbrsLt (m : Nat) (ts : List Tri) : Prop := NbrsIn (fun j => j < m ∨ j = NONE) ts

theorem NbrsLt.mono {m m' : Nat} {ts : List Tri} (h : NbrsLt m ts) (hm : m ≤ m') : NbrsLt m' ts :=
  fun t ht k => (h t ht k).imp_left (lt_of_lt_of_le · hm)

/-- Entries of the stack are existing triangles. -/
def StackOk (m : Nat) (st : List (Nat × Nat)) : Prop := ∀ e ∈ st, e.1 < m ∧ e.2 < m

theorem pushQ_stackOk {m : Nat} {st : List (Nat × Nat)} {a b : Nat} (h : StackOk m st) (ha : a < m) (hb : b < m ∨ b = NONE) :
    StackOk m (pushQ st a b) := by
  unfold pushQ
  split
  · exact h
  · intro e he
    rcases List.mem_cons.1 he with rfl | he
    · exact ⟨ha, hb.resolve_right ‹_›⟩
    · exact h e he

theorem split3_sane {n : Nat} {ts : List Tri} {t p : Nat} (h : Sane n ts) (hp : p < n)
    (hl : ts.length + 1 ≤ IdCfg.maxId) {r : List Tri × List (Nat × Nat)} (hr : split3 ts t p = .ok r) :
    Sane n r.1 ∧ StackOk r.1.length r.2 := by
  have hlen := split3_length hr
  have ho := split3_fromOld hr
  have hv := split3_verts hr h.vert (.inl hp)
  obtain ⟨a, t3, ts1, h3, ha, h1, h2, hst⟩ := split3_ok hr
  obtain ⟨e2, e3, -⟩ := nextId_of h3 (by omega)
  have ht := lt_of_getElem? ha
  have hn := h.nbr.get ha
  have n0 := hn 0
  have n1 := hn 1
  have n2 := hn 2
  simp only [Tri.n_0, Tri.n_1, Tri.n_2] at n0 n1 n2
  constructor
  · refine h.step hp hv ?_ (by omega) ho
    rw [hlen]
    refine updNb_nbrs h2 (updNb_nbrs h1 (NbrsIn.set (NbrsIn.append (NbrsLt.mono h.nbr (by omega)) ?_) ?_) ?_) ?_
    · intro s hs
      simp only [List.mem_cons, List.not_mem_nil, or_false] at hs
      rw [forall_fin3]
      rcases hs with rfl | rfl <;> simp only [Tri.n_0, Tri.n_1, Tri.n_2] <;> refine ⟨?_, ?_, ?_⟩ <;> omega
    · rw [forall_fin3]
      simp only [Tri.n_0, Tri.n_1, Tri.n_2]
      refine ⟨?_, ?_, ?_⟩ <;> omega
    · omega
    · omega
  · rw [hst, hlen]
    refine pushQ_stackOk (pushQ_stackOk (pushQ_stackOk (fun e he => by simp at he) ?_ ?_) ?_ ?_) ?_ ?_ <;> omega

/-- `split4` panics only when there is no triangle behind the edge. -/
theorem split4_ne_panic {n : Nat} {ts : List Tri} {t p : Nat} {ei : Fin 3} {e : Edge} (h : Sane n ts) (ht : t < ts.length)
    (hl : ts.length + 1 ≤ IdCfg.maxId) (hne : ∀ a, ts[t]? = some a → a.n ei ≠ NONE) : split4 ts t ei e p ≠ .panic := by
  unfold split4
  rw [addId_next hl]
  simp only [Res.ok_bind]
  refine Res.bind_ne_panic (getI_ne_panic ht) fun a ha => ?_
  rw [getI_eq_ok] at ha
  have hn := h.nbr.get ha
  refine Res.bind_ne_panic (getI_ne_panic ((hn ei).resolve_right (hne a ha))) fun b hb => ?_
  rw [getI_eq_ok] at hb
  have hm := h.nbr.get hb
  have h1 := hn (nextCwEdge ei)
  have h2 := hm (vertNextCwEdge (b.vertexIndex (b.oppVertexId e)))
  refine Res.bind_ne_panic (updNb_ne_panic (by simp only [List.length_set, List.length_append, List.length_cons, List.length_nil]; omega)) fun ts1 h1' => ?_
  have := updNb_length h1'
  refine Res.bind_ne_panic (updNb_ne_panic (by rw [this]; simp only [List.length_set, List.length_append, List.length_cons, List.length_nil]; omega)) fun _ _ => by simp

theorem split4_panic {ts : List Tri} {t p : Nat} {ei : Fin 3} {e : Edge} (hl : ts.length + 1 ≤ IdCfg.maxId) {a : Tri}
    (ha : ts[t]? = some a) (hne : a.n ei = NONE) : split4 ts t ei e p = .panic := by
  unfold split4
  rw [addId_next hl, getI_of ha]
  simp only [Res.ok_bind]
  have : getI ts (a.n ei) = .panic := by
    unfold getI
    rw [hne, List.getElem?_eq_none (by unfold NONE; omega)]
  rw [this]
  rfl

theorem split4_sane {n : Nat} {ts : List Tri} {t p : Nat} {ei : Fin 3} {e : Edge} (h : Sane n ts) (hp : p < n)
    (hl : ts.length + 1 ≤ IdCfg.maxId) (hs : IdOk n e.src) (hd : IdOk n e.dst)
    {r : List Tri × List (Nat × Nat)} (hr : split4 ts t ei e p = .ok r) : Sane n r.1 ∧ StackOk r.1.length r.2 := by
  have hlen := split4_length hr
  have ho := split4_fromOld hr
  have hv := split4_verts hr h.vert (.inl hp) hs hd
  obtain ⟨a, b, t4, ts1, ha, h4, hb, h1, h2, hst⟩ := split4_ok hr
  obtain ⟨e2, e3, -⟩ := nextId_of h4 (by omega)
  have ht := lt_of_getElem? ha
  have ht2 := lt_of_getElem? hb
  have hn := h.nbr.get ha
  have hm := h.nbr.get hb
  have n1 := hn (nextCwEdge ei)
  have n2 := hn (nextCcwEdge ei)
  have n3 := hm (vertNextCcwEdge (b.vertexIndex (b.oppVertexId e)))
  have n4 := hm (vertNextCwEdge (b.vertexIndex (b.oppVertexId e)))
  constructor
  · refine h.step hp hv ?_ (by omega) ho
    rw [hlen]
    refine updNb_nbrs h2 (updNb_nbrs h1 (NbrsIn.set (NbrsIn.set (NbrsIn.append (NbrsLt.mono h.nbr (by omega)) ?_) ?_) ?_) ?_) ?_
    · intro s hs
      simp only [List.mem_cons, List.not_mem_nil, or_false] at hs
      rw [forall_fin3]
      rcases hs with rfl | rfl <;> simp only [Tri.n_0, Tri.n_1, Tri.n_2] <;> refine ⟨?_, ?_, ?_⟩ <;> omega
    · rw [forall_fin3]
      simp only [Tri.n_0, Tri.n_1, Tri.n_2]
      refine ⟨?_, ?_, ?_⟩ <;> omega
    · rw [forall_fin3]
      simp only [Tri.n_0, Tri.n_1, Tri.n_2]
      refine ⟨?_, ?_, ?_⟩ <;> omega
    · omega
    · omega
  · rw [hst, hlen]
    refine pushQ_stackOk (pushQ_stackOk (pushQ_stackOk (pushQ_stackOk (fun e he => by simp at he) ?_ ?_) ?_ ?_) ?_ ?_) ?_ ?_ <;> omega

/-! ## Restoration -/

theorem shouldSwap_ne_panic {vs : List (Vtx F)} {q : Quad} (hn : vs.length ≤ INF0) (h1 : IdOk vs.length q.q1) (h2 : IdOk vs.length q.q2)
    (h3 : IdOk vs.length q.q3) (h4 : q.q4 < vs.length) : shouldSwap vs q ≠ .panic := by
  have hfin : ∀ {v}, IdOk vs.length v → isFin v = true → v < vs.length := fun hv hf => by
    rw [isFin_iff] at hf
    rcases hv with hv | hv
    · exact hv
    · omega
  unfold shouldSwap
  split
  · simp
  · rename_i h3f
    have v3 : q.q3 < vs.length := h3.real (by simpa using h3f)
    cases f1 : isFin q.q1 <;> cases f2 : isFin q.q2
    · simp
    · simp only [Bool.false_and, Bool.false_eq_true, if_false, Bool.not_true, Bool.and_false, Bool.not_false, if_true]
      unfold inHalfPlane1
      exact Res.bind_ne_panic (getI_ne_panic (by exact v3)) fun _ _ => Res.bind_ne_panic (getI_ne_panic (by exact hfin h2 f2)) fun _ _ =>
        Res.bind_ne_panic (getI_ne_panic h4) fun _ _ => by simp
    · simp only [Bool.and_false, Bool.false_eq_true, if_false, Bool.not_true, Bool.false_and, Bool.not_false]
      unfold inHalfPlane1
      exact Res.bind_ne_panic (getI_ne_panic (by exact hfin h1 f1)) fun _ _ => Res.bind_ne_panic (getI_ne_panic (by exact v3)) fun _ _ =>
        Res.bind_ne_panic (getI_ne_panic h4) fun _ _ => by simp
    · simp only [Bool.and_self, if_true]
      exact Res.bind_ne_panic (getI_ne_panic (hfin h1 f1)) fun _ _ => Res.bind_ne_panic (getI_ne_panic (hfin h2 f2)) fun _ _ =>
        Res.bind_ne_panic (getI_ne_panic v3) fun _ _ => Res.bind_ne_panic (getI_ne_panic h4) fun _ _ => by simp

theorem checkAndSwap_ne_panic {vs : List (Vtx F)} {p : Nat} {ts : List Tri} {a b : Nat} {st : List (Nat × Nat)}
    (h : Sane vs.length ts) (hn : vs.length ≤ INF0) (hp : p < vs.length) (ha : a < ts.length) (hb : b < ts.length) :
    checkAndSwap vs p ts a b st ≠ .panic := by
  unfold checkAndSwap
  refine Res.bind_ne_panic (getI_ne_panic hb) fun t2 ht2 => ?_
  rw [getI_eq_ok] at ht2
  obtain ⟨q1, q2, q3, q4⟩ := quadOf_verts (Q := IdOk vs.length) t2 a p (h.vert.get ht2)
  obtain ⟨m1, m2⟩ := quadOf_nbrs (Q := fun j => j < ts.length ∨ j = NONE) t2 a p (h.nbr.get ht2)
  refine Res.bind_ne_panic (shouldSwap_ne_panic hn q1 q2 q3 (by rw [q4]; exact hp)) fun c _ => ?_
  split
  · refine Res.bind_ne_panic (getI_ne_panic ha) fun t1 ht1 => ?_
    rw [getI_eq_ok] at ht1
    have n31 := h.nbr.get ht1 2
    simp only [Tri.n_2] at n31
    refine Res.bind_ne_panic (updNb_ne_panic (by simpa using n31)) fun ts1 h1 => ?_
    have hl := updNb_length h1
    refine Res.bind_ne_panic (updNb_ne_panic (by rw [hl]; simpa using m1)) fun ts2 _ => by simp
  · simp

theorem checkAndSwap_sane {vs : List (Vtx F)} {p : Nat} {ts : List Tri} {a b : Nat} {st : List (Nat × Nat)}
    (h : Sane vs.length ts) (hp : p < vs.length) (ha : a < ts.length) (hb : b < ts.length) (hs : StackOk ts.length st)
    {r : List Tri × List (Nat × Nat)} (hr : checkAndSwap vs p ts a b st = .ok r) :
    Sane vs.length r.1 ∧ StackOk r.1.length r.2 := by
  have hlen := checkAndSwap_length hr
  have ho := checkAndSwap_fromOld hr
  have hv := checkAndSwap_verts hr h.vert (.inl hp)
  obtain ⟨t2, ht2, ⟨_, rfl⟩ | ⟨_, t1, ts1, ht1, h1, h2, hst⟩⟩ := checkAndSwap_ok hr
  · exact ⟨h, hs⟩
  · obtain ⟨m1, m2⟩ := quadOf_nbrs (Q := fun j => j < ts.length ∨ j = NONE) t2 a p (h.nbr.get ht2)
    have n12 := h.nbr.get ht1 0
    have n31 := h.nbr.get ht1 2
    simp only [Tri.n_0, Tri.n_2] at n12 n31
    constructor
    · refine h.step hp hv ?_ (by omega) ho
      rw [hlen]
      refine updNb_nbrs h2 (updNb_nbrs h1 (NbrsIn.set (NbrsIn.set h.nbr ?_) ?_) (.inl hb)) (.inl ha)
      · rw [forall_fin3]; exact ⟨n12, m1, .inl hb⟩
      · rw [forall_fin3]; exact ⟨.inl ha, m2, n31⟩
    · rw [hst, hlen]
      exact pushQ_stackOk (pushQ_stackOk hs ha m1) hb m2

theorem restore_sane {vs : List (Vtx F)} {p : Nat} (hn : vs.length ≤ INF0) (hp : p < vs.length) (fuel : Nat) {ts : List Tri}
    {st : List (Nat × Nat)} (h : Sane vs.length ts) (hs : StackOk ts.length st) :
    restore vs p fuel ts st ≠ .panic ∧ ∀ ts', restore vs p fuel ts st = .ok ts' → Sane vs.length ts' := by
  induction fuel generalizing ts st with
  | zero =>
    cases st with
    | nil => exact ⟨by simp [restore], fun ts' h' => by simp [restore] at h'; exact h' ▸ h⟩
    | cons x st => simp [restore]
  | succ n ih =>
    cases st with
    | nil => exact ⟨by simp [restore], fun ts' h' => by simp [restore] at h'; exact h' ▸ h⟩
    | cons x st =>
      obtain ⟨a, b⟩ := x
      obtain ⟨ha, hb⟩ := hs (a, b) (by simp)
      have hs' : StackOk ts.length st := fun e he => hs e (by simp [he])
      simp only [restore]
      constructor
      · refine Res.bind_ne_panic (checkAndSwap_ne_panic h hn hp ha hb) fun r hr => ?_
        obtain ⟨h', s'⟩ := checkAndSwap_sane h hp ha hb hs' hr
        exact (ih h' s').1
      · intro ts' h'
        rw [Res.bind_eq_ok] at h'
        obtain ⟨r, hr, h'⟩ := h'
        obtain ⟨h'', s'⟩ := checkAndSwap_sane h hp ha hb hs' hr
        exact (ih h'' s').2 ts' h'

theorem finishInsert_sane {vs : List (Vtx F)} {vid : Nat} (hn : vs.length ≤ INF0) (hp : vid < vs.length) (fuel : Nat)
    (m : Option (List Nat)) {r : List Tri × List (Nat × Nat)} (h : Sane vs.length r.1) (hs : StackOk r.1.length r.2) :
    finishInsert vs fuel vid m r ≠ .panic := by
  unfold finishInsert
  obtain ⟨h1, h2⟩ := restore_sane hn hp fuel h hs
  refine Res.bind_ne_panic h1 fun ts ht => Res.bind_ne_panic ?_ fun _ _ => by simp
  unfold lastId
  have := (h2 ts ht).ne
  rw [if_neg (by simpa using this)]
  simp

/-! ## One insertion -/

/-- What must happen for an insertion to panic: the vertex is placed on an edge behind which there is no triangle, and is
not merged with an end of this edge. -/
def OnBareEdge (vs : List (Vtx F)) (s : DT) (vid : Nat) : Prop :=
  ∃ p t ei e a, vs[vid]? = some p ∧ findPlacement vs p s.tid s.ts = .ok (.onEdge t ei e) ∧ s.ts[t]? = some a ∧
    a.n ei = NONE ∧ e = ⟨a.v ei, a.v (nextCwVert ei)⟩ ∧
    ∀ x, (x = e.src ∨ x = e.dst) → isFin x = true → ∃ b, vs[x]? = some b ∧ tooClose b p = false

theorem insertVertex_panic_iff {vs : List (Vtx F)} {vid : Nat} (hn : vs.length ≤ INF0) (hp : vid < vs.length) (fuel : Nat)
    {s : DT} (h : Sane vs.length s.ts) (ht : s.tid < s.ts.length) (hl : s.ts.length + 1 ≤ IdCfg.maxId) :
    insertVertex vs fuel s vid = .panic ↔ OnBareEdge vs s vid := by
  obtain ⟨p, hpp⟩ : ∃ p, vs[vid]? = some p := ⟨_, List.getElem?_eq_getElem hp⟩
  have hfp : findPlacement vs p s.tid s.ts ≠ .panic := findLoop_ne_panic h hn _ _ _ (.inl ht)
  have real : ∀ x, IdOk vs.length x → isFin x = true → ∃ b, vs[x]? = some b := fun x hx hf => by
    have : x < vs.length := hx.real (by rw [isInf_false_iff]; exact isFin_iff.1 hf)
    exact ⟨_, List.getElem?_eq_getElem this⟩
  unfold insertVertex OnBareEdge
  rw [getI_of hpp]
  simp only [Res.ok_bind]
  cases hpl : findPlacement vs p s.tid s.ts with
  | panic => exact absurd hpl hfp
  | err e =>
    simp only [Res.err_bind, reduceCtorEq, false_iff]
    rintro ⟨p', t, ei, e', a, hp', hpl', -⟩
    rw [hpp] at hp'; cases hp'
    rw [hpl] at hpl'; simp at hpl'
  | diverge =>
    simp only [Res.diverge_bind, reduceCtorEq, false_iff]
    rintro ⟨p', t, ei, e', a, hp', hpl', -⟩
    rw [hpp] at hp'; cases hp'
    rw [hpl] at hpl'; simp at hpl'
  | ok pl =>
    have hfm := findLoop_from hpl
    simp only [Res.ok_bind]
    cases pl with
    | notFound =>
      simp only [reduceCtorEq, false_iff]
      rintro ⟨p', t, ei, e', a, hp', hpl', -⟩
      rw [hpp] at hp'; cases hp'
      rw [hpl] at hpl'; simp at hpl'
    | inside t =>
      obtain ⟨a, ha⟩ := hfm
      have lhs : (do let r ← split3 s.ts t vid; finishInsert vs fuel vid s.merge r) ≠ .panic :=
        Res.bind_ne_panic (split3_ne_panic h (lt_of_getElem? ha) hl) fun r hr => by
          obtain ⟨h1, h2⟩ := split3_sane h hp hl hr
          exact finishInsert_sane hn hp fuel _ h1 h2
      simp only [lhs, false_iff]
      rintro ⟨p', t, ei, e', a, hp', hpl', -⟩
      rw [hpp] at hp'; cases hp'
      rw [hpl] at hpl'; simp at hpl'
    | onEdge t ei e =>
      obtain ⟨a, ha, he⟩ := hfm
      have hv := h.vert.get ha
      have hsrc : IdOk vs.length e.src := by rw [he]; exact hv _
      have hdst : IdOk vs.length e.dst := by rw [he]; exact hv _
      -- the last part of the insertion
      have core : (do let r ← split4 s.ts t ei e vid; finishInsert vs fuel vid s.merge r) = .panic ↔ a.n ei = NONE := by
        constructor
        · intro hpn
          by_contra hne
          refine absurd hpn (Res.bind_ne_panic (split4_ne_panic h (lt_of_getElem? ha) hl fun a' ha' => ?_) fun r hr => ?_)
          · rw [ha] at ha'; cases ha'; exact hne
          · obtain ⟨h1, h2⟩ := split4_sane h hp hl hsrc hdst hr
            exact finishInsert_sane hn hp fuel _ h1 h2
        · intro hne
          rw [split4_panic hl ha hne]; rfl
      have rhs : (∃ p' t' ei' e' a', vs[vid]? = some p' ∧ findPlacement vs p' s.tid s.ts = .ok (.onEdge t' ei' e') ∧
          s.ts[t']? = some a' ∧ a'.n ei' = NONE ∧ e' = ⟨a'.v ei', a'.v (nextCwVert ei')⟩ ∧
          ∀ x, (x = e'.src ∨ x = e'.dst) → isFin x = true → ∃ b, vs[x]? = some b ∧ tooClose b p' = false) ↔
          a.n ei = NONE ∧ ∀ x, (x = e.src ∨ x = e.dst) → isFin x = true → ∃ b, vs[x]? = some b ∧ tooClose b p = false := by
        constructor
        · rintro ⟨p', t', ei', e', a', hp', hpl', ha', hne, _, hx⟩
          rw [hpp] at hp'; cases hp'
          rw [hpl] at hpl'; cases hpl'
          rw [ha] at ha'; cases ha'
          exact ⟨hne, hx⟩
        · rintro ⟨hne, hx⟩
          exact ⟨p, t, ei, e, a, hpp, hpl, ha, hne, he, hx⟩
      rw [rhs]
      have step : ∀ (x : Nat) (J : Bool → Res DT), IdOk vs.length x →
          ((if isFin x = true then (do let b ← getI vs x; let c ← pure (tooClose b p); J c) else (do let c ← pure false; J c))
            = .panic ↔ ∃ c, J c = .panic ∧ (isFin x = true → ∃ b, vs[x]? = some b ∧ tooClose b p = c) ∧ (isFin x = false → c = false)) := by
        intro x J hx
        cases hf : isFin x with
        | false =>
          simp only [Bool.false_eq_true, if_false, Res.pure_eq, Res.ok_bind]
          simp
        | true =>
          obtain ⟨b, hb⟩ := real x hx hf
          simp only [if_true, getI_of hb, Res.ok_bind, Res.pure_eq]
          constructor
          · intro hj; exact ⟨_, hj, fun _ => ⟨b, hb, rfl⟩, by simp⟩
          · rintro ⟨c, hj, hc, -⟩
            obtain ⟨b', hb', rfl⟩ := hc trivial
            rw [hb] at hb'; cases hb'
            exact hj
      have inner : insertOnEdge vs fuel s vid p t ei e = .panic ↔
          a.n ei = NONE ∧ (isFin e.dst = true → ∃ b, vs[e.dst]? = some b ∧ tooClose b p = false) := by
        unfold insertOnEdge
        refine (step e.dst (fun c => if c = true then Res.ok { s with merge := setMerge s.merge vid e.dst } else do
          let r ← split4 s.ts t ei e vid
          finishInsert vs fuel vid s.merge r) hdst).trans ?_
        constructor
        · rintro ⟨c, hj, hc, _⟩
          cases c with
          | true => simp at hj
          | false =>
            simp only [Bool.false_eq_true, if_false] at hj
            exact ⟨core.1 hj, hc⟩
        · rintro ⟨hne, hc⟩
          refine ⟨false, ?_, hc, fun _ => rfl⟩
          simp only [Bool.false_eq_true, if_false]
          exact core.2 hne
      refine (step e.src (fun c => if c = true then Res.ok { s with merge := setMerge s.merge vid e.src } else
        insertOnEdge vs fuel s vid p t ei e) hsrc).trans ?_
      constructor
      · rintro ⟨c, hj, hc, _⟩
        cases c with
        | true => simp at hj
        | false =>
          simp only [Bool.false_eq_true, if_false] at hj
          obtain ⟨hne, hd⟩ := inner.1 hj
          refine ⟨hne, ?_⟩
          rintro x (rfl | rfl) hf
          · exact hc hf
          · exact hd hf
      · rintro ⟨hne, hx⟩
        refine ⟨false, ?_, hx _ (.inl rfl), fun _ => rfl⟩
        simp only [Bool.false_eq_true, if_false]
        exact inner.2 ⟨hne, hx _ (.inr rfl)⟩

theorem insertVertex_sane {vs : List (Vtx F)} {vid : Nat} (hn : vs.length ≤ INF0) (hp : vid < vs.length) {fuel : Nat}
    {s s' : DT} (h : Sane vs.length s.ts) (ht : s.tid < s.ts.length) (hl : s.ts.length + 2 ≤ IdCfg.maxId)
    (hr : insertVertex vs fuel s vid = .ok s') :
    Sane vs.length s'.ts ∧ s'.tid < s'.ts.length ∧ s'.ts.length ≤ s.ts.length + 2 := by
  have fin : ∀ {ts : List Tri} {tid : Nat}, Sane vs.length ts → ts.length ≤ IdCfg.maxId → lastId ts = .ok tid → tid < ts.length := by
    intro ts tid h' hl' hid
    have := h'.ne
    have hpos : 0 < ts.length := List.length_pos_iff.2 this
    unfold lastId at hid
    rw [if_neg (by omega)] at hid
    simp only [Res.ok.injEq] at hid
    unfold toId at hid
    rw [Nat.mod_eq_of_lt (by omega)] at hid
    omega
  obtain ⟨p, pl, _, hpl, ⟨t, r, rfl, hr, hts, hid, _⟩ | ⟨t, ei, e, r, rfl, hr, hts, hid, _⟩ |
    ⟨t, ei, e, x, a, _, _, _, _, _, rfl⟩⟩ := insertVertex_ok hr
  · obtain ⟨h1, h2⟩ := split3_sane h hp (by omega) hr
    have h3 := (restore_sane hn hp fuel h1 h2).2 _ hts
    have hlen : s'.ts.length = s.ts.length + 2 := by rw [restore_length hts, split3_length hr]
    exact ⟨h3, fin h3 (by omega) hid, by omega⟩
  · obtain ⟨tt, htt, he⟩ := findLoop_from hpl
    have hv := h.vert.get htt
    obtain ⟨h1, h2⟩ := split4_sane h hp (by omega) (by rw [he]; exact hv _) (by rw [he]; exact hv _) hr
    have h3 := (restore_sane hn hp fuel h1 h2).2 _ hts
    have hlen : s'.ts.length = s.ts.length + 2 := by rw [restore_length hts, split4_length hr]
    exact ⟨h3, fin h3 (by omega) hid, by omega⟩
  · exact ⟨h, ht, by simp⟩

/-- The insertion loop panics exactly when some vertex is placed on an edge without a triangle behind it. -/
theorem insertAll_panic_iff {vs : List (Vtx F)} (hn : vs.length ≤ INF0) (fuel : Nat) (l : List Nat) (hlt : ∀ v ∈ l, v < vs.length)
    {s : DT} (h : Sane vs.length s.ts) (ht : s.tid < s.ts.length) (hl : s.ts.length + 2 * l.length ≤ IdCfg.maxId) :
    insertAll vs fuel l s = .panic ↔
      ∃ pre vid rest s', l = pre ++ vid :: rest ∧ insertAll vs fuel pre s = .ok s' ∧ OnBareEdge vs s' vid := by
  induction l generalizing s with
  | nil => simp [insertAll]
  | cons v l ih =>
    simp only [List.length_cons] at hl
    have hv := hlt v (by simp)
    have iff1 := insertVertex_panic_iff hn hv fuel h ht (by omega)
    simp only [insertAll]
    constructor
    · intro hpn
      cases hi : insertVertex vs fuel s v with
      | panic => exact ⟨[], v, l, s, rfl, rfl, iff1.1 hi⟩
      | err e => rw [hi] at hpn; simp at hpn
      | diverge => rw [hi] at hpn; simp at hpn
      | ok s1 =>
        rw [hi] at hpn
        simp only [Res.ok_bind] at hpn
        obtain ⟨h1, h2, h3⟩ := insertVertex_sane hn hv h ht (by omega) hi
        obtain ⟨pre, vid, rest, s', e, hpre, hb⟩ := (ih (fun w hw => hlt w (by simp [hw])) h1 h2 (by omega)).1 hpn
        refine ⟨v :: pre, vid, rest, s', by rw [e]; rfl, ?_, hb⟩
        simp only [insertAll, hi, Res.ok_bind, hpre]
    · rintro ⟨pre, vid, rest, s', e, hpre, hb⟩
      cases pre with
      | nil =>
        simp only [List.nil_append, List.cons.injEq] at e
        obtain ⟨rfl, rfl⟩ := e
        simp only [insertAll, Res.ok.injEq] at hpre
        subst hpre
        rw [iff1.2 hb]; rfl
      | cons w pre =>
        simp only [List.cons_append, List.cons.injEq] at e
        obtain ⟨rfl, e⟩ := e
        simp only [insertAll, Res.bind_eq_ok] at hpre
        obtain ⟨s1, hi, hpre⟩ := hpre
        obtain ⟨h1, h2, h3⟩ := insertVertex_sane hn hv h ht (by omega) hi
        rw [hi]
        simp only [Res.ok_bind]
        exact (ih (fun w hw => hlt w (by simp [hw])) h1 h2 (by omega)).2 ⟨pre, vid, rest, s', e, hpre, hb⟩

theorem initial_sane {n first : Nat} (hf : first < n) : Sane n (initialTriangles first) := by
  have hb : 7 ≤ IdCfg.maxId := IdCfg.big
  refine ⟨?_, ?_, ?_, by simp [initialTriangles]⟩
  · intro t ht
    simp only [initialTriangles, List.mem_cons, List.not_mem_nil, or_false] at ht
    rw [forall_fin3]
    unfold IdOk INF0 at *
    rcases ht with rfl | rfl | rfl | rfl <;> simp only [Tri.v_0, Tri.v_1, Tri.v_2, INF0, INF1, INF2, INF3] <;> omega
  · intro t ht
    simp only [initialTriangles, List.mem_cons, List.not_mem_nil, or_false] at ht
    rw [forall_fin3]
    rcases ht with rfl | rfl | rfl | rfl <;> simp [initialTriangles]
  · intro t ht
    simp only [initialTriangles, List.mem_cons, List.not_mem_nil, or_false] at ht
    rcases ht with rfl | rfl | rfl | rfl <;> exact ⟨0, hf⟩

end CDT

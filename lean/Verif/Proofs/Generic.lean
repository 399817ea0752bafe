import Verif.Proofs.BinSort

/-! Invariants that hold for every arithmetic: which vertex ids and neighbor ids occur in the mesh,
how many triangles there are. -/

set_option linter.unusedSectionVars false
set_option linter.unusedSimpArgs false
set_option linter.unusedVariables false

namespace CDT
open FloatOps

variable {F : Type} [FloatOps F] [IdCfg]

/-- All vertices of all triangles satisfy `Q`. -/
def VertsIn (Q : Nat → Prop) (ts : List Tri) : Prop := ∀ t ∈ ts, ∀ k, Q (t.v k)
/-- All neighbors of all triangles satisfy `R`. -/
def NbrsIn (R : Nat → Prop) (ts : List Tri) : Prop := ∀ t ∈ ts, ∀ k, R (t.n k)

theorem forall_fin3 {P : Fin 3 → Prop} : (∀ k, P k) ↔ P 0 ∧ P 1 ∧ P 2 := by
  constructor
  · intro h; exact ⟨h 0, h 1, h 2⟩
  · rintro ⟨h0, h1, h2⟩ k; fin_cases k <;> assumption

@[simp] theorem Tri.v_0 (t : Tri) : t.v 0 = t.v1 := rfl
@[simp] theorem Tri.v_1 (t : Tri) : t.v 1 = t.v2 := rfl
@[simp] theorem Tri.v_2 (t : Tri) : t.v 2 = t.v3 := rfl
@[simp] theorem Tri.n_0 (t : Tri) : t.n 0 = t.n12 := rfl
@[simp] theorem Tri.n_1 (t : Tri) : t.n 1 = t.n23 := rfl
@[simp] theorem Tri.n_2 (t : Tri) : t.n 2 = t.n31 := rfl

theorem VertsIn.set {Q : Nat → Prop} {ts : List Tri} (h : VertsIn Q ts) {i : Nat} {t : Tri}
    (ht : ∀ k, Q (t.v k)) : VertsIn Q (ts.set i t) := by
  intro s hs
  rcases List.mem_or_eq_of_mem_set hs with hs | rfl
  · exact h s hs
  · exact ht

theorem NbrsIn.set {Q : Nat → Prop} {ts : List Tri} (h : NbrsIn Q ts) {i : Nat} {t : Tri}
    (ht : ∀ k, Q (t.n k)) : NbrsIn Q (ts.set i t) := by
  intro s hs
  rcases List.mem_or_eq_of_mem_set hs with hs | rfl
  · exact h s hs
  · exact ht

theorem VertsIn.append {Q : Nat → Prop} {ts us : List Tri} (h : VertsIn Q ts) (h' : VertsIn Q us) :
    VertsIn Q (ts ++ us) := by
  intro s hs
  rcases List.mem_append.1 hs with hs | hs
  · exact h s hs
  · exact h' s hs

theorem NbrsIn.append {Q : Nat → Prop} {ts us : List Tri} (h : NbrsIn Q ts) (h' : NbrsIn Q us) :
    NbrsIn Q (ts ++ us) := by
  intro s hs
  rcases List.mem_append.1 hs with hs | hs
  · exact h s hs
  · exact h' s hs

theorem VertsIn.get {Q : Nat → Prop} {ts : List Tri} (h : VertsIn Q ts) {i : Nat} {t : Tri}
    (ht : ts[i]? = some t) (k : Fin 3) : Q (t.v k) := h t (List.mem_of_getElem? ht) k

theorem NbrsIn.get {Q : Nat → Prop} {ts : List Tri} (h : NbrsIn Q ts) {i : Nat} {t : Tri}
    (ht : ts[i]? = some t) (k : Fin 3) : Q (t.n k) := h t (List.mem_of_getElem? ht) k

theorem Tri.updN_v (t : Tri) (o n : Nat) (k : Fin 3) : (t.updN o n).v k = t.v k := by
  unfold Tri.updN
  split
  · fin_cases k <;> rfl
  · split
    · fin_cases k <;> rfl
    · split <;> fin_cases k <;> rfl

theorem Tri.updN_n (t : Tri) (o n : Nat) (k : Fin 3) :
    (t.updN o n).n k = t.n k ∨ (t.updN o n).n k = n := by
  unfold Tri.updN
  split
  · fin_cases k <;> simp
  · split
    · fin_cases k <;> simp
    · split <;> fin_cases k <;> simp

theorem updNb_ok {ts ts' : List Tri} {n o w : Nat} (h : updNb ts n o w = .ok ts') :
    (n = NONE ∧ ts' = ts) ∨ (n ≠ NONE ∧ ∃ t, ts[n]? = some t ∧ ts' = ts.set n (t.updN o w)) := by
  unfold updNb at h
  split at h
  · left; simp_all
  · right
    rw [Res.bind_eq_ok] at h
    obtain ⟨t, ht, h⟩ := h
    rw [getI_eq_ok] at ht
    simp at h
    exact ⟨‹_›, t, ht, h.symm⟩

theorem updNb_length {ts ts' : List Tri} {n o w : Nat} (h : updNb ts n o w = .ok ts') :
    ts'.length = ts.length := by
  rcases updNb_ok h with ⟨_, rfl⟩ | ⟨_, t, _, rfl⟩ <;> simp

theorem updNb_verts {Q : Nat → Prop} {ts ts' : List Tri} {n o w : Nat}
    (h : updNb ts n o w = .ok ts') (hv : VertsIn Q ts) : VertsIn Q ts' := by
  rcases updNb_ok h with ⟨_, rfl⟩ | ⟨_, t, ht, rfl⟩
  · exact hv
  · exact hv.set fun k => by rw [Tri.updN_v]; exact hv.get ht k

theorem updNb_nbrs {Q : Nat → Prop} {ts ts' : List Tri} {n o w : Nat}
    (h : updNb ts n o w = .ok ts') (hv : NbrsIn Q ts) (hw : Q w) : NbrsIn Q ts' := by
  rcases updNb_ok h with ⟨_, rfl⟩ | ⟨_, t, ht, rfl⟩
  · exact hv
  · exact hv.set fun k => by
      rcases Tri.updN_n t o w k with e | e <;> rw [e]
      · exact hv.get ht k
      · exact hw

theorem updNb_ne_diverge (ts : List Tri) (n o w : Nat) : updNb ts n o w ≠ .diverge := by
  unfold updNb
  split
  · simp
  · exact Res.bind_ne_diverge (getI_ne_diverge _ _) (by simp)

theorem nextId_of {ts : List Tri} {k : Nat} (h : addId (nextId ts) 1 = .ok k)
    (hl : ts.length ≤ IdCfg.maxId) : nextId ts = ts.length ∧ k = ts.length + 1 ∧
      ts.length + 1 ≤ IdCfg.maxId := by
  have e : nextId ts = ts.length := by
    unfold nextId toId; exact Nat.mod_eq_of_lt (by omega)
  rw [e] at h
  unfold addId at h
  split at h
  · simp at h; exact ⟨e, h.symm, by omega⟩
  · simp at h

/-- What a successful `split3` did. -/
theorem split3_ok {ts : List Tri} {t1 p : Nat} {r : List Tri × List (Nat × Nat)}
    (h : split3 ts t1 p = .ok r) :
    ∃ t t3 ts1 , addId (nextId ts) 1 = .ok t3 ∧ ts[t1]? = some t ∧
      updNb ((ts ++ [(⟨p, t.v2, t.v3, t3, t.n23, t1⟩ : Tri), ⟨p, t.v1, t.v2, t1, t.n12, nextId ts⟩]).set t1
        ⟨p, t.v3, t.v1, nextId ts, t.n31, t3⟩) t.n12 t1 t3 = .ok ts1 ∧
      updNb ts1 t.n23 t1 (nextId ts) = .ok r.1 ∧
      r.2 = pushQ (pushQ (pushQ [] t3 t.n12) (nextId ts) t.n23) t1 t.n31 := by
  simp only [split3, Res.bind_eq_ok] at h
  obtain ⟨t3, h3, t, ht, ts1, h1, ts2, h2, he⟩ := h
  rw [getI_eq_ok] at ht
  simp only [Res.ok.injEq] at he
  subst he
  exact ⟨t, t3, ts1, h3, ht, h1, h2, rfl⟩

theorem split3_length {ts : List Tri} {t1 p : Nat} {r : List Tri × List (Nat × Nat)}
    (h : split3 ts t1 p = .ok r) : r.1.length = ts.length + 2 := by
  obtain ⟨t, t3, ts1, _, _, h1, h2, _⟩ := split3_ok h
  rw [updNb_length h2, updNb_length h1]; simp

theorem split3_verts {Q : Nat → Prop} {ts : List Tri} {t1 p : Nat}
    {r : List Tri × List (Nat × Nat)} (h : split3 ts t1 p = .ok r) (hv : VertsIn Q ts) (hp : Q p) :
    VertsIn Q r.1 := by
  obtain ⟨t, t3, ts1, _, ht, h1, h2, _⟩ := split3_ok h
  have a := hv.get ht 0
  have b := hv.get ht 1
  have c := hv.get ht 2
  refine updNb_verts h2 (updNb_verts h1 (VertsIn.set (VertsIn.append hv ?_) ?_))
  · intro s hs
    simp only [List.mem_cons, List.not_mem_nil, or_false] at hs
    rw [forall_fin3]
    rcases hs with rfl | rfl <;> simp_all
  · rw [forall_fin3]; simp_all

/-- What a successful `split4` did. -/
theorem split4_ok {ts : List Tri} {t1 : Nat} {ei : Fin 3} {e : Edge} {p : Nat}
    {r : List Tri × List (Nat × Nat)} (h : split4 ts t1 ei e p = .ok r) :
    ∃ a b t4 ts1, ts[t1]? = some a ∧ addId (nextId ts) 1 = .ok t4 ∧ ts[a.n ei]? = some b ∧
      updNb (((ts ++ [(⟨p, e.dst, a.v (oppVertIdx ei), t4, a.n (nextCwEdge ei), t1⟩ : Tri),
          ⟨p, b.oppVertexId e, e.dst, a.n ei, b.n (vertNextCwEdge (b.vertexIndex (b.oppVertexId e))),
            nextId ts⟩]).set t1
          ⟨p, a.v (oppVertIdx ei), e.src, nextId ts, a.n (nextCcwEdge ei), a.n ei⟩).set (a.n ei)
          ⟨p, e.src, b.oppVertexId e, t1, b.n (vertNextCcwEdge (b.vertexIndex (b.oppVertexId e))), t4⟩)
        (a.n (nextCwEdge ei)) t1 (nextId ts) = .ok ts1 ∧
      updNb ts1 (b.n (vertNextCwEdge (b.vertexIndex (b.oppVertexId e)))) (a.n ei) t4 = .ok r.1 ∧
      r.2 = pushQ (pushQ (pushQ (pushQ [] (nextId ts) (a.n (nextCwEdge ei))) t4
        (b.n (vertNextCwEdge (b.vertexIndex (b.oppVertexId e))))) t1 (a.n (nextCcwEdge ei))) (a.n ei)
        (b.n (vertNextCcwEdge (b.vertexIndex (b.oppVertexId e)))) := by
  simp only [split4, Res.bind_eq_ok] at h
  obtain ⟨a, ha, t4, h4, b, hb, ts1, h1, ts2, h2, he⟩ := h
  rw [getI_eq_ok] at ha hb
  simp only [Res.ok.injEq] at he
  subst he
  exact ⟨a, b, t4, ts1, ha, h4, hb, h1, h2, rfl⟩

theorem split4_length {ts : List Tri} {t1 : Nat} {ei : Fin 3} {e : Edge} {p : Nat}
    {r : List Tri × List (Nat × Nat)} (h : split4 ts t1 ei e p = .ok r) :
    r.1.length = ts.length + 2 := by
  obtain ⟨a, b, t4, ts1, _, _, _, h1, h2, _⟩ := split4_ok h
  rw [updNb_length h2, updNb_length h1]; simp

theorem oppVertexId_mem (b : Tri) (e : Edge) : ∃ k, b.oppVertexId e = b.v k := by
  unfold Tri.oppVertexId
  split
  · exact ⟨0, rfl⟩
  · split
    · exact ⟨1, rfl⟩
    · exact ⟨2, rfl⟩

theorem split4_verts {Q : Nat → Prop} {ts : List Tri} {t1 : Nat} {ei : Fin 3} {e : Edge} {p : Nat}
    {r : List Tri × List (Nat × Nat)} (h : split4 ts t1 ei e p = .ok r) (hv : VertsIn Q ts)
    (hp : Q p) (hs : Q e.src) (hd : Q e.dst) : VertsIn Q r.1 := by
  obtain ⟨a, b, t4, ts1, ha, _, hb, h1, h2, _⟩ := split4_ok h
  obtain ⟨k, hk⟩ := oppVertexId_mem b e
  have hk' : Q (b.oppVertexId e) := hk ▸ hv.get hb k
  have ho : Q (a.v (oppVertIdx ei)) := hv.get ha _
  refine updNb_verts h2 (updNb_verts h1 (VertsIn.set (VertsIn.set (VertsIn.append hv ?_) ?_) ?_))
  · intro s hs
    simp only [List.mem_cons, List.not_mem_nil, or_false] at hs
    rw [forall_fin3]
    rcases hs with rfl | rfl <;> simp_all
  · rw [forall_fin3]; simp_all
  · rw [forall_fin3]; simp_all

theorem quadOf_verts {Q : Nat → Prop} (t2 : Tri) (t1id p : Nat) (h : ∀ k, Q (t2.v k)) :
    Q (quadOf t2 t1id p).1.q1 ∧ Q (quadOf t2 t1id p).1.q2 ∧ Q (quadOf t2 t1id p).1.q3 ∧
      (quadOf t2 t1id p).1.q4 = p := by
  have h0 := h 0
  have h1 := h 1
  have h2 := h 2
  unfold quadOf
  split
  · simp_all
  · split <;> simp_all

theorem quadOf_nbrs {Q : Nat → Prop} (t2 : Tri) (t1id p : Nat) (h : ∀ k, Q (t2.n k)) :
    Q (quadOf t2 t1id p).2.1 ∧ Q (quadOf t2 t1id p).2.2 := by
  have h0 := h 0
  have h1 := h 1
  have h2 := h 2
  unfold quadOf
  split
  · simp_all
  · split <;> simp_all

/-- What a successful `checkAndSwap` did. -/
theorem checkAndSwap_ok {vs : List (Vtx F)} {p : Nat} {ts : List Tri} {t1id t2id : Nat}
    {st : List (Nat × Nat)} {r : List Tri × List (Nat × Nat)}
    (h : checkAndSwap vs p ts t1id t2id st = .ok r) :
    ∃ t2, ts[t2id]? = some t2 ∧
     ((shouldSwap vs (quadOf t2 t1id p).1 = .ok false ∧ r = (ts, st)) ∨
      (shouldSwap vs (quadOf t2 t1id p).1 = .ok true ∧ ∃ t1 ts1, ts[t1id]? = some t1 ∧
        updNb ((ts.set t1id ⟨(quadOf t2 t1id p).1.q4, (quadOf t2 t1id p).1.q1,
            (quadOf t2 t1id p).1.q3, t1.n12, (quadOf t2 t1id p).2.1, t2id⟩).set t2id
            ⟨(quadOf t2 t1id p).1.q4, (quadOf t2 t1id p).1.q3,
            (quadOf t2 t1id p).1.q2, t1id, (quadOf t2 t1id p).2.2, t1.n31⟩) t1.n31 t1id t2id = .ok ts1 ∧
        updNb ts1 (quadOf t2 t1id p).2.1 t2id t1id = .ok r.1 ∧
        r.2 = pushQ (pushQ st t1id (quadOf t2 t1id p).2.1) t2id (quadOf t2 t1id p).2.2)) := by
  simp only [checkAndSwap, Res.bind_eq_ok] at h
  obtain ⟨t2, ht2, b, hb, h⟩ := h
  rw [getI_eq_ok] at ht2
  refine ⟨t2, ht2, ?_⟩
  cases b with
  | false =>
    simp at h
    exact .inl ⟨hb, h.symm⟩
  | true =>
    simp only [if_true, Res.bind_eq_ok] at h
    obtain ⟨t1, ht1, ts1, h1, ts2, h2, he⟩ := h
    rw [getI_eq_ok] at ht1
    simp only [Res.ok.injEq] at he
    subst he
    exact .inr ⟨hb, t1, ts1, ht1, h1, h2, rfl⟩

theorem checkAndSwap_length {vs : List (Vtx F)} {p : Nat} {ts : List Tri} {t1id t2id : Nat}
    {st : List (Nat × Nat)} {r : List Tri × List (Nat × Nat)}
    (h : checkAndSwap vs p ts t1id t2id st = .ok r) : r.1.length = ts.length := by
  obtain ⟨t2, _, ⟨_, rfl⟩ | ⟨_, t1, ts1, _, h1, h2, _⟩⟩ := checkAndSwap_ok h
  · rfl
  · rw [updNb_length h2, updNb_length h1]; simp

theorem checkAndSwap_verts {Q : Nat → Prop} {vs : List (Vtx F)} {p : Nat} {ts : List Tri}
    {t1id t2id : Nat} {st : List (Nat × Nat)} {r : List Tri × List (Nat × Nat)}
    (h : checkAndSwap vs p ts t1id t2id st = .ok r) (hv : VertsIn Q ts) (hp : Q p) :
    VertsIn Q r.1 := by
  obtain ⟨t2, ht2, ⟨_, rfl⟩ | ⟨_, t1, ts1, _, h1, h2, _⟩⟩ := checkAndSwap_ok h
  · exact hv
  · obtain ⟨q1, q2, q3, q4⟩ := quadOf_verts (Q := Q) t2 t1id p (hv.get ht2)
    refine updNb_verts h2 (updNb_verts h1 (VertsIn.set (VertsIn.set hv ?_) ?_))
    · rw [forall_fin3]; simp_all
    · rw [forall_fin3]; simp_all

theorem restore_length {vs : List (Vtx F)} {p fuel : Nat} {ts : List Tri} {st : List (Nat × Nat)}
    {ts' : List Tri} (h : restore vs p fuel ts st = .ok ts') : ts'.length = ts.length := by
  induction fuel generalizing ts st with
  | zero =>
    cases st with
    | nil => simp [restore] at h; rw [h]
    | cons a st => simp [restore] at h
  | succ n ih =>
    cases st with
    | nil => simp [restore] at h; rw [h]
    | cons a st =>
      simp only [restore, Res.bind_eq_ok] at h
      obtain ⟨r, hr, h⟩ := h
      rw [ih h, checkAndSwap_length hr]

theorem restore_verts {Q : Nat → Prop} {vs : List (Vtx F)} {p fuel : Nat} {ts : List Tri}
    {st : List (Nat × Nat)} {ts' : List Tri} (h : restore vs p fuel ts st = .ok ts')
    (hv : VertsIn Q ts) (hp : Q p) : VertsIn Q ts' := by
  induction fuel generalizing ts st with
  | zero =>
    cases st with
    | nil => simp [restore] at h; rw [← h]; exact hv
    | cons a st => simp [restore] at h
  | succ n ih =>
    cases st with
    | nil => simp [restore] at h; rw [← h]; exact hv
    | cons a st =>
      simp only [restore, Res.bind_eq_ok] at h
      obtain ⟨r, hr, h⟩ := h
      exact ih h (checkAndSwap_verts hr hv hp)

/-- The triangle and edge of a placement come from the mesh. -/
def Placement.FromMesh (ts : List Tri) : Placement → Prop
  | .inside i => ∃ t, ts[i]? = some t
  | .onEdge i ei e => ∃ t, ts[i]? = some t ∧ e = ⟨t.v ei, t.v (nextCwVert ei)⟩
  | .notFound => True

def Walk.FromMesh (ts : List Tri) : Walk → Prop
  | .found p => p.FromMesh ts
  | .go _ _ => True

theorem placement1_from {vs : List (Vtx F)} {p : Vtx F} {ts : List Tri} {t : Tri} {cur : Nat}
    {i : Fin 3} {prev : Nat} {w : Walk} (ht : ts[cur]? = some t)
    (h : placement1 vs p t cur i prev cur = .ok w) : w.FromMesh ts := by
  simp only [placement1, Res.bind_eq_ok] at h
  obtain ⟨a, _, b, _, h⟩ := h
  split at h
  · simp at h; subst h; trivial
  simp only [Res.bind_eq_ok] at h
  obtain ⟨k, _, h⟩ := h
  split at h
  · simp at h; subst h; trivial
  split at h
  · simp at h; subst h; trivial
  split at h
  · simp at h; subst h; refine ⟨t, ht, ?_⟩; fin_cases i <;> rfl
  split at h
  · simp at h; subst h; refine ⟨t, ht, ?_⟩; fin_cases i <;> rfl
  split at h
  · simp at h; subst h; refine ⟨t, ht, ?_⟩; fin_cases i <;> rfl
  · simp at h; subst h; exact ⟨t, ht⟩

theorem placement2_from {vs : List (Vtx F)} {p : Vtx F} {ts : List Tri} {t : Tri} {cur : Nat}
    {i j : Fin 3} {prev : Nat} {w : Walk} (ht : ts[cur]? = some t)
    (h : placement2 vs p t cur i j prev cur = .ok w) : w.FromMesh ts := by
  simp only [placement2, Res.bind_eq_ok] at h
  obtain ⟨fi, _, a, _, k, _, h⟩ := h
  split at h
  · simp at h; subst h; trivial
  simp only [Res.bind_eq_ok] at h
  obtain ⟨k', _, h⟩ := h
  split at h
  · simp at h; subst h; trivial
  split at h
  · simp at h; subst h; refine ⟨t, ht, ?_⟩; fin_cases fi <;> rfl
  split at h
  · simp at h; subst h; refine ⟨t, ht, ?_⟩; fin_cases fi <;> rfl
  · simp at h; subst h; exact ⟨t, ht⟩

theorem findStep_from {vs : List (Vtx F)} {p : Vtx F} {ts : List Tri} {prev cur : Nat} {w : Walk}
    (h : findStep vs p ts prev cur = .ok w) : w.FromMesh ts := by
  simp only [findStep, Res.bind_eq_ok] at h
  obtain ⟨t, ht, inf, hinf, h⟩ := h
  rw [getI_eq_ok] at ht
  split at h
  · simp only [Res.bind_eq_ok] at h
    obtain ⟨a, _, b, _, c, _, h⟩ := h
    repeat' split at h
    all_goals (simp at h; subst h)
    · trivial
    · trivial
    · trivial
    · exact ⟨t, ht, rfl⟩
    · exact ⟨t, ht, rfl⟩
    · exact ⟨t, ht, rfl⟩
    · exact ⟨t, ht⟩
  · exact placement1_from ht h
  · exact placement2_from ht h

theorem findLoop_from {vs : List (Vtx F)} {p : Vtx F} {ts : List Tri} {n prev cur : Nat}
    {pl : Placement} (h : findLoop vs p ts n prev cur = .ok pl) : pl.FromMesh ts := by
  induction n generalizing prev cur with
  | zero => simp [findLoop] at h; subst h; trivial
  | succ n ih =>
    simp only [findLoop] at h
    split at h
    · simp at h; subst h; trivial
    · rw [Res.bind_eq_ok] at h
      obtain ⟨w, hw, h⟩ := h
      split at h
      · simp at h; subst h; exact findStep_from hw
      · exact ih h

/-- Case analysis of one successful insertion. -/
theorem insertVertex_ok {vs : List (Vtx F)} {fuel : Nat} {s s' : DT} {vid : Nat}
    (h : insertVertex vs fuel s vid = .ok s') :
    ∃ p pl, vs[vid]? = some p ∧ findPlacement vs p s.tid s.ts = .ok pl ∧
     ((∃ t r, pl = .inside t ∧ split3 s.ts t vid = .ok r ∧
        restore vs vid fuel r.1 r.2 = .ok s'.ts ∧ lastId s'.ts = .ok s'.tid ∧ s'.merge = s.merge) ∨
      (∃ t ei e r, pl = .onEdge t ei e ∧ split4 s.ts t ei e vid = .ok r ∧
        restore vs vid fuel r.1 r.2 = .ok s'.ts ∧ lastId s'.ts = .ok s'.tid ∧ s'.merge = s.merge ∧
        (isFin e.src → ∃ a, vs[e.src]? = some a ∧ tooClose a p = false) ∧
        (isFin e.dst → ∃ a, vs[e.dst]? = some a ∧ tooClose a p = false)) ∨
      (∃ t ei e x a, pl = .onEdge t ei e ∧ (x = e.src ∨ x = e.dst) ∧ isFin x ∧ vs[x]? = some a ∧
        tooClose a p = true ∧ s' = { s with merge := setMerge s.merge vid x })) := by
  simp only [insertVertex, Res.bind_eq_ok] at h
  obtain ⟨p, hp, pl, hpl, h⟩ := h
  rw [getI_eq_ok] at hp
  refine ⟨p, pl, hp, hpl, ?_⟩
  cases pl with
  | notFound => simp at h
  | inside t =>
    simp only [Res.bind_eq_ok, finishInsert] at h
    obtain ⟨r, hr, ts, hts, tid, htid, h⟩ := h
    simp at h
    subst h
    exact .inl ⟨t, r, rfl, hr, hts, htid, rfl⟩
  | onEdge t ei e =>
    right
    have main : ((isFin e.src → ∃ a, vs[e.src]? = some a ∧ tooClose a p = false) ∧
        insertOnEdge vs fuel s vid p t ei e = .ok s') ∨
        (∃ a, isFin e.src ∧ vs[e.src]? = some a ∧ tooClose a p = true ∧
          s' = { s with merge := setMerge s.merge vid e.src }) := by
      cases hs : isFin e.src with
      | false => simp [hs] at h; exact .inl ⟨by simp, h⟩
      | true =>
        simp only [hs, if_true, Res.bind_eq_ok] at h
        obtain ⟨a, ha, h⟩ := h
        rw [getI_eq_ok] at ha
        cases hc : tooClose a p with
        | false =>
          simp [hc] at h
          exact .inl ⟨fun _ => ⟨a, ha, hc⟩, h⟩
        | true =>
          simp [hc] at h
          exact .inr ⟨a, rfl, ha, hc, h.symm⟩
    rcases main with ⟨key1, h⟩ | ⟨a, hf, ha, hc, hs'⟩
    · have main2 : ((isFin e.dst → ∃ a, vs[e.dst]? = some a ∧ tooClose a p = false) ∧
          (split4 s.ts t ei e vid >>= finishInsert vs fuel vid s.merge) = .ok s') ∨
          (∃ a, isFin e.dst ∧ vs[e.dst]? = some a ∧ tooClose a p = true ∧
            s' = { s with merge := setMerge s.merge vid e.dst }) := by
        unfold insertOnEdge at h
        cases hs : isFin e.dst with
        | false => simp [hs] at h; exact .inl ⟨by simp, h⟩
        | true =>
          simp only [hs, if_true, Res.bind_eq_ok] at h
          obtain ⟨a, ha, h⟩ := h
          rw [getI_eq_ok] at ha
          cases hc : tooClose a p with
          | false =>
            simp [hc] at h
            exact .inl ⟨fun _ => ⟨a, ha, hc⟩, h⟩
          | true =>
            simp [hc] at h
            exact .inr ⟨a, rfl, ha, hc, h.symm⟩
      rcases main2 with ⟨key2, h⟩ | ⟨a, hf, ha, hc, hs'⟩
      · simp only [Res.bind_eq_ok, finishInsert] at h
        obtain ⟨r, hr, ts, hts, tid, htid, h⟩ := h
        simp at h
        subst h
        exact .inl ⟨t, ei, e, r, rfl, hr, hts, htid, rfl, key1, key2⟩
      · exact .inr ⟨t, ei, e, e.dst, a, rfl, .inr rfl, hf, ha, hc, hs'⟩
    · exact .inr ⟨t, ei, e, e.src, a, rfl, .inl rfl, hf, ha, hc, hs'⟩

theorem insertVertex_verts {Q : Nat → Prop} {vs : List (Vtx F)} {fuel : Nat} {s s' : DT} {vid : Nat}
    (h : insertVertex vs fuel s vid = .ok s') (hv : VertsIn Q s.ts) (hp : Q vid) :
    VertsIn Q s'.ts := by
  obtain ⟨p, pl, _, hpl, ⟨t, r, rfl, hr, hts, _, _⟩ | ⟨t, ei, e, r, rfl, hr, hts, _⟩ |
    ⟨t, ei, e, x, a, _, _, _, _, _, rfl⟩⟩ := insertVertex_ok h
  · exact restore_verts hts (split3_verts hr hv hp) hp
  · obtain ⟨tt, htt, he⟩ := findLoop_from hpl
    refine restore_verts hts (split4_verts hr hv hp ?_ ?_) hp
    · rw [he]; exact hv.get htt _
    · rw [he]; exact hv.get htt _
  · exact hv

end CDT

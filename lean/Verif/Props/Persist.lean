import Verif.Props.SnapRounded

/-!
# C98: triangles never come back, and the number of swaps of an insertion

Inserting a vertex only creates triangles at this vertex, in every arithmetic. So a triangle of the complete result was there ever
since the last of its vertices was inserted. In exact arithmetic every swap adds one triangle at the inserted vertex.
-/

set_option linter.unusedSectionVars false
set_option linter.unusedSimpArgs false
set_option linter.unusedVariables false

namespace CDT
open Plane Rounded

section
variable {F : Type} [FloatOps F] [IdCfg]

/-- Every triangle of `ts'` without the vertex `v` is in `ts` at the same place. -/
def KeepsAway (v : Nat) (ts ts' : List Tri) : Prop :=
  ∀ (i : Nat) (t' : Tri), ts'[i]? = some t' → t'.hasVert v = true ∨ ∃ t, ts[i]? = some t ∧ t.verts = t'.verts

theorem KeepsAway.refl (v : Nat) (ts : List Tri) : KeepsAway v ts ts := fun _ t h => .inr ⟨t, h, rfl⟩

theorem hasVert_of_verts {t t' : Tri} (h : t.verts = t'.verts) (v : Nat) : t.hasVert v = t'.hasVert v := by
  unfold Tri.verts at h
  simp only [Prod.mk.injEq] at h
  unfold Tri.hasVert
  rw [h.1, h.2.1, h.2.2]

theorem KeepsAway.trans {v : Nat} {ts ts' ts'' : List Tri} (h : KeepsAway v ts ts') (h' : KeepsAway v ts' ts'') :
    KeepsAway v ts ts'' := by
  intro i t'' ht
  rcases h' i t'' ht with h1 | ⟨t', h1, h2⟩
  · exact .inl h1
  · rcases h i t' h1 with h3 | ⟨t, h3, h4⟩
    · exact .inl (by rw [← hasVert_of_verts h2]; exact h3)
    · exact .inr ⟨t, h3, h4.trans h2⟩

theorem KeepsAway.set (v : Nat) (ts : List Tri) (i : Nat) (t : Tri) (h : t.hasVert v = true) : KeepsAway v ts (ts.set i t) := by
  intro j t' ht
  rw [List.getElem?_set] at ht
  split at ht
  · split at ht
    · simp only [Option.some.injEq] at ht
      subst ht
      exact .inl h
    · simp at ht
  · exact .inr ⟨t', ht, rfl⟩

theorem KeepsAway.append (v : Nat) (ts l : List Tri) (h : ∀ t ∈ l, t.hasVert v = true) : KeepsAway v ts (ts ++ l) := by
  intro j t' ht
  by_cases hj : j < ts.length
  · rw [List.getElem?_append_left hj] at ht
    exact .inr ⟨t', ht, rfl⟩
  · rw [List.getElem?_append_right (by omega)] at ht
    exact .inl (h _ (List.mem_of_getElem? ht))

theorem KeepsAway.updNb {v : Nat} {ts ts' : List Tri} {n o w : Nat} (h : updNb ts n o w = .ok ts') : KeepsAway v ts ts' := by
  rcases updNb_ok h with ⟨_, rfl⟩ | ⟨_, t, ht, rfl⟩
  · exact .refl _ _
  · intro j t' hj
    rw [List.getElem?_set] at hj
    split at hj
    · rename_i e
      subst e
      split at hj
      · simp only [Option.some.injEq] at hj
        subst hj
        refine .inr ⟨t, ht, ?_⟩
        have h0 := Tri.updN_v t o w 0
        have h1 := Tri.updN_v t o w 1
        have h2 := Tri.updN_v t o w 2
        simp only [Tri.v] at h0 h1 h2
        simp only [Tri.verts, h0, h1, h2]
      · simp at hj
    · exact .inr ⟨t', hj, rfl⟩

theorem hasVert_fst (p a b n1 n2 n3 : Nat) : (⟨p, a, b, n1, n2, n3⟩ : Tri).hasVert p = true := by simp [Tri.hasVert]

theorem KeepsAway.split3 {ts : List Tri} {t1 p : Nat} {r : List Tri × List (Nat × Nat)} (h : split3 ts t1 p = .ok r) :
    KeepsAway p ts r.1 := by
  obtain ⟨t, t3, ts1, -, -, h1, h2, -⟩ := split3_ok h
  refine (((KeepsAway.append p ts _ ?_).trans (.set p _ _ _ (hasVert_fst ..))).trans (.updNb h1)).trans (.updNb h2)
  intro x hx
  simp only [List.mem_cons, List.not_mem_nil, or_false] at hx
  rcases hx with rfl | rfl <;> exact hasVert_fst ..

theorem KeepsAway.split4 {ts : List Tri} {t1 : Nat} {ei : Fin 3} {e : Edge} {p : Nat} {r : List Tri × List (Nat × Nat)}
    (h : split4 ts t1 ei e p = .ok r) : KeepsAway p ts r.1 := by
  obtain ⟨a, b, t4, ts1, -, -, -, h1, h2, -⟩ := split4_ok h
  refine ((((KeepsAway.append p ts _ ?_).trans (.set p _ _ _ (hasVert_fst ..))).trans (.set p _ _ _ (hasVert_fst ..))).trans (.updNb h1)).trans
    (.updNb h2)
  intro x hx
  simp only [List.mem_cons, List.not_mem_nil, or_false] at hx
  rcases hx with rfl | rfl <;> exact hasVert_fst ..

theorem quadOf_q4 (t2 : Tri) (t1id p : Nat) : (quadOf t2 t1id p).1.q4 = p :=
  (quadOf_verts (Q := fun _ => True) t2 t1id p fun _ => trivial).2.2.2

theorem KeepsAway.checkAndSwap {vs : List (Vtx F)} {p : Nat} {ts : List Tri} {a b : Nat} {st : List (Nat × Nat)}
    {r : List Tri × List (Nat × Nat)} (h : checkAndSwap vs p ts a b st = .ok r) : KeepsAway p ts r.1 := by
  obtain ⟨t2, -, ⟨-, rfl⟩ | ⟨-, t1, ts1, -, h1, h2, -⟩⟩ := checkAndSwap_ok h
  · exact .refl _ _
  · rw [quadOf_q4] at h1
    exact (((KeepsAway.set p _ _ _ (hasVert_fst ..)).trans (.set p _ _ _ (hasVert_fst ..))).trans (.updNb h1)).trans (.updNb h2)

theorem KeepsAway.restore {vs : List (Vtx F)} {p : Nat} (fuel : Nat) : ∀ {ts : List Tri} {st : List (Nat × Nat)} {ts' : List Tri},
    restore vs p fuel ts st = .ok ts' → KeepsAway p ts ts' := by
  induction fuel with
  | zero =>
    intro ts st ts' h
    cases st with
    | nil => simp [CDT.restore] at h; subst h; exact .refl _ _
    | cons => simp [CDT.restore] at h
  | succ n ih =>
    intro ts st ts' h
    cases st with
    | nil => simp [CDT.restore] at h; subst h; exact .refl _ _
    | cons e st =>
      obtain ⟨a, b⟩ := e
      simp only [CDT.restore, Res.bind_eq_ok] at h
      obtain ⟨r, h1, h2⟩ := h
      exact (KeepsAway.checkAndSwap h1).trans (ih h2)

/-- An insertion only creates triangles at the inserted vertex. -/
theorem KeepsAway.insertVertex {vs : List (Vtx F)} {fuel : Nat} {s s' : DT} {v : Nat} (h : insertVertex vs fuel s v = .ok s') :
    KeepsAway v s.ts s'.ts := by
  obtain ⟨p, pl, -, -, ⟨t, r, -, hr, hts, -, -⟩ | ⟨t, ei, e, r, -, hr, hts, -⟩ | ⟨t, ei, e, x, a, -, -, -, -, -, rfl⟩⟩ := insertVertex_ok h
  · exact (KeepsAway.split3 hr).trans (.restore fuel hts)
  · exact (KeepsAway.split4 hr).trans (.restore fuel hts)
  · exact .refl _ _

theorem insertAll_away {vs : List (Vtx F)} {fuel : Nat} : ∀ (l : List Nat) {s s' : DT}, insertAll vs fuel l s = .ok s' →
    ∀ (i : Nat) (t' : Tri), s'.ts[i]? = some t' → (∃ v ∈ l, t'.hasVert v = true) ∨ ∃ t, s.ts[i]? = some t ∧ t.verts = t'.verts := by
  intro l
  induction l with
  | nil =>
    intro s s' h i t' ht
    simp [insertAll] at h
    subst h
    exact .inr ⟨t', ht, rfl⟩
  | cons v l ih =>
    intro s s' h i t' ht
    simp only [insertAll, Res.bind_eq_ok] at h
    obtain ⟨s1, h1, h2⟩ := h
    rcases ih h2 i t' ht with ⟨w, hw, h3⟩ | ⟨t1, h3, h4⟩
    · exact .inl ⟨w, by simp [hw], h3⟩
    · rcases KeepsAway.insertVertex h1 i t1 h3 with h5 | ⟨t, h5, h6⟩
      · exact .inl ⟨v, by simp, by rw [← hasVert_of_verts h4]; exact h5⟩
      · exact .inr ⟨t, h5, h6.trans h4⟩

/-- Elements that keep their place form a sublist. -/
theorem filter_sublist {α : Type} (P : α → Bool) : ∀ (l' l : List α), (∀ (i : Nat) (a : α), l'[i]? = some a → P a = true → l[i]? = some a) →
    (l'.filter P).Sublist l := by
  intro l'
  induction l' with
  | nil => intro l _; simp
  | cons a l' ih =>
    intro l h
    cases l with
    | nil =>
      have : (a :: l').filter P = [] := by
        rw [List.filter_eq_nil_iff]
        intro x hx hp
        obtain ⟨i, hi⟩ := List.mem_iff_getElem?.1 hx
        have := h i x hi hp
        simp at this
      rw [this]
    | cons b l =>
      have ih' := ih l fun i x hi hp => by simpa using h (i + 1) x (by simpa using hi) hp
      rw [List.filter_cons]
      split
      · rename_i hp
        have := h 0 a rfl hp
        simp at this
        subst this
        exact ih'.cons_cons _
      · exact ih'.cons _

/-- None of the vertices of the triangle is in the list. -/
def Spec.free (l : List Nat) (o : Out) : Bool := !l.contains o.1 && !l.contains o.2.1 && !l.contains o.2.2

theorem free_iff {l : List Nat} {t : Tri} : Spec.free l t.verts = true ↔ ∀ v ∈ l, t.hasVert v = false := by
  simp only [Spec.free, Tri.verts, Tri.hasVert, Bool.and_eq_true, Bool.not_eq_true', List.contains_eq_mem, decide_eq_false_iff_not]
  constructor
  · rintro ⟨⟨h1, h2⟩, h3⟩ v hv
    have e1 : t.v1 ≠ v := fun e => h1 (e ▸ hv)
    have e2 : t.v2 ≠ v := fun e => h2 (e ▸ hv)
    have e3 : t.v3 ≠ v := fun e => h3 (e ▸ hv)
    simp [e1, e2, e3]
  · intro h
    refine ⟨⟨fun hv => ?_, fun hv => ?_⟩, fun hv => ?_⟩ <;> have := h _ hv <;> simp at this

theorem output_sublist {vs : List (Vtx F)} {fuel : Nat} {l : List Nat} {s s' : DT} (h : insertAll vs fuel l s = .ok s') :
    ((filterSeq s'.ts).filter (Spec.free l)).Sublist (filterSeq s.ts) := by
  have h1 := filter_sublist (Spec.free l) (s'.ts.map Tri.verts) (s.ts.map Tri.verts) (by
    intro i o ho hf
    rw [List.getElem?_map, Option.map_eq_some_iff] at ho
    obtain ⟨t', ht, rfl⟩ := ho
    rw [free_iff] at hf
    rcases insertAll_away l h i t' ht with ⟨v, hv, h2⟩ | ⟨t, h2, h3⟩
    · rw [hf v hv] at h2; simp at h2
    · rw [List.getElem?_map, h2, Option.map_some, h3])
  have e : ∀ ts : List Tri, filterSeq ts = (ts.map Tri.verts).filter fun o => isFin o.1 && isFin o.2.1 && isFin o.2.2 := by
    intro ts
    rw [filterSeq_eq_map, List.filter_map]
    congr 1
  rw [e, e, List.filter_comm]
  exact h1.filter _

/-- **C98**: in every arithmetic, a triangle of the mesh after more insertions none of whose vertices was inserted meanwhile was
already there, at the same place and with the same vertices in the same order. -/
theorem C98_mesh (fuel : Nat) (vs : List (Vtx F)) (l l' : List Nat) (s s1 s2 : DT) (h1 : insertAll vs fuel l s = .ok s1)
    (h2 : insertAll vs fuel (l ++ l') s = .ok s2) (i : Nat) (t : Tri) (ht : s2.ts[i]? = some t)
    (hf : ∀ v ∈ l', v ≠ t.v1 ∧ v ≠ t.v2 ∧ v ≠ t.v3) :
    ∃ t', s1.ts[i]? = some t' ∧ t'.v1 = t.v1 ∧ t'.v2 = t.v2 ∧ t'.v3 = t.v3 := by
  rw [insertAll_append, h1, Res.ok_bind] at h2
  rcases insertAll_away l' h2 i t ht with ⟨v, hv, h3⟩ | ⟨t', h3, h4⟩
  · rw [hasVert_iff] at h3
    obtain ⟨e1, e2, e3⟩ := hf v hv
    rcases h3 with h3 | h3 | h3
    · exact absurd h3.symm e1
    · exact absurd h3.symm e2
    · exact absurd h3.symm e3
  · simp only [Tri.verts, Prod.mk.injEq] at h4
    exact ⟨t', h3, h4⟩

/-- **C98** for the entry point, in every arithmetic: all triangles of the complete result that only use vertices inserted before
step `k` are returned by the run that is forced to end at step `k`, in the same order. -/
theorem C98_forced (fuel : Nat) (bins : Nat → Nat) (vs : List (Vtx F)) (cfg : DebugCfg) (k : Nat) (h : cfg.forceEnd = some k)
    (hn : 3 ≤ vs.length) (first : Nat) (rest : List Nat) (hb : binSort (bins vs.length) (normalizeVerts vs) = .ok (first :: rest))
    (out outk : List Out) (ho : triangulation2d fuel bins vs = .ok out) (hk : (triangulation2dD fuel bins vs cfg).1 = .ok outk) :
    (out.filter (Spec.free ((first :: rest).drop (max 1 k)))).Sublist outk := by
  obtain ⟨-, h2⟩ := C38_prefix fuel bins vs cfg k h hn first rest hb
  rw [h2, Res.bind_eq_ok] at hk
  obtain ⟨s, hs, hk⟩ := hk
  simp only [Res.ok.injEq] at hk
  subst hk
  have hd : (first :: rest).drop (max 1 k) = rest.drop (k - 1) := by
    have : max 1 k = (k - 1) + 1 := by omega
    rw [this, List.drop_succ_cons]
  rw [hd]
  unfold triangulation2d at ho
  rw [if_neg (by omega)] at ho
  simp only [Res.bind_eq_ok] at ho
  obtain ⟨s', hw, ho⟩ := ho
  simp only [Res.ok.injEq] at ho
  subst ho
  unfold wrapAndTriangulate at hw
  rw [hb] at hw
  simp only [Res.ok_bind, Res.bind_eq_ok] at hw
  obtain ⟨tid, htid, hw⟩ := hw
  have : tid = 3 := by
    have hB := IdCfg.big
    rw [lastId_ok (by simp [initialTriangles]) (by simp [initialTriangles]; unfold NONE; omega)] at htid
    simpa [initialTriangles] using htid.symm
  subst this
  rw [← List.take_append_drop (k - 1) rest, insertAll_append, hs, Res.ok_bind] at hw
  exact output_sublist hw

end

/-! ## The number of swaps -/

/-- The number of triangles at the vertex `v`. -/
def Spec.degree (v : Nat) (ts : List Tri) : Nat := ts.countP fun t => decide (t.v1 = v ∨ t.v2 = v ∨ t.v3 = v)

/-- The number of triangles a split leaves at the inserted vertex. -/
def Spec.splitDegree : Phase → Nat
  | .splitTriangle => 3
  | _ => 4

/-- Each split leaves three or four triangles at the inserted vertex, and each swap of a diagonal that follows adds one. -/
def Spec.SwapsCount (l : List Snap) : Prop :=
  ∀ (i j v : Nat) (s x : Snap), l[i]? = some s → s.event = .split v →
    (∀ m, i < m → m ≤ i + j → ∃ y, l[m]? = some y ∧ y.phase = .restoreSwap) → l[i + j]? = some x →
    Spec.degree v x.ts = Spec.splitDegree s.phase + j

section
open Spec
variable [IdCfg]

theorem degree_set {v : Nat} {ts : List Tri} {i : Nat} {t u : Tri} (h : ts[i]? = some t) :
    degree v (ts.set i u) + (if t.hasVert v then 1 else 0) = degree v ts + (if u.hasVert v then 1 else 0) := by
  have e : ∀ x : Tri, (decide (x.v1 = v ∨ x.v2 = v ∨ x.v3 = v)) = x.hasVert v := by
    intro x; rw [Bool.eq_iff_iff, hasVert_iff]; simp
  unfold degree
  simp only [e]
  induction ts generalizing i with
  | nil => simp at h
  | cons s ts ih =>
    cases i with
    | zero =>
      simp at h; subst h
      simp only [List.set_cons_zero, List.countP_cons]; omega
    | succ i =>
      have := ih (i := i) (by simpa using h)
      simp only [List.set_cons_succ, List.countP_cons] at *; omega

theorem degree_append (v : Nat) (l l' : List Tri) : degree v (l ++ l') = degree v l + degree v l' := List.countP_append

theorem hasVert_updN (t : Tri) (o w v : Nat) : (t.updN o w).hasVert v = t.hasVert v := by
  apply hasVert_of_verts
  have h0 := Tri.updN_v t o w 0
  have h1 := Tri.updN_v t o w 1
  have h2 := Tri.updN_v t o w 2
  simp only [Tri.v] at h0 h1 h2
  simp only [Tri.verts, h0, h1, h2]

theorem degree_updNb {v : Nat} {ts ts' : List Tri} {n o w : Nat} (h : updNb ts n o w = .ok ts') : degree v ts' = degree v ts := by
  rcases updNb_ok h with ⟨_, rfl⟩ | ⟨_, t, ht, rfl⟩
  · rfl
  · have := degree_set (v := v) (u := t.updN o w) ht
    rw [hasVert_updN] at this
    omega

theorem degree_zero {v : Nat} {ts : List Tri} (h : ∀ t ∈ ts, t.hasVert v = false) : degree v ts = 0 := by
  unfold degree
  rw [List.countP_eq_zero]
  intro t ht hc
  have := h t ht
  rw [decide_eq_true_eq, ← hasVert_iff, this] at hc
  simp at hc

theorem degree_split3 {ts : List Tri} {t1 p : Nat} {r : List Tri × List (Nat × Nat)} (h : split3 ts t1 p = .ok r)
    (h0 : ∀ t ∈ ts, t.hasVert p = false) : degree p r.1 = 3 := by
  obtain ⟨t, t3, ts1, -, ht, h1, h2, -⟩ := split3_ok h
  rw [degree_updNb h2, degree_updNb h1]
  have e := degree_set (v := p) (ts := ts ++ [(⟨p, t.v2, t.v3, t3, t.n23, t1⟩ : Tri), ⟨p, t.v1, t.v2, t1, t.n12, nextId ts⟩]) (i := t1)
    (u := ⟨p, t.v3, t.v1, nextId ts, t.n31, t3⟩) (t := t) (by rw [List.getElem?_append_left (lt_of_getElem? ht)]; exact ht)
  rw [h0 t (List.mem_of_getElem? ht), degree_append, degree_zero h0, hasVert_fst] at e
  have e2 : degree p [(⟨p, t.v2, t.v3, t3, t.n23, t1⟩ : Tri), ⟨p, t.v1, t.v2, t1, t.n12, nextId ts⟩] = 2 := by simp [degree]
  rw [e2] at e
  simpa using e

theorem degree_split4 {ts : List Tri} {t1 : Nat} {ei : Fin 3} {e : Edge} {p : Nat} {r : List Tri × List (Nat × Nat)}
    (h : split4 ts t1 ei e p = .ok r) (h0 : ∀ t ∈ ts, t.hasVert p = false) (hne : ∀ a, ts[t1]? = some a → a.n ei ≠ t1) : degree p r.1 = 4 := by
  obtain ⟨a, b, t4, ts1, ha, -, hb, h1, h2, -⟩ := split4_ok h
  have hn := hne a ha
  rw [degree_updNb h2, degree_updNb h1]
  set l : List Tri := [(⟨p, e.dst, a.v (oppVertIdx ei), t4, a.n (nextCwEdge ei), t1⟩ : Tri),
          ⟨p, b.oppVertexId e, e.dst, a.n ei, b.n (vertNextCwEdge (b.vertexIndex (b.oppVertexId e))), nextId ts⟩] with hl
  have e1 := degree_set (v := p) (ts := ts ++ l) (i := t1)
    (u := ⟨p, a.v (oppVertIdx ei), e.src, nextId ts, a.n (nextCcwEdge ei), a.n ei⟩) (t := a)
    (by rw [List.getElem?_append_left (lt_of_getElem? ha)]; exact ha)
  have e2 := degree_set (v := p)
    (ts := (ts ++ l).set t1 ⟨p, a.v (oppVertIdx ei), e.src, nextId ts, a.n (nextCcwEdge ei), a.n ei⟩) (i := a.n ei)
    (u := ⟨p, e.src, b.oppVertexId e, t1, b.n (vertNextCcwEdge (b.vertexIndex (b.oppVertexId e))), t4⟩) (t := b)
    (by rw [List.getElem?_set_ne hn.symm, List.getElem?_append_left (lt_of_getElem? hb)]; exact hb)
  rw [h0 a (List.mem_of_getElem? ha), degree_append, degree_zero h0, hasVert_fst] at e1
  rw [h0 b (List.mem_of_getElem? hb), hasVert_fst] at e2
  have e3 : degree p l = 2 := by simp [hl, degree]
  rw [e3] at e1
  simp only [Bool.false_eq_true, if_false, if_true] at e1 e2
  omega

end

/-! ### Following the snapshots -/

section
variable [IdCfg] {α β : Type}

/-- The value, if any. -/
def Res.value : Res α → Option α
  | .ok a => some a
  | _ => none

/-- `x`, recording everything, adds snapshots `l` and gives a value such that `T` holds. -/
def Tale (x : D α) (T : Option α → List Snap → Prop) : Prop :=
  ∀ c, RecordsAll c → RecordsAll (x c).2 ∧ ∃ l, (x c).2.snaps = c.snaps ++ l ∧ T (x c).1.value l

variable {T : Option β → List Snap → Prop}

theorem Tale.bind {x : D α} {f : α → D β} {S : Option α → List Snap → Prop} {S' : α → Option β → List Snap → Prop} (h : Tale x S)
    {y : Res α} (hq : Quiet x y) (hf : ∀ a, y = .ok a → Tale (f a) (S' a))
    (hok : ∀ a r l l', y = .ok a → S (some a) l → S' a r l' → T r (l ++ l')) (hno : ∀ l, S none l → T none l) : Tale (x >>= f) T := by
  intro c hc
  obtain ⟨h1, l, h2, h3⟩ := h c hc
  obtain ⟨q1, -, -⟩ := hq c
  rw [D.bind_def]
  rcases hx : x c with ⟨r, c'⟩
  rw [hx] at h1 h2 h3 q1
  cases r with
  | ok a =>
    obtain ⟨g1, l', g2, g3⟩ := hf a q1.symm c' h1
    exact ⟨g1, l ++ l', by simp only at h2 ⊢; rw [g2, h2, List.append_assoc], hok _ _ _ _ q1.symm h3 g3⟩
  | err e => exact ⟨h1, l, h2, hno _ h3⟩
  | panic => exact ⟨h1, l, h2, hno _ h3⟩
  | diverge => exact ⟨h1, l, h2, hno _ h3⟩

theorem Tale.bind' {x : D α} {f : α → D β} {S : Option α → List Snap → Prop} {S' : Option β → List Snap → Prop} (h : Tale x S)
    (hf : ∀ a, Tale (f a) S') (hok : ∀ a r l l', S (some a) l → S' r l' → T r (l ++ l')) (hno : ∀ l, S none l → T none l) :
    Tale (x >>= f) T := by
  intro c hc
  obtain ⟨h1, l, h2, h3⟩ := h c hc
  rw [D.bind_def]
  rcases hx : x c with ⟨r, c'⟩
  rw [hx] at h1 h2 h3
  cases r with
  | ok a =>
    obtain ⟨g1, l', g2, g3⟩ := hf a c' h1
    exact ⟨g1, l ++ l', by simp only at h2 ⊢; rw [g2, h2, List.append_assoc], hok _ _ _ _ h3 g3⟩
  | err e => exact ⟨h1, l, h2, hno _ h3⟩
  | panic => exact ⟨h1, l, h2, hno _ h3⟩
  | diverge => exact ⟨h1, l, h2, hno _ h3⟩

theorem Story.tale {x : D β} {R : Nat → Bool → Nat → List Snap → Prop} (h : Story x R) : Tale x (fun _ l => ∃ k b k', R k b k' l) := by
  intro c hc
  obtain ⟨h1, l, h2, h3⟩ := h c hc
  exact ⟨by unfold RecordsAll at hc ⊢; rw [h1]; exact hc, l, h2, _, _, _, h3⟩

theorem Tale.pure {b : β} (h : T (some b) []) : Tale (Pure.pure b : D β) T := fun c hc => ⟨hc, [], by simp [Pure.pure], h⟩

theorem Tale.last {y : Res β} (h : ∀ o, T o []) : Tale (liftD y) T := fun c hc => ⟨hc, [], by simp [liftD], h _⟩

theorem Tale.lift {y : Res α} {f : α → D β} (hf : ∀ a, y = .ok a → Tale (f a) T) (hno : T none []) : Tale (liftD y >>= f) T :=
  Tale.bind (S := fun _ l => l = []) (S' := fun _ => T) (fun c hc => ⟨hc, [], by simp [liftD], rfl⟩) (Quiet.lift y) hf
    (fun a r l l' _ e h => by subst e; exact h) (fun l e => by subst e; exact hno)

theorem Tale.mono {x : D β} {S : Option β → List Snap → Prop} (h : Tale x S) (hm : ∀ o l, S o l → T o l) : Tale x T := by
  intro c hc
  obtain ⟨h1, l, h2, h3⟩ := h c hc
  exact ⟨h1, l, h2, hm _ _ h3⟩

theorem Tale.event (p : Phase) (e : Event) (ts : List Tri) (ids nbs : List Nat) :
    Tale (pushEvent p e ts ids nbs) (fun _ l => ∃ k ch, l = [⟨k, p, e, ch, ts⟩]) := by
  intro c hc
  rw [pushEvent_all hc]
  exact ⟨hc, _, rfl, _, _, rfl⟩

theorem Tale.event_then {p : Phase} {e : Event} {ts : List Tri} {ids nbs : List Nat} {f : Unit → D β} {S : Option β → List Snap → Prop}
    (hf : Tale (f ()) S) (h : ∀ o l k ch, S o l → T o (⟨k, p, e, ch, ts⟩ :: l)) : Tale (pushEvent p e ts ids nbs >>= f) T := by
  intro c hc
  rw [D.bind_def, pushEvent_all hc]
  obtain ⟨g1, l, g2, g3⟩ := hf { c with snaps := c.snaps ++ [⟨c.step, p, e, ids ++ nbs.filter (fun n => decide (n ≠ NONE)), ts⟩] } hc
  exact ⟨g1, _ :: l, by simp only at g2 ⊢; rw [g2, List.append_assoc]; rfl, h _ _ _ _ g3⟩

theorem Tale.advance {f : Bool → D β} (hf : ∀ b, Tale (f b) T) : Tale (advanceStep >>= f) T := by
  intro c hc
  rw [D.bind_def]
  exact hf (forcedEnd c.cfg.forceEnd (c.step + 1)) { c with step := c.step + 1 } hc

end

section
open Spec
variable {K : Type} [Field K] [LinearOrder K] [IsStrictOrderedRing K] [FloorRing K] [ExactParams K] [IdCfg]
variable {vs : List (Vtx K)} {ts : List Tri}

/-- Swaps that each add a triangle at `p`, which has `d` before. -/
def Grow (p d : Nat) (l : List Snap) : Prop :=
  ∀ (i : Nat) (x : Snap), l[i]? = some x → x.phase = .restoreSwap ∧ x.event = .snapshot ∧ degree p x.ts = d + 1 + i

theorem Grow.nil (p d : Nat) : Grow p d [] := by intro i x h; simp at h

theorem Grow.cons {p d : Nat} {s : Snap} {l : List Snap} (h : Grow p (d + 1) l) (h1 : s.phase = .restoreSwap) (h2 : s.event = .snapshot)
    (h3 : degree p s.ts = d + 1) : Grow p d (s :: l) := by
  intro i x hx
  cases i with
  | zero => simp at hx; subst hx; exact ⟨h1, h2, by omega⟩
  | succ i =>
    obtain ⟨g1, g2, g3⟩ := h i x (by simpa using hx)
    exact ⟨g1, g2, by omega⟩

theorem degree_pCount {p : Nat} {st : List (Nat × Nat)} (h : RInv vs p ts st) : degree p ts = pCount p ts := by
  unfold degree pCount
  refine List.countP_congr fun t ht => ?_
  rw [decide_eq_true_eq, decide_eq_true_eq]
  refine ⟨fun hc => ?_, .inl⟩
  obtain ⟨i, hi⟩ := List.mem_iff_getElem?.1 ht
  exact h.first i t hi (hasVert_iff.2 hc)

/-- A swap adds exactly one triangle at the inserted vertex. -/
theorem degree_swap {p a b : Nat} {st : List (Nat × Nat)} (hn : vs.length ≤ INF0) (hpl : p < vs.length)
    (hI : RInv vs p ts ((a, b) :: st)) {r : List Tri × List (Nat × Nat)} (h : checkAndSwap vs p ts a b st = .ok r) {t2 : Tri}
    (ht2 : ts[b]? = some t2) (hsw : shouldSwap vs (quadOf t2 a p).1 = .ok true) : degree p r.1 = degree p ts + 1 := by
  have hv := hI.valid
  obtain ⟨T, hT, hT1, hT2, hb⟩ := hI.stack (a, b) (by simp)
  simp only at hT hT2 hb
  have hne : b ≠ a := hv.ne_self ⟨T, hT, hT2 ▸ has_1 T⟩
  obtain ⟨t2', ht2', hcase⟩ := checkAndSwap_ok h
  rw [ht2] at ht2'
  cases ht2'
  rcases hcase with ⟨h1, -⟩ | ⟨-, t1, ts1, ht1, h1, h2, -⟩
  · rw [hsw] at h1; simp at h1
  rw [hT] at ht1
  cases ht1
  have hU : t2.hasVert p = false := by
    obtain ⟨v1, x, y, n2, n23, n1⟩ := T
    simp only at hT hT1 hT2
    subst hT1 hT2
    have hls := lt_of_getElem? hT
    have hN := hv.len
    obtain ⟨U, c, n3, n4, hU, hRU, hcase⟩ := checkAndSwap_total (st := st) hv hn hI.ok hpl hT hb
    rw [ht2] at hU
    cases hU
    have hR := rot_self (⟨v1, x, y, n2, n23, n1⟩ : Tri)
    simp only at hR
    have pS := hv.pos _ _ hT
    rw [quadOf_rot hv ht2 hRU (by omega)] at hsw
    rcases hcase with ⟨hc, -⟩ | ⟨-, -, -, -, -, -, -, g2⟩
    · rw [hsw] at hc; simp at hc
    · have hpc : v1 ≠ c := by
        rintro rfl; rw [HP.o_same] at g2; exact lt_irrefl _ g2
      rw [← Bool.not_eq_true, hRU.hasVert]
      rintro (h | h | h)
      · exact pS.has_ne hR.has3 h
      · exact pS.has_ne hR.has1 h.symm
      · exact hpc h.symm
  have k1 := degree_set (v := p) (u := ⟨(quadOf t2 a p).1.q4, (quadOf t2 a p).1.q1, (quadOf t2 a p).1.q3, T.n12, (quadOf t2 a p).2.1, b⟩) hT
  have k2 := degree_set (v := p) (ts := ts.set a ⟨(quadOf t2 a p).1.q4, (quadOf t2 a p).1.q1, (quadOf t2 a p).1.q3, T.n12, (quadOf t2 a p).2.1, b⟩)
    (i := b) (t := t2) (u := ⟨(quadOf t2 a p).1.q4, (quadOf t2 a p).1.q3, (quadOf t2 a p).1.q2, a, (quadOf t2 a p).2.2, T.n31⟩)
    (by rw [List.getElem?_set_ne hne.symm]; exact ht2)
  rw [← degree_updNb h1, ← degree_updNb h2, hU] at k2
  rw [quadOf_q4, hasVert_fst, hasVert_iff.2 (.inl hT1)] at k1
  rw [quadOf_q4, hasVert_fst] at k2
  simp only [if_true, Bool.false_eq_true, if_false] at k1 k2
  omega

/-- What a step of the restoration records. -/
theorem checkAndSwapD_tale {p a b : Nat} {st : List (Nat × Nat)} (hn : vs.length ≤ INF0) (hpl : p < vs.length)
    (hI : RInv vs p ts ((a, b) :: st)) : Tale (checkAndSwapD vs p ts a b st)
      (fun o l => (l = [] ∧ ∀ r, o = some r → r.1 = ts) ∨ ∃ s, l = [s] ∧ s.phase = .restoreSwap ∧ s.event = .snapshot ∧
        degree p s.ts = degree p ts + 1 ∧ ∀ r, o = some r → r.1 = s.ts) := by
  have nil : ((([] : List Snap) = [] ∧ ∀ r : List Tri × List (Nat × Nat), none = some r → r.1 = ts) ∨ ∃ s : Snap, [] = [s] ∧
      s.phase = .restoreSwap ∧ s.event = .snapshot ∧ degree p s.ts = degree p ts + 1 ∧
        ∀ r : List Tri × List (Nat × Nat), none = some r → r.1 = s.ts) := .inl ⟨rfl, by simp⟩
  unfold checkAndSwapD
  refine Tale.lift (fun t2 h1 => Tale.lift (fun sw h2 => ?_) nil) nil
  split
  · rename_i hsw
    refine Tale.lift (fun t1 h3 => Tale.lift (fun ts1 h4 => Tale.lift (fun ts2 h5 => ?_) nil) nil) nil
    have hc : checkAndSwap vs p ts a b st = .ok (ts2, pushQ (pushQ st a (quadOf t2 a p).2.1) b (quadOf t2 a p).2.2) := by
      unfold checkAndSwap
      simp only [h1, h2, Res.ok_bind, hsw, if_true, h3, h4, h5]
    have hd := degree_swap hn hpl hI hc (getI_eq_ok.1 h1) (by rw [h2, hsw])
    refine Tale.event_then (S := fun o l => l = [] ∧ ∀ r, o = some r → r.1 = ts2) (Tale.pure ⟨rfl, by simp⟩) ?_
    rintro o l k ch ⟨rfl, h⟩
    exact .inr ⟨_, rfl, rfl, rfl, hd, h⟩
  · exact Tale.pure (.inl ⟨rfl, by simp⟩)

/-- What the restoration records. -/
theorem restoreD_tale {p : Nat} (hn : vs.length ≤ INF0) (hpl : p < vs.length) (fuel : Nat) : ∀ (ts : List Tri) (st : List (Nat × Nat)),
    RInv vs p ts st → Tale (restoreD vs p fuel ts st) (fun _ l => Grow p (degree p ts) l) := by
  induction fuel with
  | zero =>
    intro ts st hI
    cases st with
    | nil => unfold restoreD; exact Tale.pure (Grow.nil _ _)
    | cons e st => unfold restoreD; exact Tale.last fun _ => Grow.nil _ _
  | succ n ih =>
    intro ts st hI
    cases st with
    | nil => unfold restoreD; exact Tale.pure (Grow.nil _ _)
    | cons e st =>
      obtain ⟨a, b⟩ := e
      obtain ⟨ts', st', e, hI', -⟩ := hI.step hn hpl
      unfold restoreD
      refine Tale.bind (checkAndSwapD_tale hn hpl hI) (checkAndSwapD_quiet _ _ _ _ _ _)
        (S' := fun r _ l => Grow p (degree p r.1) l) (fun r h => ?_) ?_ ?_
      · rw [e] at h
        cases h
        exact ih ts' st' hI'
      · rintro r o l l' h (⟨rfl, h1⟩ | ⟨s, rfl, h1, h2, h3, h4⟩) h'
        · rw [h1 r rfl] at h'
          exact h'
        · rw [h4 r rfl, h3] at h'
          exact h'.cons h1 h2 h3
      · rintro l (⟨rfl, h1⟩ | ⟨s, rfl, h1, h2, h3, h4⟩)
        · exact Grow.nil _ _
        · exact (Grow.nil _ _).cons h1 h2 h3

/-- The snapshots of one insertion. -/
def Block (v : Nat) (l : List Snap) : Prop :=
  l = [] ∨ ∃ s sw, l = s :: sw ∧ (s.phase = .splitTriangle ∨ s.phase = .splitQuad) ∧ s.event = .split v ∧
    degree v s.ts = splitDegree s.phase ∧ Grow v (splitDegree s.phase) sw

theorem insertVertexD_tale {done ins : List Nat} {s : DT} {vid fuel : Nat} (hI : DInv vs done ins s)
    (hsep : Sep vs) (hn : vs.length ≤ INF0) (hvl : vid < vs.length) (hvd : vid ∉ done)
    (hlen : s.ts.length + 2 ≤ NONE) : Tale (insertVertexD vs fuel s vid) (fun _ l => Block vid l) := by
  have nil : Block vid [] := .inl rfl
  have hfresh : ∀ t ∈ s.ts, t.hasVert vid = false := by
    intro t ht
    rw [← Bool.not_eq_true, hasVert_iff]
    have hv := hI.verts t ht
    rw [forall_fin3] at hv
    have no : ∀ w, (w ∈ ins ∨ (INF0 ≤ w ∧ w ≤ INF3)) → w ≠ vid := by
      rintro w (hw | hw) rfl
      · exact hvd (hI.sub _ hw)
      · omega
    rintro (h | h | h)
    · exact no _ hv.1 h
    · exact no _ hv.2.1 h
    · exact no _ hv.2.2 h
  obtain ⟨sh, h1, h2⟩ := insertWith_shape hI hsep hn hvl hvd hlen
  have fin : ∀ r : List Tri × List (Nat × Nat), (∀ G, insertWith vs G s vid = G r) →
      Tale (finishInsertD vs fuel vid s.merge r) (fun _ l => Grow vid (degree vid r.1) l) := by
    intro r h
    have := shape_go h h1
    subst this
    obtain ⟨a1, a2, a3, a4, a5, a6⟩ := h2
    unfold finishInsertD
    refine Tale.bind' (restoreD_tale hn hvl _ _ _ a4) (S' := fun _ l => l = []) (fun _ => Tale.lift (fun _ _ => Tale.pure rfl) rfl) ?_ ?_
    · rintro a o l l' h rfl
      simpa using h
    · intro l h; exact h
  unfold insertVertexD
  refine Tale.lift (fun p hp' => Tale.lift (fun pl hpl => ?_) nil) nil
  cases pl with
  | notFound => exact Tale.last fun _ => nil
  | inside t =>
    have go : ∀ r, split3 s.ts t vid = .ok r → ∀ G, insertWith vs G s vid = G r := by
      intro r hs G
      unfold insertWith
      simp only [hp', hpl, hs, Res.ok_bind]
    refine Tale.bind (S := fun o l => ((l = [] ∧ o = none) ∨ o ≠ none ∧ ∃ x, l = [x] ∧ x.phase = .splitTriangle ∧ x.event = .split vid ∧
      ∀ r, split3 s.ts t vid = .ok r → x.ts = r.1)) ?_ (split3D_quiet _ _ _) (fun r hs => fin r (go r hs)) ?_ ?_
    · unfold split3D
      refine Tale.lift (fun r hr => ?_) (.inl ⟨rfl, rfl⟩)
      refine Tale.event_then (S := fun o l => o ≠ none ∧ l = []) (Tale.pure ⟨by simp, rfl⟩) ?_
      rintro o l k ch ⟨ho, rfl⟩
      refine .inr ⟨ho, _, rfl, rfl, rfl, fun r' h' => ?_⟩
      rw [hr] at h'
      cases h'
      rfl
    · rintro r o l l' hr (⟨-, h⟩ | ⟨-, x, rfl, x1, x2, x3⟩) h'
      · simp at h
      · have e := degree_split3 hr hfresh
        rw [e] at h'
        refine .inr ⟨x, l', rfl, .inl x1, x2, ?_, ?_⟩
        · rw [x3 r hr, e, x1]; rfl
        · rw [x1]; exact h'
    · rintro l (⟨rfl, -⟩ | ⟨h, -⟩)
      · exact nil
      · simp at h
  | onEdge t ei e =>
    dsimp only
    refine Tale.lift (fun cs hcs => ?_) nil
    split
    · exact Tale.pure nil
    rename_i hcs'
    unfold insertOnEdgeD
    refine Tale.lift (fun cd hcd => ?_) nil
    split
    · exact Tale.pure nil
    rename_i hcd'
    have go : ∀ r, split4 s.ts t ei e vid = .ok r → ∀ G, insertWith vs G s vid = G r := by
      intro r hs G
      unfold insertWith
      simp only [hp', hpl, Res.ok_bind]
      have near : ∀ {v : Nat} {cb : Bool}, (if isFin v = true then (do
          let a ← getI vs v
          pure (tooClose a p) : Res Bool)
        else pure false) = .ok cb → ¬ cb = true →
          isFin v = false ∨ ∃ a, isFin v = true ∧ getI vs v = .ok a ∧ tooClose a p = false := by
        intro v cb hv hcb
        cases hf : isFin v with
        | false => exact .inl rfl
        | true =>
          rw [hf, if_pos rfl, Res.bind_eq_ok] at hv
          obtain ⟨a, h1, h2⟩ := hv
          have h3 : tooClose a p = cb := by simpa using h2
          exact .inr ⟨a, rfl, h1, by rw [h3]; simpa using hcb⟩
      rcases near hcs hcs' with h3 | ⟨x, h3, h4, h5⟩ <;> rcases near hcd hcd' with k3 | ⟨y, k3, k4, k5⟩ <;>
        simp [h3, k3, *]
    refine Tale.bind (S := fun o l => ((l = [] ∧ o = none) ∨ o ≠ none ∧ ∃ x, l = [x] ∧ x.phase = .splitQuad ∧ x.event = .split vid ∧
      ∀ r, split4 s.ts t ei e vid = .ok r → x.ts = r.1)) ?_ (split4D_quiet _ _ _ _ _) (fun r hs => fin r (go r hs)) ?_ ?_
    · unfold split4D
      refine Tale.lift (fun a _ => Tale.lift (fun r hr => ?_) (.inl ⟨rfl, rfl⟩)) (.inl ⟨rfl, rfl⟩)
      refine Tale.event_then (S := fun o l => o ≠ none ∧ l = []) (Tale.pure ⟨by simp, rfl⟩) ?_
      rintro o l k ch ⟨ho, rfl⟩
      refine .inr ⟨ho, _, rfl, rfl, rfl, fun r' h' => ?_⟩
      rw [hr] at h'
      cases h'
      rfl
    · rintro r o l l' hr (⟨-, h⟩ | ⟨-, x, rfl, x1, x2, x3⟩) h'
      · simp at h
      · have e := degree_split4 hr hfresh fun a ha => hI.valid.ne_self ⟨a, ha, has_k a ei⟩
        rw [e] at h'
        refine .inr ⟨x, l', rfl, .inr x1, x2, ?_, ?_⟩
        · rw [x3 r hr, e, x1]; rfl
        · rw [x1]; exact h'
    · rintro l (⟨rfl, -⟩ | ⟨h, -⟩)
      · exact nil
      · simp at h

/-- Counted swaps, not starting with a swap. -/
def Counted (l : List Snap) : Prop := SwapsCount l ∧ ∀ x, l[0]? = some x → x.phase ≠ .restoreSwap

theorem Counted.nil : Counted [] := ⟨by intro i j v s x h; simp at h, by simp⟩

theorem Counted.cons {s : Snap} {sw l : List Snap} (hl : Counted l) {v : Nat} (hs : s.phase ≠ .restoreSwap)
    (h : s.event = .split v → degree v s.ts = splitDegree s.phase ∧ Grow v (splitDegree s.phase) sw) (hv : ∀ w, s.event = .split w → w = v)
    (hsw : ∀ x ∈ sw, x.event = .snapshot) : Counted (s :: (sw ++ l)) := by
  refine ⟨?_, by simp; exact hs⟩
  intro i j w y x hy hw hr hx
  cases i with
  | zero =>
    simp at hy
    subst hy
    obtain rfl := hv w hw
    obtain ⟨h1, h2⟩ := h hw
    cases j with
    | zero => simp at hx; subst hx; simpa using h1
    | succ j =>
      by_cases hj : j < sw.length
      · rw [show 0 + (j + 1) = j + 1 by omega, List.getElem?_cons_succ, List.getElem?_append_left hj] at hx
        have := (h2 j x hx).2.2
        omega
      · exfalso
        obtain ⟨z, hz, hz'⟩ := hr (sw.length + 1) (by omega) (by omega)
        rw [List.getElem?_cons_succ, List.getElem?_append_right le_rfl, Nat.sub_self] at hz
        exact hl.2 z hz hz'
  | succ i =>
    rw [List.getElem?_cons_succ] at hy
    by_cases hi : i < sw.length
    · rw [List.getElem?_append_left hi] at hy
      rw [hsw y (List.mem_of_getElem? hy)] at hw
      simp at hw
    · rw [List.getElem?_append_right (by omega)] at hy
      refine hl.1 (i - sw.length) j w y x hy hw (fun m hm hm' => ?_) ?_
      · obtain ⟨z, hz, hz'⟩ := hr (m + sw.length + 1) (by omega) (by omega)
        rw [List.getElem?_cons_succ, List.getElem?_append_right (by omega)] at hz
        exact ⟨z, by rw [← hz]; congr 1; omega, hz'⟩
      · rw [show i + 1 + j = (i + j) + 1 by omega, List.getElem?_cons_succ, List.getElem?_append_right (by omega)] at hx
        rw [← hx]; congr 1; omega

theorem Counted.block {v : Nat} {l l' : List Snap} (h : Block v l) (h' : Counted l') : Counted (l ++ l') := by
  rcases h with rfl | ⟨s, sw, rfl, h1, h2, h3, h4⟩
  · exact h'
  · refine Counted.cons h' (v := v) ?_ (fun _ => ⟨h3, h4⟩) ?_ ?_
    · rcases h1 with h1 | h1 <;> rw [h1] <;> decide
    · intro w hw; rw [h2] at hw; simpa using hw.symm
    · intro x hx
      obtain ⟨i, hi⟩ := List.mem_iff_getElem?.1 hx
      exact (h4 i x hi).2.1

/-- Snapshots of other phases in front change nothing. -/
theorem Counted.other {l l' : List Snap} (h : ∀ s ∈ l, s.phase ≠ .restoreSwap ∧ s.event = .snapshot) (h' : Counted l') : Counted (l ++ l') := by
  induction l with
  | nil => exact h'
  | cons s l ih =>
    have h1 := h s (by simp)
    have := Counted.cons (sw := []) (v := 0) (ih fun x hx => h x (by simp [hx])) h1.1 (by rw [h1.2]; simp) (by rw [h1.2]; simp) (by simp)
    simpa using this

/-- Snapshots of other phases behind change nothing. -/
theorem Counted.append_other {l l' : List Snap} (h : Counted l) (h' : ∀ s ∈ l', s.phase ≠ .restoreSwap ∧ s.event = .snapshot) :
    Counted (l ++ l') := by
  refine ⟨?_, ?_⟩
  · intro i j v s x hs hv hr hx
    have hil : i < l.length := by
      by_contra hc
      rw [List.getElem?_append_right (by omega)] at hs
      rw [(h' s (List.mem_of_getElem? hs)).2] at hv
      simp at hv
    have hjl : i + j < l.length := by
      by_contra hc
      obtain ⟨y, hy, hy'⟩ := hr l.length hil (by omega)
      rw [List.getElem?_append_right le_rfl] at hy
      exact (h' y (List.mem_of_getElem? hy)).1 hy'
    rw [List.getElem?_append_left hil] at hs
    rw [List.getElem?_append_left hjl] at hx
    refine h.1 i j v s x hs hv (fun m hm hm' => ?_) hx
    obtain ⟨y, hy, hy'⟩ := hr m hm hm'
    rw [List.getElem?_append_left (by omega)] at hy
    exact ⟨y, hy, hy'⟩
  · intro x hx
    cases l with
    | nil => exact (h' x (List.mem_of_getElem? hx)).1
    | cons s l => exact h.2 x (by simpa using hx)

theorem insertAllD_tale {fuel : Nat} (hsep : Sep vs) (hn : 2 * vs.length + 2 ≤ NONE)
    (hfuel : 6 * vs.length + 10 ≤ fuel) (rest done ins : List Nat) (s : DT) (hI : DInv vs done ins s)
    (hnd : rest.Nodup) (hdis : ∀ v ∈ rest, v ∉ done) (hlt : ∀ v ∈ rest, v < vs.length)
    (hcard : done.length + rest.length ≤ vs.length) : Tale (insertAllD vs fuel rest s) (fun _ l => Counted l) := by
  have hB := IdCfg.big
  have hni : vs.length ≤ INF0 := by unfold NONE at *; unfold INF0; omega
  induction rest generalizing done ins s with
  | nil => exact Tale.pure .nil
  | cons v rest ih =>
    have hl := hI.len
    rw [List.nodup_cons] at hnd
    simp only [List.length_cons] at hcard
    have hlen : s.ts.length + 2 ≤ NONE := by omega
    unfold insertAllD
    refine Tale.advance fun b => ?_
    split
    · exact Tale.pure .nil
    refine Tale.bind (insertVertexD_tale hI hsep hni (hlt v (by simp)) (hdis v (by simp)) hlen) (insertVertexD_quiet _ _ _ _)
      (S' := fun _ _ l => Counted l) (fun s' hs' => ?_) (fun _ _ l l' _ h h' => Counted.block h h')
      (fun l h => by simpa using Counted.block h .nil)
    have ht := insertVertex_total (fuel := fuel) hI hsep hni (hlt v (by simp)) (hdis v (by simp)) (by omega) hlen
    rw [hs'] at ht
    have hdis' : ∀ w ∈ rest, w ∉ v :: done := by
      intro w hw hc
      rcases List.mem_cons.1 hc with rfl | hc
      · exact hnd.1 hw
      · exact hdis w (by simp [hw]) hc
    cases ht with
    | merged h ht => exact ih _ _ _ h hnd.2 hdis' (fun w hw => hlt w (by simp [hw])) (by simp; omega)
    | inserted h hs hr' => exact ih _ _ _ h hnd.2 hdis' (fun w hw => hlt w (by simp [hw])) (by simp; omega)

theorem wrapD_tale {fuel : Nat} {bins : Nat → Nat} {ws : List (Vtx K)} (h : Good fuel bins ws) {m : Option (List Nat)}
    (hm : MergeInit ws.length m) :
    Tale (wrapAndTriangulateD fuel (bins ws.length) (normalizeVerts ws) m) (fun _ l => Counted l) := by
  have hB := IdCfg.big
  have hl : (normalizeVerts ws).length = ws.length := by rw [normalizeVerts_eq]; simp
  have hni : ws.length ≤ INF0 := by have := h.ids; unfold NONE at *; unfold INF0; omega
  unfold wrapAndTriangulateD
  refine Tale.lift (fun sorted hb => ?_) .nil
  cases sorted with
  | nil => exact Tale.last fun _ => .nil
  | cons first rest =>
    have hperm := binSort_perm (by rw [hl]; have := h.ids; unfold NONE at this; omega) hb
    have hnd : (first :: rest).Nodup := hperm.nodup_iff.2 List.nodup_range
    have hlt : ∀ v ∈ first :: rest, v < (normalizeVerts ws).length := fun v hv => by simpa using hperm.subset hv
    have hlen := hperm.length_eq
    simp at hlen
    rw [List.nodup_cons] at hnd
    have hD := initial_dinv (hlt first (by simp)) (by rw [hl]; exact hni) m (by rw [hl]; exact hm)
    refine Tale.lift (fun tid ht => ?_) .nil
    rw [lastId_initial] at ht
    cases ht
    refine Tale.event_then (insertAllD_tale h.sep (by rw [hl]; exact h.ids) (by rw [hl]; exact h.fuel) rest [first] [first] _ hD hnd.2
      (by intro v hv hc; simp at hc; subst hc; exact hnd.1 hv) (fun v hv => hlt v (by simp [hv]))
      (by simp only [List.length_cons, List.length_nil]; omega)) ?_
    intro o l k ch hc
    exact Counted.other (l := [_]) (by simp) hc

/-- **C98**: every split leaves three triangles (four on an edge) at the inserted vertex, and every swap that follows adds exactly one.
So an insertion swaps as many diagonals as its vertex has triangles afterwards, minus three or four. -/
theorem C98_swaps {fuel : Nat} {bins : Nat → Nat} {ws : List (Vtx K)} (h : Good fuel bins ws) (cfg : DebugCfg)
    (hc : cfg.phases = .all ∧ cfg.steps = .all) : SwapsCount (triangulation2dD fuel bins ws cfg).2.snaps := by
  unfold triangulation2dD
  split
  · intro i j v s x hs; simp [DCtx.new] at hs
  · have ht : Tale (do
        let s ← wrapAndTriangulateD fuel (bins ws.length) (normalizeVerts ws) none
        pushSnap .filterTriangles (s.ts.filter Tri.isFinite) [] []
        pure (filterSeq s.ts) : D (List Out)) (fun _ l => Counted l) := by
      refine Tale.bind' (wrapD_tale h (mergeInit_none _)) (S' := fun _ l => ∀ s ∈ l, s.phase ≠ .restoreSwap ∧ s.event = .snapshot)
        (fun s => Tale.event_then (S := fun _ l => l = []) (Tale.pure rfl) ?_) (fun _ _ l l' g g' => g.append_other g') (fun l g => g)
      rintro o l k ch rfl
      simp
    obtain ⟨-, l, h1, h2⟩ := ht (.new cfg) hc
    rw [h1]
    simpa [DCtx.new] using h2.1

/-- **C98** with constraints. -/
theorem C98_swaps_cdt {fuel : Nat} {bins : Nat → Nat} {ws : List (Vtx K)} (h : Good fuel bins ws) (es : List Edge) (cfg : DebugCfg)
    (hc : cfg.phases = .all ∧ cfg.steps = .all) : SwapsCount (constrained2dD fuel bins ws es cfg).2.snaps := by
  have hoth : ∀ {α : Type} {p : Phase} {ts : List Tri} {ids nbs : List Nat} {f : Unit → D α}, p ≠ .restoreSwap →
      Tale (f ()) (fun _ l => ∀ s ∈ l, s.phase ≠ .restoreSwap ∧ s.event = .snapshot) →
      Tale (pushSnap p ts ids nbs >>= f) (fun _ l => ∀ s ∈ l, s.phase ≠ .restoreSwap ∧ s.event = .snapshot) := by
    intro α p ts ids nbs f hp hf
    refine Tale.event_then hf ?_
    intro o l k ch hl s hs
    rcases List.mem_cons.1 hs with rfl | hs
    · exact ⟨hp, rfl⟩
    · exact hl s hs
  unfold constrained2dD
  split
  · intro i j v s x hs; simp [DCtx.new] at hs
  · have ht : Tale (do
        let nv := normalizeVerts ws
        let s ← wrapAndTriangulateD fuel (bins ws.length) nv (some ((List.range ws.length).map toId))
        pushSnap .beforeConstraints s.ts [] []
        let r ← applyConstraintsD nv fuel s.ts es (s.merge.getD [])
        pushSnap .afterConstraints r.ts [] []
        cdtFilterD fuel r.ts r.S : D (List Out)) (fun _ l => Counted l) := by
      refine Tale.bind' (wrapD_tale h (mergeInit_range _ (by have := h.ids; omega)))
        (S' := fun _ l => ∀ s ∈ l, s.phase ≠ .restoreSwap ∧ s.event = .snapshot)
        (fun s => hoth (by decide) ?_) (fun _ _ l l' g g' => g.append_other g') (fun l g => g)
      refine Tale.bind' (S := fun _ l => ∀ s ∈ l, s.phase ≠ .restoreSwap ∧ s.event = .snapshot) ?_
        (S' := fun _ l => ∀ s ∈ l, s.phase ≠ .restoreSwap ∧ s.event = .snapshot) (fun r => hoth (by decide) ?_) ?_ (fun l g => g)
      · refine (Story.tale (applyConstraintsD_story _ fuel s.ts es _)).mono ?_
        rintro o l ⟨k, b, k', -, hp⟩ x hx
        induction hp with
        | stop => simp at hx
        | next k e es b l hb hp ih =>
          rcases List.mem_append.1 hx with hx | hx
          · obtain ⟨g1, g2, -⟩ := hb x hx
            exact ⟨by rw [g1]; decide, g2⟩
          · exact ih hx
      · refine (Story.tale (cdtFilterD_story fuel r.ts r.S)).mono ?_
        rintro o l ⟨k, b, k', -, (⟨-, rfl⟩ | ⟨-, s, rfl, g1, g2, -⟩)⟩ x hx
        · simp at hx
        · simp only [List.mem_singleton] at hx
          subst hx
          exact ⟨by rw [g1]; decide, g2⟩
      · intro a o l l' g g' x hx
        rcases List.mem_append.1 hx with hx | hx
        · exact g x hx
        · exact g' x hx
    obtain ⟨-, l, h1, h2⟩ := ht (.new cfg) hc
    rw [h1]
    simpa [DCtx.new] using h2.1

end

/-! ## Rounded arithmetic -/

section
variable {F : Type} [FloatOps F] [Rounded F] [IdCfg] (fuel : Nat) (bins : Nat → Nat) (vs : List (Vtx F)) (V : List (Vtx ℚ)) (W : ℚ)

/-- **C98** in rounded arithmetic. -/
theorem C98_swaps_rounded (h : RGood fuel bins vs V W) (cfg : DebugCfg) (hc : cfg.phases = .all ∧ cfg.steps = .all) :
    Spec.SwapsCount (triangulation2dD fuel bins vs cfg).2.snaps := by
  let P := params F (bins vs.length) W (scaleVal vs)
  rw [h.runD cfg]
  exact C98_swaps h.good cfg hc

/-- **C98** with constraints in rounded arithmetic. -/
theorem C98_swaps_cdt_rounded (h : RGoodC fuel bins vs V W) (es : List Edge) (cfg : DebugCfg)
    (hc : cfg.phases = .all ∧ cfg.steps = .all) : Spec.SwapsCount (constrained2dD fuel bins vs es cfg).2.snaps := by
  let P := params F (bins vs.length) W (scaleVal vs)
  rw [h.runD es cfg]
  exact C98_swaps_cdt h.toRGood.good es cfg hc

/-- **C38**, validity in rounded arithmetic: on a robust input the mesh at a forced end is valid. -/
theorem C38_valid_rounded (h : RGood fuel bins vs V W) (cfg : DebugCfg) (k : Nat) (hf : cfg.forceEnd = some k) (hn : 3 ≤ vs.length)
    (first : Nat) (rest : List Nat) (hb : binSort (bins vs.length) (normalizeVerts vs) = .ok (first :: rest)) (out : List Out)
    (ho : (triangulation2dD fuel bins vs cfg).1 = .ok out) :
    ∃ ts : List Tri, Spec.Adjacency ts ∧ (∀ t ∈ ts, FarClockwise V t.v1 t.v2 t.v3) ∧
      (∀ t ∈ ts, ∀ v, v = t.v1 ∨ v = t.v2 ∨ v = t.v3 → v ∈ (first :: rest).take (max 1 k) ∨ (INF0 ≤ v ∧ v ≤ INF3)) ∧
      out = filterSeq ts := by
  obtain ⟨-, h2⟩ := C38_prefix fuel bins vs cfg k hf hn first rest hb
  rw [h2, Res.bind_eq_ok] at ho
  obtain ⟨s, hs, ho⟩ := ho
  simp only [Res.ok.injEq] at ho
  obtain ⟨g1, g2, g3⟩ := C33_rounded_partial h first rest hb (k - 1) s hs
  refine ⟨s.ts, g1, g2, ?_, ho.symm⟩
  have : max 1 k = (k - 1) + 1 := by omega
  rw [this, List.take_succ_cons]
  exact g3

end

/-! ## Example -/

section
attribute [local instance] restoredCfg

/-- A run in binary64: vertex 3 is inserted by a split (snapshot 8) and two swaps (9 and 10), and has five triangles then. -/
example : Spec.SwapsCount (constrained2dD (F := F64) 506 (fun _ => 1) (flPts binary64 localGrid) localEdges {}).2.snaps ∧
    ((constrained2dD (F := F64) 506 (fun _ => 1) (flPts binary64 localGrid) localEdges {}).2.snaps.map
      fun s => (s.phase, s.event, Spec.degree 3 s.ts))[8]? = some (.splitTriangle, .split 3, 3) ∧
    ((constrained2dD (F := F64) 506 (fun _ => 1) (flPts binary64 localGrid) localEdges {}).2.snaps.map
      fun s => (s.phase, s.event, Spec.degree 3 s.ts))[10]? = some (.restoreSwap, .snapshot, 5) :=
  ⟨C98_swaps_cdt_rounded 506 (fun _ => 1) _ _ _ local_good localEdges {} ⟨rfl, rfl⟩, by decide +kernel, by decide +kernel⟩

/-- The run that is forced to end at step 6 (vertices 9 to 4 are inserted) returns the triangles of the complete result between these
vertices, among others. -/
example : (((triangulation2d (F := F64) 506 (fun _ => 1) (flPts binary64 localGrid)).value.getD []).filter
      (Spec.free ([9, 8, 7, 6, 5, 4, 3, 2, 1, 0].drop (max 1 6)))) = [(5, 7, 6), (4, 6, 9), (4, 5, 6)] ∧
    ∃ outk, (triangulation2dD (F := F64) 506 (fun _ => 1) (flPts binary64 localGrid) {forceEnd := some 6}).1 = .ok outk ∧
      [(5, 7, 6), (4, 6, 9), (4, 5, 6)].Sublist outk := by
  have hb : binSort 1 (normalizeVerts (F := F64) (flPts binary64 localGrid)) = .ok [9, 8, 7, 6, 5, 4, 3, 2, 1, 0] := by decide +kernel
  have h1 : (((triangulation2d (F := F64) 506 (fun _ => 1) (flPts binary64 localGrid)).value.getD []).filter
      (Spec.free ([9, 8, 7, 6, 5, 4, 3, 2, 1, 0].drop (max 1 6)))) = [(5, 7, 6), (4, 6, 9), (4, 5, 6)] := by decide +kernel
  have h2 : (triangulation2d (F := F64) 506 (fun _ => 1) (flPts binary64 localGrid)) = .ok
      ((triangulation2d (F := F64) 506 (fun _ => 1) (flPts binary64 localGrid)).value.getD []) := by decide +kernel
  have h3 : (triangulation2dD (F := F64) 506 (fun _ => 1) (flPts binary64 localGrid) {forceEnd := some 6}).1 = .ok
      ((triangulation2dD (F := F64) 506 (fun _ => 1) (flPts binary64 localGrid) {forceEnd := some 6}).1.value.getD []) := by decide +kernel
  refine ⟨h1, _, h3, ?_⟩
  have := C98_forced (F := F64) 506 (fun _ => 1) _ {forceEnd := some 6} 6 rfl (by decide +kernel) 9 _ hb _ _ h2 h3
  rwa [h1] at this

end

end CDT

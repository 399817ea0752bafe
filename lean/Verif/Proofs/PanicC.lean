import Verif.Proofs.GenericC
import Verif.Proofs.Panic

/-!
# Where the constrained phase can panic

No law of arithmetic is used: only ids are known to be in range, which every operation keeps whatever the predicates answer.
-/

set_option linter.unusedSectionVars false
set_option linter.unusedSimpArgs false
set_option linter.unusedVariables false

namespace CDT
open FloatOps

variable {F : Type} [FloatOps F] [IdCfg]

/-- Ids of the mesh and of `vertex_to_triangle` are in range. -/
structure IdsC (n : Nat) (ts : List Tri) (v2t : List Nat) : Prop where
  vert : VertsIn (IdOk n) ts
  nbr : NbrsIn (fun j => j < ts.length ∨ j = NONE) ts
  tri : ∀ i ∈ v2t, i < ts.length
  len : v2t.length = n
  big : ts.length ≤ NONE

/-- Ids of the queues are in range. -/
def QueueOk (n m : Nat) (l : List EdgeData) : Prop := ∀ d ∈ l, d.f < m ∧ d.t < m ∧ IdOk n d.edge.src ∧ IdOk n d.edge.dst

theorem EdgeData.upd_lt {m : Nat} (d : EdgeData) (a b : Nat) {f t : Nat} (hf : f < m) (ht : t < m) (h : d.f < m ∧ d.t < m) :
    (d.upd a b f t).f < m ∧ (d.upd a b f t).t < m := by
  obtain ⟨h1, h2⟩ := h
  unfold EdgeData.upd
  dsimp only
  repeat' split
  all_goals refine ⟨?_, ?_⟩ <;> first | exact h1 | exact h2 | exact hf | exact ht

theorem QueueOk.map_upd {n m : Nat} {l : List EdgeData} (h : QueueOk n m l) (a b : Nat) {f t : Nat} (hf : f < m) (ht : t < m) :
    QueueOk n m (l.map (·.upd a b f t)) := by
  intro d hd
  obtain ⟨d0, h0, rfl⟩ := List.mem_map.1 hd
  obtain ⟨h1, h2, h3, h4⟩ := h d0 h0
  obtain ⟨h5, h6⟩ := d0.upd_lt a b hf ht ⟨h1, h2⟩
  refine ⟨h5, h6, ?_⟩
  rw [EdgeData.upd_edge]
  exact ⟨h3, h4⟩

theorem QueueOk.append {n m : Nat} {l l' : List EdgeData} (h : QueueOk n m l) (h' : QueueOk n m l') : QueueOk n m (l ++ l') :=
  fun d hd => (List.mem_append.1 hd).elim (h d) (h' d)

theorem QueueOk.tail {n m : Nat} {d : EdgeData} {l : List EdgeData} (h : QueueOk n m (d :: l)) : QueueOk n m l :=
  fun x hx => h x (by simp [hx])

theorem IdOk.fin {n v : Nat} (h : IdOk n v) (hf : isFin v = true) : v < n :=
  h.real (by rw [isInf_false_iff]; exact isFin_iff.1 hf)

/-! ## The predicates -/

theorem plain_getI {α : Type} (l : List α) (i : Nat) : getI l i = .panic ∨ ∃ x, getI l i = .ok x := by
  unfold getI; split <;> simp

theorem plain_infLocal (i : Nat) : infLocal i = .panic ∨ ∃ k, infLocal i = .ok k := by
  unfold infLocal; split
  · simp
  · split <;> simp

theorem edgeIsect_ne_panic {vs : List (Vtx F)} (hn : vs.length ≤ INF0) {e : Edge} (cv : EV F) (h1 : IdOk vs.length e.src)
    (h2 : IdOk vs.length e.dst) : edgeIsect vs e cv ≠ .panic := by
  unfold edgeIsect
  split
  · rename_i i1
    split
    · simp
    · rename_i i2
      obtain ⟨a1, a2⟩ := h1.art hn i1
      exact Res.bind_ne_panic (infLocal_ne_panic a1 a2) fun _ _ =>
        Res.bind_ne_panic (getI_ne_panic (h2.real (by simpa using i2))) fun _ _ => by simp
  · rename_i i1
    split
    · rename_i i2
      obtain ⟨a1, a2⟩ := h2.art hn i2
      exact Res.bind_ne_panic (infLocal_ne_panic a1 a2) fun _ _ =>
        Res.bind_ne_panic (getI_ne_panic (h1.real (by simpa using i1))) fun _ _ => by simp
    · rename_i i2
      exact Res.bind_ne_panic (getI_ne_panic (h1.real (by simpa using i1))) fun _ _ =>
        Res.bind_ne_panic (getI_ne_panic (h2.real (by simpa using i2))) fun _ _ => by simp

/-- An edge between two artificial vertices is never reported as crossed. -/
theorem edgeIsect_crossing {vs : List (Vtx F)} {e : Edge} {cv : EV F} (h : edgeIsect vs e cv = .ok .crossing) :
    ¬ (isInf e.src = true ∧ isInf e.dst = true) := by
  rintro ⟨h1, h2⟩
  simp [edgeIsect, h1, h2] at h

theorem getI_panic {α : Type} {l : List α} {i : Nat} (h : l.length ≤ i) : getI l i = .panic := by
  unfold getI; rw [List.getElem?_eq_none h]

theorem infLocal_fin {v : Nat} (h : isInf v = false) : infLocal v = .panic := by
  rw [isInf_false_iff] at h
  unfold infLocal; rw [if_pos h]

theorem Res.bind_panic {α β : Type} {x : Res α} {f : α → Res β} (hx : x = .panic ∨ ∃ a, x = .ok a ∧ f a = .panic) :
    (x >>= f) = .panic := by
  rcases hx with rfl | ⟨a, rfl, h⟩
  · rfl
  · exact h

/-- The convexity test of a quad panics exactly if its fourth vertex is artificial, or both ends of its diagonal. -/
theorem quadDiag_panic_iff {vs : List (Vtx F)} (hn : vs.length ≤ INF0) {q : Quad} (h1 : IdOk vs.length q.q1)
    (h2 : IdOk vs.length q.q2) (h3 : IdOk vs.length q.q3) (h4 : IdOk vs.length q.q4) :
    quadDiag vs q = .panic ↔ isInf q.q4 = true ∨ (isInf q.q1 = true ∧ isInf q.q2 = true) := by
  have big : ∀ {v}, isInf v = true → vs.length ≤ v := fun h => by rw [isInf_iff] at h; omega
  have loc : ∀ {v}, IdOk vs.length v → isInf v = true → infLocal v ≠ .panic := fun h i =>
    infLocal_ne_panic (h.art hn i).1 (h.art hn i).2
  have get : ∀ {v}, IdOk vs.length v → isInf v = false → getI vs v ≠ .panic := fun h i => getI_ne_panic (h.real i)
  have okl : ∀ {v}, infLocal v ≠ .panic → ∃ k, infLocal v = .ok k := fun {v} h => (plain_infLocal v).resolve_left h
  have okg : ∀ {v}, getI vs v ≠ .panic → ∃ k, getI vs v = .ok k := fun {v} h => (plain_getI vs v).resolve_left h
  have bad : ∀ {i j}, infLocal (q.v i) ≠ .panic → vs.length ≤ q.v (oppQuadIdx i) → quadDiag2 vs q i j = .panic := fun h h' => by
    obtain ⟨k, hk⟩ := okl h
    exact Res.bind_panic (.inr ⟨k, hk, Res.bind_panic (.inl (getI_panic h'))⟩)
  have bad' : ∀ {i j}, infLocal (q.v i) ≠ .panic → getI vs (q.v (oppQuadIdx i)) ≠ .panic → isInf (q.v j) = false →
      quadDiag2 vs q i j = .panic := fun h h' i => by
    obtain ⟨k, hk⟩ := okl h
    obtain ⟨g, hg⟩ := okg h'
    exact Res.bind_panic (.inr ⟨k, hk, Res.bind_panic (.inr ⟨g, hg, Res.bind_panic (.inl (infLocal_fin i))⟩)⟩)
  unfold quadDiag collectInfQuad
  cases i1 : isInf q.q1 <;> cases i2 : isInf q.q2 <;> cases i3 : isInf q.q3 <;> cases i4 : isInf q.q4 <;>
    simp only [i1, i2, i3, i4, if_true, if_false, Bool.false_eq_true, List.nil_append, List.append_nil, List.length_nil, List.length_cons,
      List.cons_append, Nat.reduceLeDiff, Nat.reduceAdd, Nat.zero_le, Res.ok_bind, Res.panic_bind, or_true, true_or, and_self, and_true,
      true_and, and_false, false_and, or_false, or_self, iff_true, iff_false, le_refl]
  · exact Res.bind_ne_panic (get h1 i1) fun _ _ => Res.bind_ne_panic (get h2 i2) fun _ _ =>
      Res.bind_ne_panic (get h3 i3) fun _ _ => Res.bind_ne_panic (get h4 i4) fun _ _ => by simp
  · exact Res.bind_panic (.inl (infLocal_fin i3))
  · exact Res.bind_ne_panic (loc h3 i3) fun _ _ => Res.bind_ne_panic (get h4 i4) fun _ _ =>
      Res.bind_ne_panic (get h2 i2) fun _ _ => Res.bind_ne_panic (get h1 i1) fun _ _ => by simp
  · exact bad (loc h3 i3) (big i4)
  · exact Res.bind_ne_panic (loc h2 i2) fun _ _ => Res.bind_ne_panic (get h1 i1) fun _ _ =>
      Res.bind_ne_panic (get h4 i4) fun _ _ => Res.bind_ne_panic (get h3 i3) fun _ _ => by simp
  · exact bad' (loc h2 i2) (get h1 i1) i3
  · exact Res.bind_ne_panic (loc h2 i2) fun _ _ => Res.bind_ne_panic (get h1 i1) fun _ _ =>
      Res.bind_ne_panic (loc h3 i3) fun _ _ => Res.bind_ne_panic (get h4 i4) fun _ _ => by simp
  · exact Res.bind_ne_panic (loc h1 i1) fun _ _ => Res.bind_ne_panic (get h2 i2) fun _ _ =>
      Res.bind_ne_panic (get h3 i3) fun _ _ => Res.bind_ne_panic (get h4 i4) fun _ _ => by simp
  · exact bad' (loc h1 i1) (get h2 i2) i3
  · exact Res.bind_ne_panic (loc h1 i1) fun _ _ => Res.bind_ne_panic (get h2 i2) fun _ _ =>
      Res.bind_ne_panic (loc h3 i3) fun _ _ => Res.bind_ne_panic (get h4 i4) fun _ _ => by simp
  · exact bad (loc h1 i1) (big i2)

/-! ## Swaps -/

theorem setV2t_ne_panic {n : Nat} {v2t : List Nat} {q t : Nat} (h : v2t.length = n) (hq : IdOk n q) : setV2t v2t q t ≠ .panic := by
  unfold setV2t
  split
  · rename_i hf
    unfold setI
    rw [if_pos (by rw [h]; exact hq.fin hf)]
    simp
  · simp

theorem setV2t_lt {v2t v2t' : List Nat} {q t m : Nat} (h : setV2t v2t q t = .ok v2t') (ht : t < m) (hv : ∀ i ∈ v2t, i < m) :
    ∀ i ∈ v2t', i < m := by
  rcases setV2t_ok h with ⟨_, _, rfl⟩ | ⟨_, rfl⟩
  · intro i hi
    rcases List.mem_or_eq_of_mem_set hi with hi | rfl
    · exact hv i hi
    · exact ht
  · exact hv

theorem swapQuad_ne_panic {n : Nat} {ts : List Tri} {v2t : List Nat} (h : IdsC n ts v2t) {d : EdgeData} {q : Quad}
    (hf : d.f < ts.length) (ht : d.t < ts.length) (h1 : IdOk n q.q1) (h2 : IdOk n q.q2) : swapQuad ts v2t d q ≠ .panic := by
  unfold swapQuad
  refine Res.bind_ne_panic (getI_ne_panic ht) fun tt htt => ?_
  refine Res.bind_ne_panic (getI_ne_panic hf) fun tf htf => ?_
  rw [getI_eq_ok] at htt htf
  refine Res.bind_ne_panic (updNb_ne_panic (by simpa using h.nbr.get htt _)) fun ts1 h1' => ?_
  have hl := updNb_length h1'
  simp only [List.length_set] at hl
  refine Res.bind_ne_panic (updNb_ne_panic (by rw [hl]; exact h.nbr.get htf _)) fun ts2 h2' => ?_
  refine Res.bind_ne_panic (setV2t_ne_panic h.len h1) fun w1 e1 => ?_
  refine Res.bind_ne_panic (setV2t_ne_panic ((setV2t_length e1).trans h.len) h2) fun w2 e2 => ?_
  simp

theorem IdsC.swap {n : Nat} {ts : List Tri} {v2t : List Nat} (h : IdsC n ts v2t) {d : EdgeData} {q : Quad} {w : Swapped}
    (hf : d.f < ts.length) (ht : d.t < ts.length) (hq : IdOk n q.q1 ∧ IdOk n q.q2 ∧ IdOk n q.q3 ∧ IdOk n q.q4)
    (hw : swapQuad ts v2t d q = .ok w) : IdsC n w.ts w.v2t := by
  obtain ⟨l1, l2⟩ := swapQuad_length hw
  have hv := swapQuad_verts hw h.vert hq
  obtain ⟨tt, tf, ts1, v1, htt, htf, ettl, etfr, h1, h2, h3, h4⟩ := swapQuad_ok hw
  refine ⟨hv, ?_, ?_, l2.trans h.len, by rw [l1]; exact h.big⟩
  · rw [l1]
    refine updNb_nbrs h2 (updNb_nbrs h1 (NbrsIn.set (NbrsIn.set h.nbr ?_) ?_) (.inl hf)) (.inl ht)
    · rw [forall_fin3, ettl]
      exact ⟨.inl ht, h.nbr.get htf _, h.nbr.get htt _⟩
    · rw [forall_fin3, etfr]
      exact ⟨h.nbr.get htt _, h.nbr.get htf _, .inl hf⟩
  · rw [l1]
    exact setV2t_lt h4 ht (setV2t_lt h3 hf h.tri)

theorem toQuad_ne_panic {d : EdgeData} {ts : List Tri} (hf : d.f < ts.length) (ht : d.t < ts.length) : d.toQuad ts ≠ .panic :=
  Res.bind_ne_panic (getI_ne_panic ht) fun _ _ => Res.bind_ne_panic (getI_ne_panic hf) fun _ _ => by simp

/-! ## Removal of the crossed edges -/

/-- Invariant of `remove_crossed_edges`. -/
structure RCOk (vs : List (Vtx F)) (cv : EV F) (s : RC) : Prop where
  ids : IdsC vs.length s.ts s.v2t
  q1 : QueueOk vs.length s.ts.length s.isects
  q2 : QueueOk vs.length s.ts.length s.diags
  cross : ∀ d ∈ s.isects, edgeIsect vs d.edge cv = .ok .crossing

/-- The next crossed edge to be swapped has an artificial vertex behind it (in the triangle on the side the constraint
comes from). -/
def InfApex (s : RC) : Prop :=
  ∃ d rest t, s.isects = d :: rest ∧ s.nonConvex ≤ rest.length ∧ s.ts[d.f]? = some t ∧ isInf (t.oppVertexId d.edge) = true

/-- `k` iterations of `remove_crossed_edges`. -/
inductive RCSteps (vs : List (Vtx F)) (cv : EV F) : Nat → RC → RC → Prop
  | zero (s : RC) : RCSteps vs cv 0 s s
  | succ {k : Nat} {s s1 s2 : RC} {d : EdgeData} {rest : List EdgeData} (e : s.isects = d :: rest)
      (h : removeStep vs cv d { s with isects := rest } = .ok s1) (r : RCSteps vs cv k s1 s2) : RCSteps vs cv (k + 1) s s2

section
variable {vs : List (Vtx F)} {cv : EV F}

theorem removeStep_panic_iff (hn : vs.length ≤ INF0) {s : RC} {d : EdgeData} {rest : List EdgeData} (h : RCOk vs cv s)
    (e : s.isects = d :: rest) : removeStep vs cv d { s with isects := rest } = .panic ↔ InfApex s := by
  obtain ⟨hf, ht, i1, i2⟩ := h.q1 d (by rw [e]; simp)
  have hx := edgeIsect_crossing (h.cross d (by rw [e]; simp))
  have hap : InfApex s ↔ s.nonConvex ≤ rest.length ∧ ∃ t, s.ts[d.f]? = some t ∧ isInf (t.oppVertexId d.edge) = true := by
    constructor
    · rintro ⟨d', rest', t, e', h1, h2, h3⟩
      rw [e] at e'
      simp only [List.cons.injEq] at e'
      obtain ⟨rfl, rfl⟩ := e'
      exact ⟨h1, t, h2, h3⟩
    · rintro ⟨h1, t, h2, h3⟩; exact ⟨d, rest, t, e, h1, h2, h3⟩
  rw [hap]
  unfold removeStep
  dsimp only
  by_cases hc : s.nonConvex > rest.length
  · rw [if_pos hc]
    simp only [reduceCtorEq, false_iff, not_and]
    intro h1; omega
  rw [if_neg hc]
  obtain ⟨q, hq⟩ : ∃ q, d.toQuad s.ts = .ok q := by
    obtain ⟨tt, htt⟩ := (plain_getI s.ts d.t).resolve_left (getI_ne_panic ht)
    obtain ⟨tf, htf⟩ := (plain_getI s.ts d.f).resolve_left (getI_ne_panic hf)
    exact ⟨_, by rw [EdgeData.toQuad, htt, Res.ok_bind, htf, Res.ok_bind]⟩
  obtain ⟨tt, tf, htt, htf, eq⟩ := toQuad_ok hq
  obtain ⟨j1, j2, j3, j4⟩ := toQuad_verts hq h.ids.vert ⟨i1, i2⟩
  have hqd := quadDiag_panic_iff hn j1 j2 j3 j4
  rw [hq, Res.ok_bind]
  have e4 : q.q4 = tf.oppVertexId d.edge := by rw [eq]
  have e12 : ¬ (isInf q.q1 = true ∧ isInf q.q2 = true) := by rw [eq]; exact hx
  constructor
  · intro hp
    refine ⟨by omega, tf, htf, ?_⟩
    rw [← e4]
    by_contra hno
    refine absurd hp (Res.bind_ne_panic (fun h' => ?_) fun r _ => ?_)
    · exact (hqd.1 h').elim hno e12
    · split
      · simp
      · refine Res.bind_ne_panic (swapQuad_ne_panic h.ids hf ht j1 j2) fun w _ => ?_
        refine Res.bind_ne_panic (edgeIsect_ne_panic hn cv j3 j4) fun x _ => ?_
        split <;> simp
  · rintro ⟨_, t, h2, h3⟩
    rw [htf] at h2
    simp only [Option.some.injEq] at h2
    subst h2
    exact Res.bind_panic (.inl (hqd.2 (.inl (by rw [e4]; exact h3))))

theorem RCOk.step {s s' : RC} {d : EdgeData} {rest : List EdgeData} (h : RCOk vs cv s) (e : s.isects = d :: rest)
    (hr : removeStep vs cv d { s with isects := rest } = .ok s') : RCOk vs cv s' := by
  obtain ⟨ids, q1, q2, cross⟩ := h
  obtain ⟨hf, ht, i1, i2⟩ := q1 d (by rw [e]; simp)
  rw [e] at q1 cross
  have q1' := q1.tail
  obtain ⟨_, q, r, hq, hr, ⟨_, rfl⟩ | ⟨_, w, x, hw, hx, ⟨hc, rfl⟩ | ⟨_, rfl⟩⟩⟩ := removeStep_ok hr
  · refine ⟨ids, q1'.append ?_, q2, ?_⟩
    · intro y hy; simp only [List.mem_singleton] at hy; subst hy; exact ⟨hf, ht, i1, i2⟩
    · intro y hy
      rcases List.mem_append.1 hy with hy | hy
      · exact cross y (by simp [hy])
      · simp only [List.mem_singleton] at hy; subst hy; exact cross y (by simp)
  all_goals
    have hqq := toQuad_verts hq ids.vert ⟨i1, i2⟩
    have hl := (swapQuad_length hw).1
    have hid := ids.swap hf ht hqq hw
    simp only at hl
    have hcr : ∀ y ∈ rest.map (·.upd w.ttl w.tfr d.f d.t), edgeIsect vs y.edge cv = .ok .crossing := by
      intro y hy
      obtain ⟨z, hz, rfl⟩ := List.mem_map.1 hy
      rw [EdgeData.upd_edge]
      exact cross z (by simp [hz])
    have hnew : QueueOk vs.length w.ts.length [⟨d.f, d.t, ⟨q.q3, q.q4⟩⟩] := by
      intro y hy
      simp only [List.mem_singleton] at hy
      subst hy
      rw [hl]
      exact ⟨hf, ht, hqq.2.2.1, hqq.2.2.2⟩
    have m1 : QueueOk vs.length w.ts.length (rest.map (·.upd w.ttl w.tfr d.f d.t)) := by
      rw [hl]; exact q1'.map_upd _ _ hf ht
    have m2 : QueueOk vs.length w.ts.length (s.diags.map (·.upd w.ttl w.tfr d.f d.t)) := by
      rw [hl]; exact q2.map_upd _ _ hf ht
  · refine ⟨hid, m1.append hnew, m2, ?_⟩
    intro y hy
    rcases List.mem_append.1 hy with hy | hy
    · exact hcr y hy
    · simp only [List.mem_singleton] at hy
      subst hy
      rw [hx, hc]
  · exact ⟨hid, m1, m2.append hnew, hcr⟩

theorem removeCrossed_panic_iff (hn : vs.length ≤ INF0) (fuel : Nat) {s : RC} (h : RCOk vs cv s) :
    removeCrossed vs cv fuel s = .panic ↔ ∃ k s', k < fuel ∧ RCSteps vs cv k s s' ∧ InfApex s' := by
  induction fuel generalizing s with
  | zero =>
    unfold removeCrossed
    split <;> simp
  | succ n ih =>
    unfold removeCrossed
    split
    · rename_i e
      simp only [reduceCtorEq, false_iff]
      rintro ⟨k, s', _, hs, d, rest, t, e', _⟩
      cases hs with
      | zero => rw [e] at e'; simp at e'
      | succ e2 => rw [e] at e2; simp at e2
    · rename_i d rest e
      have hp := removeStep_panic_iff hn h e
      cases hr : removeStep vs cv d { s with isects := rest } with
      | panic => exact iff_of_true rfl ⟨0, s, by omega, .zero s, hp.1 hr⟩
      | err er =>
        refine iff_of_false (by simp) ?_
        rintro ⟨k, s', _, hs, ha⟩
        cases hs with
        | zero => rw [hp.2 ha] at hr; simp at hr
        | succ e2 h2 =>
          rw [e] at e2
          simp only [List.cons.injEq] at e2
          obtain ⟨rfl, rfl⟩ := e2
          rw [hr] at h2; simp at h2
      | diverge =>
        refine iff_of_false (by simp) ?_
        rintro ⟨k, s', _, hs, ha⟩
        cases hs with
        | zero => rw [hp.2 ha] at hr; simp at hr
        | succ e2 h2 =>
          rw [e] at e2
          simp only [List.cons.injEq] at e2
          obtain ⟨rfl, rfl⟩ := e2
          rw [hr] at h2; simp at h2
      | ok s1 =>
        rw [Res.ok_bind, ih (h.step e hr)]
        constructor
        · rintro ⟨k, s', hk, hs, ha⟩
          exact ⟨k + 1, s', by omega, .succ e hr hs, ha⟩
        · rintro ⟨k, s', hk, hs, ha⟩
          cases hs with
          | zero => rw [hp.2 ha] at hr; simp at hr
          | succ e2 h2 hs =>
            rw [e] at e2
            simp only [List.cons.injEq] at e2
            obtain ⟨rfl, rfl⟩ := e2
            rw [hr] at h2
            simp only [Res.ok.injEq] at h2
            subst h2
            exact ⟨_, s', by omega, hs, ha⟩

theorem RCOk.run {fuel : Nat} {s s' : RC} (h : RCOk vs cv s) (hr : removeCrossed vs cv fuel s = .ok s') : RCOk vs cv s' :=
  (removeCrossed_rule (fun x => RCOk vs cv x) (fun s d rest s' h e hs => h.step e hs) hr h).1

/-! ## Restoration -/

theorem shouldSwapC_ne_panic (hn : vs.length ≤ INF0) {q : Quad} (h1 : IdOk vs.length q.q1) (h2 : IdOk vs.length q.q2)
    (h3 : IdOk vs.length q.q3) (h4 : IdOk vs.length q.q4) : shouldSwapC vs q ≠ .panic := by
  unfold shouldSwapC
  split
  · simp
  · rename_i hc
    simp only [Bool.or_eq_true, not_or, Bool.not_eq_true] at hc
    exact shouldSwap_ne_panic hn h1 h2 h3 (h4.real hc.2)

/-- Invariant of the constrained restoration. -/
structure RSOk (n : Nat) (s : RS) : Prop where
  ids : IdsC n s.ts s.v2t
  q : QueueOk n s.ts.length s.diags

theorem restoreStepC_ne_panic (hn : vs.length ≤ INF0) {ce : Edge} {s : RS} {d : EdgeData} {rest : List EdgeData}
    (h : RSOk vs.length s) (e : s.diags = d :: rest) : restoreStepC vs ce d { s with diags := rest } ≠ .panic := by
  obtain ⟨hf, ht, i1, i2⟩ := h.q d (by rw [e]; simp)
  unfold restoreStepC
  split
  · simp
  · refine Res.bind_ne_panic (toQuad_ne_panic hf ht) fun q hq => ?_
    obtain ⟨j1, j2, j3, j4⟩ := toQuad_verts hq h.ids.vert ⟨i1, i2⟩
    refine Res.bind_ne_panic (shouldSwapC_ne_panic hn j1 j2 j3 j4) fun b _ => ?_
    split
    · exact Res.bind_ne_panic (swapQuad_ne_panic h.ids hf ht j1 j2) fun w _ => by simp
    · simp

theorem RSOk.step {ce : Edge} {s s' : RS} {d : EdgeData} {rest : List EdgeData}
    (h : RSOk vs.length s) (e : s.diags = d :: rest) (hr : restoreStepC vs ce d { s with diags := rest } = .ok s') :
    RSOk vs.length s' := by
  obtain ⟨hf, ht, i1, i2⟩ := h.q d (by rw [e]; simp)
  have hq := h.q
  rw [e] at hq
  rcases restoreStepC_ok hr with ⟨_, rfl⟩ | ⟨_, q, _, hq', _, ⟨_, rfl⟩ | ⟨_, _, w, hw, rfl⟩⟩
  · exact ⟨h.ids, hq.tail⟩
  · exact ⟨h.ids, hq.tail⟩
  · have hqq := toQuad_verts hq' h.ids.vert ⟨i1, i2⟩
    have hl := (swapQuad_length hw).1
    simp only at hl
    refine ⟨h.ids.swap hf ht hqq hw, ?_⟩
    dsimp only
    rw [hl]
    refine (hq.tail.map_upd _ _ hf ht).append ?_
    intro y hy
    simp only [List.mem_singleton] at hy
    subst hy
    exact ⟨hf, ht, hqq.2.2.1, hqq.2.2.2⟩

theorem restoreC_ne_panic (hn : vs.length ≤ INF0) {ce : Edge} (fuel : Nat) {s : RS} (h : RSOk vs.length s) :
    restoreC vs ce fuel s ≠ .panic := by
  induction fuel generalizing s with
  | zero => unfold restoreC; split <;> simp
  | succ n ih =>
    unfold restoreC
    split
    · simp
    · rename_i d rest e
      exact Res.bind_ne_panic (restoreStepC_ne_panic hn h e) fun s1 h1 => ih (h.step e h1)

theorem RSOk.run {ce : Edge} {fuel : Nat} {s s' : RS} (h : RSOk vs.length s) (hr : restoreC vs ce fuel s = .ok s') :
    RSOk vs.length s' :=
  (restoreC_rule (fun x => RSOk vs.length x) (fun s d rest s' h e hs => h.step e hs) hr h).1

/-! ## Search of the crossed edges -/

theorem loopAround_ne_panic (hn : vs.length ≤ INF0) {ts : List Tri} {v2t : List Nat} (h : IdsC vs.length ts v2t) (start : Nat) (ce : Edge)
    (next : Fin 3 → Fin 3) (n : Nat) : ∀ i tid, tid < ts.length → loopAround vs ts start ce cv next n i tid ≠ .panic := by
  induction n with
  | zero => intro i tid _; simp [loopAround]
  | succ n ih =>
    intro i tid ht
    unfold loopAround
    split
    · simp
    · refine Res.bind_ne_panic (getI_ne_panic ht) fun t htt => ?_
      rw [getI_eq_ok] at htt
      split
      · simp
      · refine Res.bind_ne_panic (edgeIsect_ne_panic hn cv (h.vert.get htt _) (h.vert.get htt _)) fun r _ => ?_
        split
        · split <;> simp
        · dsimp only
          split
          · simp
          · rename_i hnb
            exact ih _ _ ((h.nbr.get htt _).resolve_right hnb)

/-- The search for the first crossed edge has gone round in one direction without result and there is no triangle to start
with in the other direction. -/
def BareStart (vs : List (Vtx F)) (ts : List Tri) (ce : Edge) (cv : EV F) (v2t : List Nat) : Prop :=
  ∃ start t, v2t[ce.src]? = some start ∧ ts[start]? = some t ∧
    loopAround vs ts start ce cv outerCwEdge ts.length 0 start = .ok .notFound ∧
    t.n (outerCcwEdge (t.vertexIndex ce.src)) = NONE

theorem nextIsect_ne_panic (hn : vs.length ≤ INF0) {ts : List Tri} {v2t : List Nat} (h : IdsC vs.length ts v2t) {t : Tri} {i : Nat}
    (ht : ts[i]? = some t) (tid : Nat) (e : Edge) : nextIsect vs cv t tid e ≠ .panic := by
  have key : ∀ k, nextCandidate vs cv t e k ≠ .panic := fun k => by
    unfold nextCandidate
    split
    · simp
    · exact Res.bind_ne_panic (edgeIsect_ne_panic hn cv (h.vert.get ht _) (h.vert.get ht _)) fun _ _ => by simp
  unfold nextIsect
  refine Res.bind_ne_panic (key 0) fun b _ => ?_
  split
  · simp
  refine Res.bind_ne_panic (key 1) fun b _ => ?_
  split
  · simp
  refine Res.bind_ne_panic (key 2) fun b _ => ?_
  split <;> simp

theorem registerLoop_ne_panic (hn : vs.length ≤ INF0) {ts : List Tri} {v2t : List Nat} (h : IdsC vs.length ts v2t) (ce : Edge) (n : Nat) :
    ∀ d : EdgeData, d.t < ts.length → registerLoop vs ts ce cv n d ≠ .panic := by
  induction n with
  | zero => intro d _; simp [registerLoop]
  | succ n ih =>
    intro d hd
    unfold registerLoop
    refine Res.bind_ne_panic (getI_ne_panic hd) fun t ht => ?_
    rw [getI_eq_ok] at ht
    split
    · simp
    · refine Res.bind_ne_panic (nextIsect_ne_panic hn h ht _ _) fun o ho => ?_
      cases o with
      | none => simp
      | some d' =>
        obtain ⟨k, rfl, _, _, hk⟩ := nextIsect_ok ho
        exact Res.bind_ne_panic (ih _ ((h.nbr.get ht _).resolve_right hk)) fun _ _ => by simp

theorem registerEdges_panic_iff (hn : vs.length ≤ INF0) {ts : List Tri} {v2t : List Nat} (h : IdsC vs.length ts v2t) {ce : Edge}
    (hs : ce.src < vs.length) : registerEdges vs ts ce cv v2t = .panic ↔ BareStart vs ts ce cv v2t := by
  obtain ⟨start, hst⟩ : ∃ s, v2t[ce.src]? = some s := ⟨_, List.getElem?_eq_getElem (by rw [h.len]; exact hs)⟩
  have hlt : start < ts.length := h.tri _ (List.mem_of_getElem? hst)
  obtain ⟨t, ht⟩ : ∃ t, ts[start]? = some t := ⟨_, List.getElem?_eq_getElem hlt⟩
  have hbare : BareStart vs ts ce cv v2t ↔ loopAround vs ts start ce cv outerCwEdge ts.length 0 start = .ok .notFound ∧
      t.n (outerCcwEdge (t.vertexIndex ce.src)) = NONE := by
    constructor
    · rintro ⟨s', t', h1, h2, h3⟩
      rw [hst] at h1
      simp only [Option.some.injEq] at h1
      subst h1
      rw [ht] at h2
      simp only [Option.some.injEq] at h2
      subst h2
      exact h3
    · exact fun h' => ⟨start, t, hst, ht, h'⟩
  rw [hbare]
  have h1 := loopAround_ne_panic (cv := cv) hn h start ce outerCwEdge ts.length 0 start hlt
  unfold registerEdges
  rw [getI_of hst, Res.ok_bind]
  have rest : ∀ r : Res First, (∀ d, r = .ok (.isect d) → d.t < ts.length) → ((do
      match ← r with
      | .already => .ok []
      | .notFound => .err .firstIntersectionNotFound
      | .isect d => do
        let rest ← registerLoop vs ts ce cv ts.length d
        .ok (d :: rest) : Res (List EdgeData)) = .panic ↔ r = .panic) := by
    intro r hd
    cases r with
    | panic => simp
    | err e => simp
    | diverge => simp
    | ok x =>
      cases x with
      | already => simp
      | notFound => simp
      | isect d =>
        rw [Res.ok_bind]
        simp only [reduceCtorEq, iff_false]
        exact Res.bind_ne_panic (registerLoop_ne_panic hn h ce _ d (hd d rfl)) fun _ _ => by simp
  refine Iff.trans (rest (searchFirst vs ts ce cv start) fun d hd => ?_) ?_
  · obtain ⟨t, k, e1, e2, e3, e4, _⟩ := searchFirst_in hd
    rw [e3] at e4 ⊢
    exact (h.nbr.get e1 k).resolve_right e4
  unfold searchFirst
  cases hr : loopAround vs ts start ce cv outerCwEdge ts.length 0 start with
  | panic => exact absurd hr h1
  | err e => simp
  | diverge => simp
  | ok x =>
    rw [Res.ok_bind]
    cases x with
    | already => simp
    | isect d => simp
    | notFound =>
      simp only [true_and]
      rw [getI_of ht, Res.ok_bind]
      constructor
      · intro hp
        by_contra hnn
        exact loopAround_ne_panic hn h _ ce _ _ _ _ ((h.nbr.get ht _).resolve_right hnn) hp
      · intro hnn
        rw [hnn]
        obtain ⟨m, hm⟩ : ∃ m, ts.length = m + 1 := ⟨ts.length - 1, by omega⟩
        rw [hm]
        unfold loopAround
        rw [if_neg (by simp)]
        exact Res.bind_panic (.inl (getI_panic h.big))

/-! ## One constraint -/

/-- What must happen for the insertion of the edge `ce` to panic. -/
def EdgePanic (vs : List (Vtx F)) (fuel : Nat) (ce : Edge) (ts : List Tri) (v2t : List Nat) : Prop :=
  ∃ a b, vs[ce.src]? = some a ∧ vs[ce.dst]? = some b ∧ (BareStart vs ts ce (a, b) v2t ∨
    ∃ l k s, registerEdges vs ts ce (a, b) v2t = .ok l ∧ k < fuel ∧ RCSteps vs (a, b) k ⟨ts, v2t, l, [], 0⟩ s ∧ InfApex s)

theorem registered_ok (hn : vs.length ≤ INF0) {ts : List Tri} {v2t : List Nat} (h : IdsC vs.length ts v2t) {ce : Edge}
    {l : List EdgeData} (hl : registerEdges vs ts ce cv v2t = .ok l) : RCOk vs cv ⟨ts, v2t, l, [], 0⟩ := by
  refine ⟨h, ?_, by intro d hd; simp at hd, ?_⟩
  · intro d hd
    obtain ⟨t, k, h1, h2, h3, h4, _⟩ := registerEdges_in hl d hd
    refine ⟨lt_of_getElem? h1, ?_, ?_⟩
    · rw [h3] at h4 ⊢
      exact (h.nbr.get h1 k).resolve_right h4
    · rw [h2]
      exact ⟨h.vert.get h1 _, h.vert.get h1 _⟩
  · intro d hd
    obtain ⟨t, k, h1, h2, h3, h4, h5⟩ := registerEdges_in hl d hd
    exact h5

theorem insertEdge_panic_iff (hn : vs.length ≤ INF0) (fuel : Nat) {ce : Edge} {s : AC} (h : IdsC vs.length s.ts s.v2t)
    (h1 : ce.src < vs.length) (h2 : ce.dst < vs.length) :
    insertEdge vs fuel ce s = .panic ↔ EdgePanic vs fuel ce s.ts s.v2t := by
  obtain ⟨a, ha⟩ : ∃ a, vs[ce.src]? = some a := ⟨_, List.getElem?_eq_getElem h1⟩
  obtain ⟨b, hb⟩ : ∃ a, vs[ce.dst]? = some a := ⟨_, List.getElem?_eq_getElem h2⟩
  have hE : EdgePanic vs fuel ce s.ts s.v2t ↔ (BareStart vs s.ts ce (a, b) s.v2t ∨
    ∃ l k x, registerEdges vs s.ts ce (a, b) s.v2t = .ok l ∧ k < fuel ∧ RCSteps vs (a, b) k ⟨s.ts, s.v2t, l, [], 0⟩ x ∧ InfApex x) := by
    constructor
    · rintro ⟨a', b', ha', hb', h'⟩
      rw [ha] at ha'; rw [hb] at hb'
      simp only [Option.some.injEq] at ha' hb'
      subst ha'; subst hb'
      exact h'
    · exact fun h' => ⟨a, b, ha, hb, h'⟩
  rw [hE]
  unfold insertEdge
  rw [getI_of ha, Res.ok_bind, getI_of hb, Res.ok_bind]
  have hreg := registerEdges_panic_iff (cv := (a, b)) hn h h1
  cases hr : registerEdges vs s.ts ce (a, b) s.v2t with
  | panic => exact iff_of_true rfl (.inl (hreg.1 hr))
  | err e =>
    refine iff_of_false (by simp) ?_
    rintro (h' | ⟨l, k, x, h', _⟩)
    · rw [hreg.2 h'] at hr; simp at hr
    · simp at h'
  | diverge =>
    refine iff_of_false (by simp) ?_
    rintro (h' | ⟨l, k, x, h', _⟩)
    · rw [hreg.2 h'] at hr; simp at hr
    · simp at h'
  | ok l =>
    have hok := registered_ok hn h hr
    have hnb : ¬ BareStart vs s.ts ce (a, b) s.v2t := fun h' => by rw [hreg.2 h'] at hr; simp at hr
    have hrc := removeCrossed_panic_iff hn fuel hok
    have hE' : (BareStart vs s.ts ce (a, b) s.v2t ∨ ∃ l' k x, (Res.ok l : Res (List EdgeData)) = .ok l' ∧ k < fuel ∧
        RCSteps vs (a, b) k ⟨s.ts, s.v2t, l', [], 0⟩ x ∧ InfApex x) ↔ removeCrossed vs (a, b) fuel ⟨s.ts, s.v2t, l, [], 0⟩ = .panic := by
      rw [hrc]
      constructor
      · rintro (h' | ⟨l', k, x, h', h''⟩)
        · exact absurd h' hnb
        · simp only [Res.ok.injEq] at h'
          subst h'
          exact ⟨k, x, h''⟩
      · rintro ⟨k, x, h'⟩
        exact .inr ⟨l, k, x, rfl, h'⟩
    rw [hE', Res.ok_bind]
    cases l with
    | nil =>
      refine iff_of_false (by simp) ?_
      cases fuel <;> simp [removeCrossed]
    | cons d l =>
      dsimp only
      cases hx : removeCrossed vs (a, b) fuel ⟨s.ts, s.v2t, d :: l, [], 0⟩ with
      | panic => exact iff_of_true rfl rfl
      | err e => exact iff_of_false (by simp) (by simp)
      | diverge => exact iff_of_false (by simp) (by simp)
      | ok rc =>
        refine iff_of_false ?_ (by simp)
        rw [Res.ok_bind]
        have hrc' := hok.run hx
        exact Res.bind_ne_panic (restoreC_ne_panic hn _ ⟨hrc'.ids, hrc'.q2⟩) fun _ _ => by simp

theorem insertEdge_ids (hn : vs.length ≤ INF0) {fuel : Nat} {ce : Edge} {s s' : AC} (h : IdsC vs.length s.ts s.v2t)
    (hr : insertEdge vs fuel ce s = .ok s') : IdsC vs.length s'.ts s'.v2t := by
  obtain ⟨a, b, l, _, _, hl, ⟨_, rfl⟩ | ⟨_, rc, rs, hrc, hrs, rfl⟩⟩ := insertEdge_ok hr
  · exact h
  · have h1 := (registered_ok hn h hl).run hrc
    exact (RSOk.run (s := ⟨rc.ts, rc.v2t, rc.diags, []⟩) ⟨h1.ids, h1.q2⟩ hrs).ids

/-! ## All constraints -/

/-- What must happen for the constraint `e` to cause a panic. -/
def ConstraintPanic (vs : List (Vtx F)) (fuel : Nat) (merge : List Nat) (e : Edge) (s : AC) : Prop :=
  merge.length ≤ e.src ∨ merge.length ≤ e.dst ∨
    ∃ a b, merge[e.src]? = some a ∧ merge[e.dst]? = some b ∧ a ≠ b ∧ (⟨a, b⟩ : Edge) ∉ s.S ∧ EdgePanic vs fuel ⟨a, b⟩ s.ts s.v2t

theorem applyOne_panic_iff (hn : vs.length ≤ INF0) (fuel : Nat) {merge : List Nat} (hm : ∀ v ∈ merge, v < vs.length) {e : Edge} {s : AC}
    (h : IdsC vs.length s.ts s.v2t) : applyOne vs fuel merge e s = .panic ↔ ConstraintPanic vs fuel merge e s := by
  unfold applyOne ConstraintPanic
  by_cases h1 : merge.length ≤ e.src
  · exact iff_of_true (Res.bind_panic (.inl (getI_panic h1))) (.inl h1)
  obtain ⟨a, ha⟩ : ∃ a, merge[e.src]? = some a := ⟨_, List.getElem?_eq_getElem (by omega)⟩
  rw [getI_of ha, Res.ok_bind]
  by_cases h2 : merge.length ≤ e.dst
  · exact iff_of_true (Res.bind_panic (.inl (getI_panic h2))) (.inr (.inl h2))
  obtain ⟨b, hb⟩ : ∃ b, merge[e.dst]? = some b := ⟨_, List.getElem?_eq_getElem (by omega)⟩
  rw [getI_of hb, Res.ok_bind]
  have key : (merge.length ≤ e.src ∨ merge.length ≤ e.dst ∨
      ∃ a b, merge[e.src]? = some a ∧ merge[e.dst]? = some b ∧ a ≠ b ∧ (⟨a, b⟩ : Edge) ∉ s.S ∧ EdgePanic vs fuel ⟨a, b⟩ s.ts s.v2t) ↔
      (a ≠ b ∧ (⟨a, b⟩ : Edge) ∉ s.S ∧ EdgePanic vs fuel ⟨a, b⟩ s.ts s.v2t) := by
    constructor
    · rintro (h' | h' | ⟨a', b', ha', hb', h'⟩)
      · exact absurd h' h1
      · exact absurd h' h2
      · rw [ha] at ha'; rw [hb] at hb'
        simp only [Option.some.injEq] at ha' hb'
        subst ha'; subst hb'
        exact h'
    · exact fun h' => .inr (.inr ⟨a, b, ha, hb, h'⟩)
  rw [key]
  by_cases hab : a = b
  · rw [if_pos hab]; exact iff_of_false (by simp) fun h' => h'.1 hab
  rw [if_neg hab]
  by_cases hS : (⟨a, b⟩ : Edge) ∈ s.S
  · rw [if_pos hS]; exact iff_of_false (by simp) fun h' => h'.2.1 hS
  rw [if_neg hS]
  rw [insertEdge_panic_iff hn fuel (s := { s with S := ⟨a, b⟩ :: s.S }) h (hm a (List.mem_of_getElem? ha)) (hm b (List.mem_of_getElem? hb))]
  exact ⟨fun h' => ⟨hab, hS, h'⟩, fun h' => h'.2.2⟩

theorem applyOne_ids (hn : vs.length ≤ INF0) {fuel : Nat} {merge : List Nat} {e : Edge} {s s' : AC} (h : IdsC vs.length s.ts s.v2t)
    (hr : applyOne vs fuel merge e s = .ok s') : IdsC vs.length s'.ts s'.v2t := by
  obtain ⟨a, b, _, _, ⟨_, rfl⟩ | ⟨_, _, rfl⟩ | ⟨_, _, hi⟩⟩ := applyOne_ok hr
  · exact h
  · exact h
  · exact insertEdge_ids hn (s := { s with S := ⟨a, b⟩ :: s.S }) h hi

theorem applyLoop_ids (hn : vs.length ≤ INF0) {fuel : Nat} {merge : List Nat} {es : List Edge} {s s' : AC}
    (h : IdsC vs.length s.ts s.v2t) (hr : applyLoop vs fuel merge es s = .ok s') : IdsC vs.length s'.ts s'.v2t :=
  applyLoop_rule (fun x => IdsC vs.length x.ts x.v2t) (fun _ _ _ h h' => applyOne_ids hn h h') hr h

theorem applyLoop_panic_iff (hn : vs.length ≤ INF0) (fuel : Nat) {merge : List Nat} (hm : ∀ v ∈ merge, v < vs.length) (es : List Edge)
    {s : AC} (h : IdsC vs.length s.ts s.v2t) :
    applyLoop vs fuel merge es s = .panic ↔
      ∃ pre e post s', es = pre ++ e :: post ∧ applyLoop vs fuel merge pre s = .ok s' ∧ ConstraintPanic vs fuel merge e s' := by
  induction es generalizing s with
  | nil =>
    refine iff_of_false (by simp [applyLoop]) ?_
    rintro ⟨pre, e, post, s', h', _⟩
    simp at h'
  | cons e es ih =>
    have h1 := applyOne_panic_iff hn fuel hm (e := e) h
    have tail : ∀ r, applyOne vs fuel merge e s = r → r ≠ .panic →
        ((∃ pre e' post s', e :: es = pre ++ e' :: post ∧ applyLoop vs fuel merge pre s = .ok s' ∧ ConstraintPanic vs fuel merge e' s') ↔
        ∃ s1, r = .ok s1 ∧ ∃ pre e' post s', es = pre ++ e' :: post ∧ applyLoop vs fuel merge pre s1 = .ok s' ∧
          ConstraintPanic vs fuel merge e' s') := by
      intro r hr hrn
      constructor
      · rintro ⟨pre, e', post, s', h2, h3, h4⟩
        cases pre with
        | nil =>
          simp only [List.nil_append, List.cons.injEq] at h2
          obtain ⟨rfl, rfl⟩ := h2
          simp only [applyLoop, Res.ok.injEq] at h3
          subst h3
          exact absurd (hr.symm.trans (h1.2 h4)) hrn
        | cons x pre =>
          simp only [List.cons_append, List.cons.injEq] at h2
          obtain ⟨rfl, h2⟩ := h2
          simp only [applyLoop, Res.bind_eq_ok] at h3
          obtain ⟨s1, h5, h3⟩ := h3
          exact ⟨s1, hr.symm.trans h5, pre, e', post, s', h2, h3, h4⟩
      · rintro ⟨s1, rfl, pre, e', post, s', h2, h3, h4⟩
        exact ⟨e :: pre, e', post, s', by rw [h2]; rfl, by simp only [applyLoop, hr, Res.ok_bind, h3], h4⟩
    have e0 : applyLoop vs fuel merge (e :: es) s = (applyOne vs fuel merge e s >>= fun s' => applyLoop vs fuel merge es s') := rfl
    rw [e0]
    cases hr : applyOne vs fuel merge e s with
    | panic => exact iff_of_true rfl ⟨[], e, es, s, rfl, rfl, h1.1 hr⟩
    | err er =>
      rw [tail _ hr (by simp)]
      exact iff_of_false (by simp) (by rintro ⟨s1, h', _⟩; simp at h')
    | diverge =>
      rw [tail _ hr (by simp)]
      exact iff_of_false (by simp) (by rintro ⟨s1, h', _⟩; simp at h')
    | ok s1 =>
      rw [tail _ hr (by simp), Res.ok_bind, ih (applyOne_ids hn h hr)]
      simp

end

end CDT

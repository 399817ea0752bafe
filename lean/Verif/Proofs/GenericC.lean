import Verif.Proofs.Generic

/-! Invariants of the insertion loop and of the constraint phase that hold for every arithmetic. -/

set_option linter.unusedSectionVars false
set_option linter.unusedSimpArgs false
set_option linter.unusedVariables false

namespace CDT
open FloatOps

variable {F : Type} [FloatOps F] [IdCfg]

theorem placeLoop_lt {bs : List Nat} {vid : Nat} {cnt sorted out : List Nat}
    (h : placeLoop bs vid cnt sorted = .ok out) :
    out.length = sorted.length ∧ ∀ x ∈ out, x ∈ sorted ∨ x < vid + bs.length := by
  induction bs generalizing vid cnt sorted with
  | nil => simp [placeLoop] at h; subst h; simp; intro x hx; exact .inl hx
  | cons b bs ih =>
    simp only [placeLoop, Res.bind_eq_ok] at h
    obtain ⟨c, _, h⟩ := h
    split at h
    · simp at h
    · rw [Res.bind_eq_ok] at h
      obtain ⟨s', hs, h⟩ := h
      rw [setI_eq_ok] at hs
      obtain ⟨_, rfl⟩ := hs
      obtain ⟨h1, h2⟩ := ih h
      refine ⟨by simpa using h1, fun x hx => ?_⟩
      rcases h2 x hx with hm | hm
      · rcases List.mem_or_eq_of_mem_set hm with hm | rfl
        · exact .inl hm
        · right
          have : toId vid ≤ vid := Nat.mod_le _ _
          simp; omega
      · right; simp; omega

theorem binSort_lt {bins : Nat} {vs : List (Vtx F)} {out : List Nat} (h : binSort bins vs = .ok out) :
    out.length = vs.length ∧ ∀ x ∈ out, x < vs.length := by
  simp only [binSort, Res.bind_eq_ok] at h
  obtain ⟨r, hr, h⟩ := h
  obtain ⟨h1, h2⟩ := placeLoop_lt h
  obtain ⟨h3, _⟩ := countBins_spec hr
  simp only [List.length_replicate] at h1
  refine ⟨h1, fun x hx => ?_⟩
  rcases h2 x hx with hm | hm
  · rw [List.mem_replicate] at hm
    have := List.length_pos_of_mem hx
    omega
  · omega

theorem insertAll_verts {Q : Nat → Prop} {vs : List (Vtx F)} {fuel : Nat} {l : List Nat} {s s' : DT}
    (h : insertAll vs fuel l s = .ok s') (hv : VertsIn Q s.ts) (hp : ∀ v ∈ l, Q v) :
    VertsIn Q s'.ts := by
  induction l generalizing s with
  | nil => simp [insertAll] at h; subst h; exact hv
  | cons v l ih =>
    simp only [insertAll, Res.bind_eq_ok] at h
    obtain ⟨s1, h1, h⟩ := h
    exact ih h (insertVertex_verts h1 hv (hp v (by simp))) (fun w hw => hp w (by simp [hw]))

theorem isInf_INF0 : isInf INF0 = true := by simp [isInf]
theorem isInf_INF1 : isInf INF1 = true := by simp [isInf, INF0, INF1]; omega
theorem isInf_INF2 : isInf INF2 = true := by simp [isInf, INF0, INF2]; omega
theorem isInf_INF3 : isInf INF3 = true := by simp [isInf, INF0, INF3]

theorem initialTriangles_verts {Q : Nat → Prop} {f : Nat} (hf : Q f) (h0 : Q INF0) (h1 : Q INF1)
    (h2 : Q INF2) (h3 : Q INF3) : VertsIn Q (initialTriangles f) := by
  intro t ht
  rw [forall_fin3]
  simp only [initialTriangles, List.mem_cons, List.not_mem_nil, or_false] at ht
  rcases ht with rfl | rfl | rfl | rfl <;> simp_all

theorem wrapAndTriangulate_ok {fuel bins : Nat} {vs : List (Vtx F)} {m : Option (List Nat)} {s : DT}
    (h : wrapAndTriangulate fuel bins vs m = .ok s) :
    ∃ first rest, binSort bins vs = .ok (first :: rest) ∧
      insertAll vs fuel rest ⟨initialTriangles first, 3, m⟩ = .ok s := by
  simp only [wrapAndTriangulate, Res.bind_eq_ok] at h
  obtain ⟨sorted, hs, h⟩ := h
  cases sorted with
  | nil => simp at h
  | cons first rest =>
    simp only [Res.bind_eq_ok] at h
    obtain ⟨tid, htid, h⟩ := h
    have : tid = 3 := by
      simp [lastId, initialTriangles, toId] at htid
      rw [← htid]; exact Nat.mod_eq_of_lt (by have := IdCfg.big; omega)
    subst this
    exact ⟨first, rest, hs, h⟩

/-- Every vertex of the working mesh is an infinite vertex or an input vertex. -/
theorem wrapAndTriangulate_verts {fuel bins : Nat} {vs : List (Vtx F)} {m : Option (List Nat)} {s : DT}
    (h : wrapAndTriangulate fuel bins vs m = .ok s) :
    VertsIn (fun v => isInf v = true ∨ v < vs.length) s.ts := by
  obtain ⟨first, rest, hs, h⟩ := wrapAndTriangulate_ok h
  obtain ⟨_, hlt⟩ := binSort_lt hs
  refine insertAll_verts h (initialTriangles_verts (.inr (hlt _ (by simp))) (.inl isInf_INF0)
    (.inl isInf_INF1) (.inl isInf_INF2) (.inl isInf_INF3)) ?_
  intro v hv
  exact .inr (hlt v (by simp [hv]))

/-! ## Constraint phase -/

/-- Both ends of the edges of a queue satisfy `Q`. -/
def QueueIn (Q : Nat → Prop) (l : List EdgeData) : Prop := ∀ d ∈ l, Q d.edge.src ∧ Q d.edge.dst

theorem EdgeData.upd_edge (d : EdgeData) (a b c e : Nat) : (d.upd a b c e).edge = d.edge := by
  unfold EdgeData.upd
  simp only
  repeat' split
  all_goals rfl

theorem QueueIn.map_upd {Q : Nat → Prop} {l : List EdgeData} (h : QueueIn Q l) (a b c e : Nat) :
    QueueIn Q (l.map (·.upd a b c e)) := by
  intro d hd
  obtain ⟨d', hd', rfl⟩ := List.mem_map.1 hd
  rw [EdgeData.upd_edge]
  exact h d' hd'

theorem QueueIn.append {Q : Nat → Prop} {l l' : List EdgeData} (h : QueueIn Q l) (h' : QueueIn Q l') :
    QueueIn Q (l ++ l') := by
  intro d hd
  rcases List.mem_append.1 hd with hd | hd
  · exact h d hd
  · exact h' d hd

theorem QueueIn.singleton {Q : Nat → Prop} {d : EdgeData} (h1 : Q d.edge.src) (h2 : Q d.edge.dst) :
    QueueIn Q [d] := by
  intro d' hd
  simp at hd
  subst hd
  exact ⟨h1, h2⟩

theorem Tri.edge_src (t : Tri) (i : Fin 3) : ∃ k, (t.edge i).src = t.v k := ⟨_, rfl⟩
theorem Tri.edge_dst (t : Tri) (i : Fin 3) : ∃ k, (t.edge i).dst = t.v k := ⟨_, rfl⟩

theorem toQuad_ok {d : EdgeData} {ts : List Tri} {q : Quad} (h : d.toQuad ts = .ok q) :
    ∃ tt tf, ts[d.t]? = some tt ∧ ts[d.f]? = some tf ∧
      q = ⟨d.edge.src, d.edge.dst, tt.oppVertexId d.edge, tf.oppVertexId d.edge⟩ := by
  simp only [EdgeData.toQuad, Res.bind_eq_ok] at h
  obtain ⟨tt, htt, tf, htf, h⟩ := h
  rw [getI_eq_ok] at htt htf
  simp at h
  exact ⟨tt, tf, htt, htf, h.symm⟩

theorem toQuad_verts {Q : Nat → Prop} {d : EdgeData} {ts : List Tri} {q : Quad}
    (h : d.toQuad ts = .ok q) (hv : VertsIn Q ts) (hd : Q d.edge.src ∧ Q d.edge.dst) :
    Q q.q1 ∧ Q q.q2 ∧ Q q.q3 ∧ Q q.q4 := by
  obtain ⟨tt, tf, htt, htf, rfl⟩ := toQuad_ok h
  obtain ⟨k, hk⟩ := oppVertexId_mem tt d.edge
  obtain ⟨k', hk'⟩ := oppVertexId_mem tf d.edge
  refine ⟨hd.1, hd.2, ?_, ?_⟩
  · show Q (tt.oppVertexId d.edge); rw [hk]; exact hv.get htt k
  · show Q (tf.oppVertexId d.edge); rw [hk']; exact hv.get htf k'

theorem setV2t_ok {v2t v2t' : List Nat} {q t : Nat} (h : setV2t v2t q t = .ok v2t') :
    (isFin q = true ∧ q < v2t.length ∧ v2t' = v2t.set q t) ∨ (isFin q = false ∧ v2t' = v2t) := by
  unfold setV2t at h
  split at h
  · rw [setI_eq_ok] at h; exact .inl ⟨‹_›, h.1, h.2⟩
  · simp at h; exact .inr ⟨Bool.eq_false_iff.2 ‹_›, h.symm⟩

theorem setV2t_length {v2t v2t' : List Nat} {q t : Nat} (h : setV2t v2t q t = .ok v2t') :
    v2t'.length = v2t.length := by
  rcases setV2t_ok h with ⟨_, _, rfl⟩ | ⟨_, rfl⟩ <;> simp

/-- What a successful `swapQuad` did. -/
theorem swapQuad_ok {ts : List Tri} {v2t : List Nat} {d : EdgeData} {q : Quad} {w : Swapped}
    (h : swapQuad ts v2t d q = .ok w) :
    ∃ tt tf ts1 v1, ts[d.t]? = some tt ∧ ts[d.f]? = some tf ∧
      w.ttl = tt.n (oppEdgeIdx (tt.vertexIndex q.q2)) ∧
      w.tfr = tf.n (nextCcwEdge (oppEdgeIdx (tf.vertexIndex q.q2))) ∧
      updNb ((ts.set d.f ⟨q.q3, q.q4, q.q1, d.t, tf.n (oppEdgeIdx (tf.vertexIndex q.q2)), w.ttl⟩).set d.t
        ⟨q.q3, q.q2, q.q4, tt.n (nextCwEdge (oppEdgeIdx (tt.vertexIndex q.q2))), w.tfr, d.f⟩)
        w.ttl d.t d.f = .ok ts1 ∧
      updNb ts1 w.tfr d.f d.t = .ok w.ts ∧
      setV2t v2t q.q1 d.f = .ok v1 ∧ setV2t v1 q.q2 d.t = .ok w.v2t := by
  simp only [swapQuad, Res.bind_eq_ok] at h
  obtain ⟨tt, htt, tf, htf, ts1, h1, ts2, h2, v1, hv1, v2, hv2, h⟩ := h
  rw [getI_eq_ok] at htt htf
  simp at h
  subst h
  exact ⟨tt, tf, ts1, v1, htt, htf, rfl, rfl, h1, h2, hv1, hv2⟩

theorem swapQuad_length {ts : List Tri} {v2t : List Nat} {d : EdgeData} {q : Quad} {w : Swapped}
    (h : swapQuad ts v2t d q = .ok w) :
    w.ts.length = ts.length ∧ w.v2t.length = v2t.length := by
  obtain ⟨tt, tf, ts1, v1, _, _, _, _, h1, h2, h3, h4⟩ := swapQuad_ok h
  rw [updNb_length h2, updNb_length h1, setV2t_length h4, setV2t_length h3]; simp

theorem swapQuad_verts {Q : Nat → Prop} {ts : List Tri} {v2t : List Nat} {d : EdgeData} {q : Quad}
    {w : Swapped} (h : swapQuad ts v2t d q = .ok w) (hv : VertsIn Q ts)
    (hq : Q q.q1 ∧ Q q.q2 ∧ Q q.q3 ∧ Q q.q4) : VertsIn Q w.ts := by
  obtain ⟨tt, tf, ts1, v1, _, _, _, _, h1, h2, h3, h4⟩ := swapQuad_ok h
  refine updNb_verts h2 (updNb_verts h1 (VertsIn.set (VertsIn.set hv ?_) ?_))
  · rw [forall_fin3]; simp_all
  · rw [forall_fin3]; simp_all

/-- Case analysis of one successful iteration of `remove_crossed_edges`. -/
theorem removeStep_ok {vs : List (Vtx F)} {cv : EV F} {d : EdgeData} {s s' : RC}
    (h : removeStep vs cv d s = .ok s') :
    s.nonConvex ≤ s.isects.length ∧ ∃ q r, d.toQuad s.ts = .ok q ∧ quadDiag vs q = .ok r ∧
     ((r ≠ .crossing ∧ s' = { s with isects := s.isects ++ [d], nonConvex := s.nonConvex + 1 }) ∨
      (r = .crossing ∧ ∃ w x, swapQuad s.ts s.v2t d q = .ok w ∧ edgeIsect vs ⟨q.q3, q.q4⟩ cv = .ok x ∧
        ((x = .crossing ∧ s' = ⟨w.ts, w.v2t, s.isects.map (·.upd w.ttl w.tfr d.f d.t) ++
            [⟨d.f, d.t, ⟨q.q3, q.q4⟩⟩], s.diags.map (·.upd w.ttl w.tfr d.f d.t), 0⟩) ∨
         (x ≠ .crossing ∧ s' = ⟨w.ts, w.v2t, s.isects.map (·.upd w.ttl w.tfr d.f d.t),
            s.diags.map (·.upd w.ttl w.tfr d.f d.t) ++ [⟨d.f, d.t, ⟨q.q3, q.q4⟩⟩], 0⟩)))) := by
  unfold removeStep at h
  split at h
  · simp at h
  · refine ⟨by omega, ?_⟩
    rw [Res.bind_eq_ok] at h
    obtain ⟨q, hq, h⟩ := h
    rw [Res.bind_eq_ok] at h
    obtain ⟨r, hr, h⟩ := h
    refine ⟨q, r, hq, hr, ?_⟩
    split at h
    · simp at h; exact .inl ⟨‹_›, h.symm⟩
    · right
      refine ⟨not_not.1 ‹_›, ?_⟩
      rw [Res.bind_eq_ok] at h
      obtain ⟨w, hw, h⟩ := h
      dsimp only at h
      rw [Res.bind_eq_ok] at h
      obtain ⟨x, hx, h⟩ := h
      refine ⟨w, x, hw, hx, ?_⟩
      split at h
      · simp at h; exact .inl ⟨‹_›, h.symm⟩
      · simp at h; exact .inr ⟨‹_›, h.symm⟩

/-- Vertex invariant of `remove_crossed_edges`. -/
def RC.In (Q : Nat → Prop) (s : RC) : Prop :=
  VertsIn Q s.ts ∧ QueueIn Q s.isects ∧ QueueIn Q s.diags

theorem removeStep_in {Q : Nat → Prop} {vs : List (Vtx F)} {cv : EV F} {d : EdgeData} {s s' : RC}
    (h : removeStep vs cv d s = .ok s') (hs : s.In Q) (hd : Q d.edge.src ∧ Q d.edge.dst) :
    s'.In Q ∧ s'.ts.length = s.ts.length ∧ s'.v2t.length = s.v2t.length := by
  obtain ⟨hv, hi, hg⟩ := hs
  obtain ⟨_, q, r, hq, hr, ⟨_, rfl⟩ | ⟨_, w, x, hw, hx, ⟨_, rfl⟩ | ⟨_, rfl⟩⟩⟩ := removeStep_ok h
  · exact ⟨⟨hv, hi.append (.singleton hd.1 hd.2), hg⟩, rfl, rfl⟩
  all_goals
    have hqq := toQuad_verts hq hv hd
    refine ⟨⟨swapQuad_verts hw hv hqq, ?_, ?_⟩, swapQuad_length hw⟩
  · exact (hi.map_upd _ _ _ _).append (.singleton hqq.2.2.1 hqq.2.2.2)
  · exact hg.map_upd _ _ _ _
  · exact hi.map_upd _ _ _ _
  · exact (hg.map_upd _ _ _ _).append (.singleton hqq.2.2.1 hqq.2.2.2)

/-- Loop rule for `removeCrossed`. -/
theorem removeCrossed_rule {vs : List (Vtx F)} {cv : EV F} (I : RC → Prop)
    (hI : ∀ s d rest s', I s → s.isects = d :: rest →
      removeStep vs cv d { s with isects := rest } = .ok s' → I s')
    {fuel : Nat} {s s' : RC} (h : removeCrossed vs cv fuel s = .ok s') (hs : I s) :
    I s' ∧ s'.isects = [] := by
  induction fuel generalizing s with
  | zero =>
    unfold removeCrossed at h
    split at h
    · simp at h; subst h; exact ⟨hs, ‹_›⟩
    · simp at h
  | succ n ih =>
    unfold removeCrossed at h
    split at h
    · simp at h; subst h; exact ⟨hs, ‹_›⟩
    · rename_i d rest he
      rw [Res.bind_eq_ok] at h
      obtain ⟨s1, h1, h⟩ := h
      exact ih h (hI s d rest s1 hs he h1)

theorem removeCrossed_in {Q : Nat → Prop} {vs : List (Vtx F)} {cv : EV F} {fuel : Nat} {s s' : RC}
    (h : removeCrossed vs cv fuel s = .ok s') (hs : s.In Q) :
    s'.In Q ∧ s'.ts.length = s.ts.length ∧ s'.v2t.length = s.v2t.length := by
  refine (removeCrossed_rule (fun x => x.In Q ∧ x.ts.length = s.ts.length ∧
    x.v2t.length = s.v2t.length) ?_ h ⟨hs, rfl, rfl⟩).1
  rintro a d rest b ⟨⟨hv, hi, hg⟩, h1, h2⟩ he hst
  rw [he] at hi
  obtain ⟨hin, h3, h4⟩ := removeStep_in hst ⟨hv, fun x hx => hi x (by simp [hx]), hg⟩
    (hi d (by simp))
  exact ⟨hin, h3.trans h1, h4.trans h2⟩

/-- Case analysis of one successful iteration of the constrained restoration. -/
theorem restoreStepC_ok {vs : List (Vtx F)} {ce : Edge} {d : EdgeData} {s s' : RS}
    (h : restoreStepC vs ce d s = .ok s') :
    (d.edge.undirEq ce = true ∧ s' = s) ∨
    (d.edge.undirEq ce = false ∧ ∃ q b, d.toQuad s.ts = .ok q ∧ shouldSwapC vs q = .ok b ∧
      ((¬ (b = true ∧ (d.f, d.t) ∉ s.hist) ∧ s' = s) ∨
       (b = true ∧ (d.f, d.t) ∉ s.hist ∧ ∃ w, swapQuad s.ts s.v2t d q = .ok w ∧
        s' = ⟨w.ts, w.v2t, s.diags.map (·.upd w.ttl w.tfr d.f d.t) ++ [⟨d.f, d.t, ⟨q.q3, q.q4⟩⟩],
          (d.f, d.t) :: s.hist⟩))) := by
  unfold restoreStepC at h
  split at h
  · simp at h; exact .inl ⟨‹_›, h.symm⟩
  · right
    refine ⟨Bool.eq_false_iff.2 ‹_›, ?_⟩
    rw [Res.bind_eq_ok] at h
    obtain ⟨q, hq, h⟩ := h
    rw [Res.bind_eq_ok] at h
    obtain ⟨b, hb, h⟩ := h
    refine ⟨q, b, hq, hb, ?_⟩
    split at h
    · rename_i hc
      simp only [Bool.and_eq_true, decide_eq_true_eq] at hc
      rw [Res.bind_eq_ok] at h
      obtain ⟨w, hw, h⟩ := h
      simp at h
      exact .inr ⟨hc.1, hc.2, w, hw, h.symm⟩
    · rename_i hc
      simp only [Bool.and_eq_true, decide_eq_true_eq] at hc
      simp at h
      exact .inl ⟨hc, h.symm⟩

theorem restoreC_rule {vs : List (Vtx F)} {ce : Edge} (I : RS → Prop)
    (hI : ∀ s d rest s', I s → s.diags = d :: rest →
      restoreStepC vs ce d { s with diags := rest } = .ok s' → I s')
    {fuel : Nat} {s s' : RS} (h : restoreC vs ce fuel s = .ok s') (hs : I s) :
    I s' ∧ s'.diags = [] := by
  induction fuel generalizing s with
  | zero =>
    unfold restoreC at h
    split at h
    · simp at h; subst h; exact ⟨hs, ‹_›⟩
    · simp at h
  | succ n ih =>
    unfold restoreC at h
    split at h
    · simp at h; subst h; exact ⟨hs, ‹_›⟩
    · rename_i d rest he
      rw [Res.bind_eq_ok] at h
      obtain ⟨s1, h1, h⟩ := h
      exact ih h (hI s d rest s1 hs he h1)

theorem restoreC_in {Q : Nat → Prop} {vs : List (Vtx F)} {ce : Edge} {fuel : Nat} {s s' : RS}
    (h : restoreC vs ce fuel s = .ok s') (hv : VertsIn Q s.ts) (hd : QueueIn Q s.diags) :
    VertsIn Q s'.ts ∧ s'.ts.length = s.ts.length ∧ s'.v2t.length = s.v2t.length := by
  refine ((fun x => ⟨x.1, x.2.2⟩) (restoreC_rule (fun x => VertsIn Q x.ts ∧ QueueIn Q x.diags ∧
    x.ts.length = s.ts.length ∧ x.v2t.length = s.v2t.length) ?_ h ⟨hv, hd, rfl, rfl⟩).1)
  rintro a d rest b ⟨hv, hg, h1, h2⟩ he hst
  rw [he] at hg
  have hr : QueueIn Q rest := fun x hx => hg x (by simp [hx])
  rcases restoreStepC_ok hst with ⟨_, rfl⟩ | ⟨_, q, _, hq, _, ⟨_, rfl⟩ | ⟨_, _, w, hw, rfl⟩⟩
  · exact ⟨hv, hr, h1, h2⟩
  · exact ⟨hv, hr, h1, h2⟩
  · have hqq := toQuad_verts hq hv (hg d (by simp))
    obtain ⟨l1, l2⟩ := swapQuad_length hw
    exact ⟨swapQuad_verts hw hv hqq, (hr.map_upd _ _ _ _).append (.singleton hqq.2.2.1 hqq.2.2.2),
      l1.trans h1, l2.trans h2⟩

theorem loopAround_in {vs : List (Vtx F)} {ts : List Tri} {start : Nat} {ce : Edge}
    {cv : EV F} {next : Fin 3 → Fin 3} {n i tid : Nat} {d : EdgeData}
    (h : loopAround vs ts start ce cv next n i tid = .ok (.isect d)) :
    ∃ t k, ts[d.f]? = some t ∧ d.edge = t.edge k ∧ d.t = t.n k ∧ d.t ≠ NONE ∧
      k = oppEdgeIdx (t.vertexIndex ce.src) ∧ t.hasVert ce.dst = false ∧
      edgeIsect vs d.edge cv = .ok .crossing := by
  induction n generalizing i tid with
  | zero => simp [loopAround] at h
  | succ n ih =>
    simp only [loopAround] at h
    split at h
    · simp at h
    · rw [Res.bind_eq_ok] at h
      obtain ⟨t, ht, h⟩ := h
      rw [getI_eq_ok] at ht
      split at h
      · simp at h
      · rename_i hv
        rw [Res.bind_eq_ok] at h
        obtain ⟨r, hr, h⟩ := h
        split at h
        · split at h
          · simp at h
          · rename_i hx hn
            simp at h; subst h
            subst hx
            exact ⟨t, _, ht, rfl, rfl, hn, rfl, by simpa using hv, hr⟩
        · split at h
          · simp at h
          · exact ih h

theorem searchFirst_in {vs : List (Vtx F)} {ts : List Tri} {ce : Edge}
    {cv : EV F} {start : Nat} {d : EdgeData}
    (h : searchFirst vs ts ce cv start = .ok (.isect d)) :
    ∃ t k, ts[d.f]? = some t ∧ d.edge = t.edge k ∧ d.t = t.n k ∧ d.t ≠ NONE ∧
      k = oppEdgeIdx (t.vertexIndex ce.src) ∧ t.hasVert ce.dst = false ∧
      edgeIsect vs d.edge cv = .ok .crossing := by
  unfold searchFirst at h
  rw [Res.bind_eq_ok] at h
  obtain ⟨r, hr, h⟩ := h
  split at h
  · simp at h
  · simp at h; subst h; exact loopAround_in hr
  · rw [Res.bind_eq_ok] at h
    obtain ⟨t, _, h⟩ := h
    exact loopAround_in h

theorem nextIsect_ok {vs : List (Vtx F)} {cv : EV F} {t : Tri} {tid : Nat} {e : Edge} {d : EdgeData}
    (h : nextIsect vs cv t tid e = .ok (some d)) :
    ∃ k, d = ⟨tid, t.n k, t.edge k⟩ ∧ (t.edge k).undirEq e = false ∧
      edgeIsect vs (t.edge k) cv = .ok .crossing ∧ t.n k ≠ NONE := by
  have key : ∀ k, nextCandidate vs cv t e k = .ok true → (t.edge k).undirEq e = false ∧
      edgeIsect vs (t.edge k) cv = .ok .crossing ∧ t.n k ≠ NONE := by
    intro k hk
    unfold nextCandidate at hk
    split at hk
    · simp at hk
    · rw [Res.bind_eq_ok] at hk
      obtain ⟨r, hr, hk⟩ := hk
      simp only [Res.ok.injEq, Bool.and_eq_true, decide_eq_true_eq] at hk
      exact ⟨Bool.eq_false_iff.2 ‹_›, by rw [hr, hk.1], hk.2⟩
  unfold nextIsect at h
  rw [Res.bind_eq_ok] at h
  obtain ⟨b, hb, h⟩ := h
  split at h
  · simp at h; subst h; subst_vars; exact ⟨0, rfl, key 0 hb⟩
  rw [Res.bind_eq_ok] at h
  obtain ⟨b, hb, h⟩ := h
  split at h
  · simp at h; subst h; subst_vars; exact ⟨1, rfl, key 1 hb⟩
  rw [Res.bind_eq_ok] at h
  obtain ⟨b, hb, h⟩ := h
  split at h
  · simp at h; subst h; subst_vars; exact ⟨2, rfl, key 2 hb⟩
  · simp at h

/-- What is known of every registered edge: it is an edge of a mesh triangle with its neighbor, and it
is crossed by the constraint. -/
def Registered (vs : List (Vtx F)) (ts : List Tri) (cv : EV F) (d : EdgeData) : Prop :=
  ∃ t k, ts[d.f]? = some t ∧ d.edge = t.edge k ∧ d.t = t.n k ∧ d.t ≠ NONE ∧
    edgeIsect vs d.edge cv = .ok .crossing

theorem registerLoop_in {vs : List (Vtx F)} {ts : List Tri} {ce : Edge} {cv : EV F} {n : Nat}
    {d : EdgeData} {l : List EdgeData} (h : registerLoop vs ts ce cv n d = .ok l) :
    ∀ d' ∈ l, Registered vs ts cv d' := by
  induction n generalizing d l with
  | zero => simp [registerLoop] at h; subst h; simp
  | succ n ih =>
    simp only [registerLoop, Res.bind_eq_ok] at h
    obtain ⟨t, ht, h⟩ := h
    rw [getI_eq_ok] at ht
    split at h
    · simp at h; subst h; simp
    · rw [Res.bind_eq_ok] at h
      obtain ⟨o, ho, h⟩ := h
      split at h
      · rw [Res.bind_eq_ok] at h
        obtain ⟨rest, hr, h⟩ := h
        simp at h; subst h
        obtain ⟨k, rfl, _, hx, hn⟩ := nextIsect_ok ho
        intro d' hd'
        rcases List.mem_cons.1 hd' with rfl | hd'
        · exact ⟨t, k, ht, rfl, rfl, hn, hx⟩
        · exact ih hr d' hd'
      · simp at h

theorem registerEdges_in {vs : List (Vtx F)} {ts : List Tri} {ce : Edge} {cv : EV F} {v2t : List Nat}
    {l : List EdgeData} (h : registerEdges vs ts ce cv v2t = .ok l) :
    ∀ d ∈ l, Registered vs ts cv d := by
  unfold registerEdges at h
  rw [Res.bind_eq_ok] at h
  obtain ⟨st, _, h⟩ := h
  rw [Res.bind_eq_ok] at h
  obtain ⟨f, hf, h⟩ := h
  split at h
  · simp at h; subst h; simp
  · simp at h
  · rw [Res.bind_eq_ok] at h
    obtain ⟨rest, hr, h⟩ := h
    simp at h; subst h
    intro d' hd'
    rcases List.mem_cons.1 hd' with rfl | hd'
    · obtain ⟨t, k, h1, h2, h3, h4, _, _, h5⟩ := searchFirst_in hf
      exact ⟨t, k, h1, h2, h3, h4, h5⟩
    · exact registerLoop_in hr d' hd'

theorem Registered.queueIn {Q : Nat → Prop} {vs : List (Vtx F)} {ts : List Tri} {cv : EV F}
    {l : List EdgeData} (h : ∀ d ∈ l, Registered vs ts cv d) (hv : VertsIn Q ts) : QueueIn Q l := by
  intro d hd
  obtain ⟨t, k, ht, he, _⟩ := h d hd
  rw [he]
  exact ⟨hv.get ht _, hv.get ht _⟩

/-- Case analysis of one successful constraint insertion. -/
theorem insertEdge_ok {vs : List (Vtx F)} {fuel : Nat} {ce : Edge} {s s' : AC}
    (h : insertEdge vs fuel ce s = .ok s') :
    ∃ a b l, vs[ce.src]? = some a ∧ vs[ce.dst]? = some b ∧
      registerEdges vs s.ts ce (a, b) s.v2t = .ok l ∧
      ((l = [] ∧ s' = s) ∨ (l ≠ [] ∧ ∃ rc rs,
        removeCrossed vs (a, b) fuel ⟨s.ts, s.v2t, l, [], 0⟩ = .ok rc ∧
        restoreC vs ce fuel ⟨rc.ts, rc.v2t, rc.diags, []⟩ = .ok rs ∧ s' = ⟨rs.ts, rs.v2t, s.S⟩)) := by
  simp only [insertEdge, Res.bind_eq_ok] at h
  obtain ⟨a, ha, b, hb, l, hl, h⟩ := h
  rw [getI_eq_ok] at ha hb
  refine ⟨a, b, l, ha, hb, hl, ?_⟩
  split at h
  · simp at h; exact .inl ⟨rfl, h.symm⟩
  · right
    refine ⟨by simp, ?_⟩
    rw [Res.bind_eq_ok] at h
    obtain ⟨rc, hrc, h⟩ := h
    rw [Res.bind_eq_ok] at h
    obtain ⟨rs, hrs, h⟩ := h
    simp at h
    exact ⟨rc, rs, hrc, hrs, h.symm⟩

theorem insertEdge_in {Q : Nat → Prop} {vs : List (Vtx F)} {fuel : Nat} {ce : Edge} {s s' : AC}
    (h : insertEdge vs fuel ce s = .ok s') (hv : VertsIn Q s.ts) :
    VertsIn Q s'.ts ∧ s'.ts.length = s.ts.length ∧ s'.v2t.length = s.v2t.length ∧ s'.S = s.S := by
  obtain ⟨a, b, l, _, _, hl, ⟨_, rfl⟩ | ⟨_, rc, rs, hrc, hrs, rfl⟩⟩ := insertEdge_ok h
  · exact ⟨hv, rfl, rfl, rfl⟩
  · obtain ⟨⟨h1, h2, h3⟩, h4, h5⟩ := removeCrossed_in (Q := Q) hrc
      ⟨hv, Registered.queueIn (registerEdges_in hl) hv, by intro d hd; simp at hd⟩
    obtain ⟨h6, h7, h8⟩ := restoreC_in (Q := Q) hrs h1 h3
    exact ⟨h6, h7.trans h4, h8.trans h5, rfl⟩

theorem applyOne_ok {vs : List (Vtx F)} {fuel : Nat} {merge : List Nat} {e : Edge} {s s' : AC}
    (h : applyOne vs fuel merge e s = .ok s') :
    ∃ a b, merge[e.src]? = some a ∧ merge[e.dst]? = some b ∧
      ((a = b ∧ s' = s) ∨ (a ≠ b ∧ ⟨a, b⟩ ∈ s.S ∧ s' = s) ∨
        (a ≠ b ∧ ⟨a, b⟩ ∉ s.S ∧ insertEdge vs fuel ⟨a, b⟩ { s with S := ⟨a, b⟩ :: s.S } = .ok s')) := by
  simp only [applyOne, Res.bind_eq_ok] at h
  obtain ⟨a, ha, b, hb, h⟩ := h
  rw [getI_eq_ok] at ha hb
  refine ⟨a, b, ha, hb, ?_⟩
  split at h
  · simp at h; exact .inl ⟨‹_›, h.symm⟩
  · split at h
    · simp at h; exact .inr (.inl ⟨‹_›, ‹_›, h.symm⟩)
    · exact .inr (.inr ⟨‹_›, ‹_›, h⟩)

theorem applyLoop_rule {vs : List (Vtx F)} {fuel : Nat} {merge : List Nat} (I : AC → Prop)
    (hI : ∀ s e s', I s → applyOne vs fuel merge e s = .ok s' → I s')
    {es : List Edge} {s s' : AC} (h : applyLoop vs fuel merge es s = .ok s') (hs : I s) : I s' := by
  induction es generalizing s with
  | nil => simp [applyLoop] at h; subst h; exact hs
  | cons e es ih =>
    simp only [applyLoop, Res.bind_eq_ok] at h
    obtain ⟨s1, h1, h⟩ := h
    exact ih h (hI _ _ _ hs h1)

theorem applyLoop_in {Q : Nat → Prop} {vs : List (Vtx F)} {fuel : Nat} {merge : List Nat}
    {es : List Edge} {s s' : AC} (h : applyLoop vs fuel merge es s = .ok s') (hv : VertsIn Q s.ts) :
    VertsIn Q s'.ts ∧ s'.ts.length = s.ts.length ∧ s'.v2t.length = s.v2t.length := by
  refine applyLoop_rule (fun x => VertsIn Q x.ts ∧ x.ts.length = s.ts.length ∧
    x.v2t.length = s.v2t.length) ?_ h ⟨hv, rfl, rfl⟩
  rintro a e b ⟨hv, h1, h2⟩ ho
  obtain ⟨_, _, _, _, ⟨_, rfl⟩ | ⟨_, _, rfl⟩ | ⟨_, _, hi⟩⟩ := applyOne_ok ho
  · exact ⟨hv, h1, h2⟩
  · exact ⟨hv, h1, h2⟩
  · obtain ⟨h3, h4, h5, _⟩ := insertEdge_in hi hv
    exact ⟨h3, h4.trans h1, h5.trans h2⟩

theorem buildV2t_length {ts : List Tri} {i : Nat} {v v' : List Nat} (h : buildV2t ts i v = .ok v') :
    v'.length = v.length := by
  induction ts generalizing i v with
  | nil => simp [buildV2t] at h; rw [h]
  | cons t ts ih =>
    simp only [buildV2t, Res.bind_eq_ok] at h
    obtain ⟨a, ha, b, hb, c, hc, h⟩ := h
    rw [ih h, setV2t_length hc, setV2t_length hb, setV2t_length ha]

theorem applyConstraints_ok {vs : List (Vtx F)} {fuel : Nat} {ts : List Tri} {es : List Edge}
    {merge : List Nat} {s : AC} (h : applyConstraints vs fuel ts es merge = .ok s) :
    ∃ v2t, buildV2t ts 0 (List.replicate vs.length 0) = .ok v2t ∧
      applyLoop vs fuel merge es ⟨ts, v2t, []⟩ = .ok s := by
  simpa only [applyConstraints, Res.bind_eq_ok] using h

theorem constrainedMesh_ok {fuel : Nat} {bins : Nat → Nat} {vs : List (Vtx F)} {es : List Edge} {r : AC}
    (h : constrainedMesh fuel bins vs es = .ok r) :
    ∃ s, wrapAndTriangulate fuel (bins vs.length) (normalizeVerts vs)
        (some ((List.range vs.length).map toId)) = .ok s ∧
      applyConstraints (normalizeVerts vs) fuel s.ts es (s.merge.getD []) = .ok r := by
  simpa only [constrainedMesh, Res.bind_eq_ok] using h

theorem normalizeVerts_length (vs : List (Vtx F)) : (normalizeVerts vs).length = vs.length := by
  simp [normalizeVerts]

theorem constrainedMesh_verts {fuel : Nat} {bins : Nat → Nat} {vs : List (Vtx F)} {es : List Edge}
    {r : AC} (h : constrainedMesh fuel bins vs es = .ok r) :
    VertsIn (fun v => isInf v = true ∨ v < vs.length) r.ts := by
  obtain ⟨s, hs, h⟩ := constrainedMesh_ok h
  obtain ⟨v2t, _, h⟩ := applyConstraints_ok h
  have := wrapAndTriangulate_verts hs
  rw [normalizeVerts_length] at this
  exact (applyLoop_in h this).1

/-! ## Filters -/

theorem mem_filterSeq {ts : List Tri} {o : Out} (h : o ∈ filterSeq ts) :
    ∃ t ∈ ts, t.isFinite = true ∧ o = t.verts := by
  induction ts with
  | nil => simp [filterSeq] at h
  | cons t ts ih =>
    unfold filterSeq at h
    split at h
    · rcases List.mem_cons.1 h with rfl | h
      · exact ⟨t, by simp, ‹_›, rfl⟩
      · obtain ⟨t', ht', h'⟩ := ih h
        exact ⟨t', by simp [ht'], h'⟩
    · obtain ⟨t', ht', h'⟩ := ih h
      exact ⟨t', by simp [ht'], h'⟩

theorem mem_emit {t : Tri} {out : List Out} {o : Out} (h : o ∈ emit t out) :
    o ∈ out ∨ (t.isFinite = true ∧ o = t.verts) := by
  unfold emit at h
  split at h
  · rcases List.mem_append.1 h with h | h
    · exact .inl h
    · simp at h; exact .inr ⟨‹_›, h⟩
  · exact .inl h

theorem explore_mem {S : List Edge} {ts : List Tri} {fuel : Nat} {st : List Nat} {s s' : Flood}
    (h : explore S ts fuel st s = .ok s') {o : Out} (ho : o ∈ s'.out) :
    o ∈ s.out ∨ ∃ t ∈ ts, t.isFinite = true ∧ o = t.verts := by
  induction fuel generalizing st s with
  | zero =>
    cases st with
    | nil => simp [explore] at h; subst h; exact .inl ho
    | cons n st => simp [explore] at h
  | succ k ih =>
    cases st with
    | nil => simp [explore] at h; subst h; exact .inl ho
    | cons n st =>
      simp only [explore] at h
      split at h
      · exact ih h
      · rw [Res.bind_eq_ok] at h
        obtain ⟨b, _, h⟩ := h
        split at h
        · exact ih h
        · rw [Res.bind_eq_ok] at h
          obtain ⟨t, ht, h⟩ := h
          rw [getI_eq_ok] at ht
          rcases ih h with hm | hm
          · rcases mem_emit hm with hm | ⟨h1, h2⟩
            · exact .inl hm
            · exact .inr ⟨t, List.mem_of_getElem? ht, h1, h2⟩
          · exact .inr hm

theorem floodLoop_mem {S : List Edge} {ts : List Tri} {fuel : Nat} {l : List Tri} {i : Nat}
    {s s' : Flood} (h : floodLoop S ts fuel l i s = .ok s') (hl : ∀ t ∈ l, t ∈ ts) {o : Out}
    (ho : o ∈ s'.out) : o ∈ s.out ∨ ∃ t ∈ ts, t.isFinite = true ∧ o = t.verts := by
  induction l generalizing i s with
  | nil => simp [floodLoop] at h; subst h; exact .inl ho
  | cons t l ih =>
    simp only [floodLoop, Res.bind_eq_ok] at h
    obtain ⟨b, _, h⟩ := h
    have hl' : ∀ t ∈ l, t ∈ ts := fun t ht => hl t (by simp [ht])
    split at h
    · rw [Res.bind_eq_ok] at h
      obtain ⟨s1, h1, h⟩ := h
      rcases ih h hl' with hm | hm
      · rcases explore_mem h1 hm with hm | hm
        · rcases mem_emit hm with hm | ⟨h1, h2⟩
          · exact .inl hm
          · exact .inr ⟨t, hl t (by simp), h1, h2⟩
        · exact .inr hm
      · exact .inr hm
    · exact ih h hl'

theorem cdtFilter_mem {fuel : Nat} {ts : List Tri} {S : List Edge} {out : List Out}
    (h : cdtFilter fuel ts S = .ok out) {o : Out} (ho : o ∈ out) :
    ∃ t ∈ ts, t.isFinite = true ∧ o = t.verts := by
  simp only [cdtFilter, Res.bind_eq_ok] at h
  obtain ⟨s, hs, h⟩ := h
  simp at h; subst h
  rcases floodLoop_mem hs (fun t ht => ht) ho with hm | hm
  · simp at hm
  · exact hm

end CDT

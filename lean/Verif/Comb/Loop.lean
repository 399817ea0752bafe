import Verif.Comb.Swap

/-!
# The constraint phase on combinatorial meshes

Whatever the predicates answer: as long as no mesh with a doubled triangle is reached and no edge is registered twice, the
mesh, the table `vertex_to_triangle` and the queues stay consistent.
-/

set_option linter.unusedSectionVars false
set_option linter.unusedVariables false

namespace CDT
namespace Comb

variable {F : Type} [FloatOps F] [IdCfg]
variable {vs : List (Vtx F)} {ts ts' : List Tri} {cv : EV F} {ce : Edge}

/-- Mesh and table. -/
structure MInv (n : Nat) (ts : List Tri) (v2t : List Nat) : Prop where
  valid : Valid ts
  vert : VertsIn (IdOk n) ts
  v2t : V2tOk n ts v2t

/-- The same vertex may still be found after `ts` became `ts'`. -/
def Keeps (ts ts' : List Tri) : Prop := ∀ v, Occ ts v → Occ ts' v

theorem Keeps.refl (ts : List Tri) : Keeps ts ts := fun _ h => h
theorem Keeps.trans {a b c : List Tri} (h : Keeps a b) (h' : Keeps b c) : Keeps a c := fun v hv => h' v (h v hv)

theorem FlipSpec.keeps {s o p a b c n1 n2 n3 n4 : Nat} (hf : FlipSpec ts ts' s o p a b c n1 n2 n3 n4) : Keeps ts ts' := by
  obtain ⟨S, hS, hRS⟩ := hf.hs
  obtain ⟨U, hU, hRU⟩ := hf.ho
  obtain ⟨S', hS', hRS'⟩ := hf.hs'
  obtain ⟨U', hU', hRU'⟩ := hf.ho'
  rintro v ⟨i, t, ht, hh⟩
  by_cases his : i = s
  · subst his
    rw [hS] at ht; simp only [Option.some.injEq] at ht; subst ht
    rcases hRS.hasVert.1 hh with h | h | h
    · exact ⟨_, S', hS', hRS'.hasVert.2 (by simp [h])⟩
    · exact ⟨_, S', hS', hRS'.hasVert.2 (by simp [h])⟩
    · exact ⟨_, U', hU', hRU'.hasVert.2 (by simp [h])⟩
  by_cases hio : i = o
  · subst hio
    rw [hU] at ht; simp only [Option.some.injEq] at ht; subst ht
    rcases hRU.hasVert.1 hh with h | h | h
    · exact ⟨_, U', hU', hRU'.hasVert.2 (by simp [h])⟩
    · exact ⟨_, S', hS', hRS'.hasVert.2 (by simp [h])⟩
    · exact ⟨_, S', hS', hRS'.hasVert.2 (by simp [h])⟩
  obtain ⟨t', ht', -⟩ := getI_lt (l := ts') (i := i) (by rw [hf.len]; exact lt_of_getElem? ht)
  obtain ⟨t0, ht0, e1, e2, e3⟩ := hf.verts_other his hio ht'
  rw [ht] at ht0; simp only [Option.some.injEq] at ht0; subst ht0
  refine ⟨i, t', ht', ?_⟩
  rw [hasVert_iff] at hh ⊢
  rwa [e1, e2, e3]

/-- A swap of a queued edge. -/
theorem MInv.swap {n : Nat} {v2t : List Nat} (hm : MInv n ts v2t) (hn : n ≤ INF0) {d : EdgeData} {Q : List EdgeData}
    (hq : QInv ts [] (d :: Q)) {q : Quad} (htq : d.toQuad ts = .ok q) {w : Swapped} (hw : swapQuad ts v2t d q = .ok w)
    (hd : ¬ Doubled w.ts) : MInv n w.ts w.v2t ∧
      QInv w.ts [] (Q.map (·.upd w.ttl w.tfr d.f d.t) ++ [⟨d.f, d.t, ⟨q.q3, q.q4⟩⟩]) ∧ Keeps ts w.ts := by
  obtain ⟨S, U, p, c, n1, n2, n3, n4, hS, hRS, hU, hRU, h1⟩ := toQuad_total hm.valid (hq.okQ d (by simp))
  rw [htq] at h1
  simp only [Res.ok.injEq] at h1
  subst h1
  have hso : d.t ≠ d.f := hm.valid.ne_self ⟨S, hS, hRS.has2⟩
  have hpc : p ≠ c := by
    rintro rfl
    refine hm.valid.single _ _ _ _ hS hU hso.symm fun v => ?_
    rw [hRS.hasVert, hRU.hasVert]; tauto
  obtain ⟨ts', v2t', g1, g2, g3⟩ := swapQuad_total hm.valid hm.vert hn hm.v2t hS hRS hU hRU hpc
  rw [hw] at g1
  simp only [Res.ok.injEq] at g1
  subst g1
  have hv' := g2.valid hm.valid hpc (not_doubled hd)
  have va := hm.vert.get hS
  have vu := hm.vert.get hU
  have hverts : VertsIn (IdOk n) ts' := by
    refine swapQuad_verts hw hm.vert ?_
    rw [forall_fin3] at va vu
    simp only [Tri.v_0, Tri.v_1, Tri.v_2] at va vu
    rcases hRS with rfl | rfl | rfl <;> rcases hRU with rfl | rfl | rfl <;> simp_all
  exact ⟨⟨hv', hverts, g3⟩, queue_swap hq g2 hm.valid hv' hpc rfl, g2.keeps⟩

/-- State of `remove_crossed_edges`. -/
structure RCInv (n : Nat) (s : RC) : Prop where
  m : MInv n s.ts s.v2t
  q : QInv s.ts [] (s.isects ++ s.diags)

theorem RCInv.step (hn : vs.length ≤ INF0) {s s' : RC} {d : EdgeData} {rest : List EdgeData} (h : RCInv vs.length s)
    (he : s.isects = d :: rest) (hs : removeStep vs cv d { s with isects := rest } = .ok s') (hd : ¬ Doubled s'.ts) :
    RCInv vs.length s' ∧ Keeps s.ts s'.ts := by
  have hq := h.q
  rw [he, List.cons_append] at hq
  obtain ⟨_, q, r, htq, _, ⟨_, rfl⟩ | ⟨_, w, x, hw, _, ⟨_, rfl⟩ | ⟨_, rfl⟩⟩⟩ := removeStep_ok hs
  · refine ⟨⟨h.m, hq.perm ?_⟩, Keeps.refl _⟩
    simp only [List.append_assoc, List.cons_append, List.nil_append]
    exact List.perm_middle.symm
  · obtain ⟨m1, m2, m3⟩ := h.m.swap hn hq htq hw hd
    refine ⟨⟨m1, m2.perm ?_⟩, m3⟩
    simp only [List.map_append, List.append_assoc]
    exact List.Perm.append_left _ List.perm_append_comm
  · obtain ⟨m1, m2, m3⟩ := h.m.swap hn hq htq hw hd
    refine ⟨⟨m1, m2.perm ?_⟩, m3⟩
    simp only [List.map_append, List.append_assoc]
    exact List.Perm.refl _

theorem RCInv.run (hn : vs.length ≤ INF0) {k : Nat} {s s' : RC} (h : RCInv vs.length s) (hr : RCSteps vs cv k s s')
    (hd : ∀ k' x, RCSteps vs cv k' s x → ¬ Doubled x.ts) : RCInv vs.length s' ∧ Keeps s.ts s'.ts := by
  induction hr with
  | zero s => exact ⟨h, Keeps.refl _⟩
  | succ e hs r ih =>
    obtain ⟨h1, h2⟩ := h.step hn e hs (hd 1 _ (.succ e hs (.zero _)))
    obtain ⟨h3, h4⟩ := ih h1 fun k' x hx => hd (k' + 1) x (.succ e hs hx)
    exact ⟨h3, h2.trans h4⟩

theorem removeCrossed_steps {fuel : Nat} {s s' : RC} (h : removeCrossed vs cv fuel s = .ok s') : (∃ k, RCSteps vs cv k s s') ∧ s'.isects = [] := by
  induction fuel generalizing s with
  | zero =>
    unfold removeCrossed at h
    split at h
    · simp at h; subst h; exact ⟨⟨0, .zero _⟩, ‹_›⟩
    · simp at h
  | succ n ih =>
    unfold removeCrossed at h
    split at h
    · simp at h; subst h; exact ⟨⟨0, .zero _⟩, ‹_›⟩
    · rename_i d rest he
      rw [Res.bind_eq_ok] at h
      obtain ⟨s1, h1, h⟩ := h
      obtain ⟨⟨k, hk⟩, h2⟩ := ih h
      exact ⟨⟨k + 1, .succ he h1 hk⟩, h2⟩

/-- `k` iterations of `restore_delaunay_triangulation_constrained`. -/
inductive RSSteps (vs : List (Vtx F)) (ce : Edge) : Nat → RS → RS → Prop
  | zero (s : RS) : RSSteps vs ce 0 s s
  | succ {k : Nat} {s s1 s2 : RS} {d : EdgeData} {rest : List EdgeData} (e : s.diags = d :: rest)
      (h : restoreStepC vs ce d { s with diags := rest } = .ok s1) (r : RSSteps vs ce k s1 s2) : RSSteps vs ce (k + 1) s s2

/-- State of `restore_delaunay_triangulation_constrained`. -/
structure RSInv (n : Nat) (s : RS) : Prop where
  m : MInv n s.ts s.v2t
  q : QInv s.ts [] s.diags

theorem RSInv.step (hn : vs.length ≤ INF0) {s s' : RS} {d : EdgeData} {rest : List EdgeData} (h : RSInv vs.length s)
    (he : s.diags = d :: rest) (hs : restoreStepC vs ce d { s with diags := rest } = .ok s') (hd : ¬ Doubled s'.ts) :
    RSInv vs.length s' ∧ Keeps s.ts s'.ts := by
  have hq := h.q
  rw [he] at hq
  rcases restoreStepC_ok hs with ⟨_, rfl⟩ | ⟨_, q, _, htq, _, ⟨_, rfl⟩ | ⟨_, _, w, hw, rfl⟩⟩
  · exact ⟨⟨h.m, hq.tail⟩, Keeps.refl _⟩
  · exact ⟨⟨h.m, hq.tail⟩, Keeps.refl _⟩
  · obtain ⟨m1, m2, m3⟩ := h.m.swap hn hq htq hw hd
    exact ⟨⟨m1, m2⟩, m3⟩

theorem RSInv.run (hn : vs.length ≤ INF0) {k : Nat} {s s' : RS} (h : RSInv vs.length s) (hr : RSSteps vs ce k s s')
    (hd : ∀ k' x, RSSteps vs ce k' s x → ¬ Doubled x.ts) : RSInv vs.length s' ∧ Keeps s.ts s'.ts := by
  induction hr with
  | zero s => exact ⟨h, Keeps.refl _⟩
  | succ e hs r ih =>
    obtain ⟨h1, h2⟩ := h.step hn e hs (hd 1 _ (.succ e hs (.zero _)))
    obtain ⟨h3, h4⟩ := ih h1 fun k' x hx => hd (k' + 1) x (.succ e hs hx)
    exact ⟨h3, h2.trans h4⟩

theorem restoreC_steps {fuel : Nat} {s s' : RS} (h : restoreC vs ce fuel s = .ok s') : ∃ k, RSSteps vs ce k s s' := by
  induction fuel generalizing s with
  | zero =>
    unfold restoreC at h
    split at h
    · simp at h; subst h; exact ⟨0, .zero _⟩
    · simp at h
  | succ n ih =>
    unfold restoreC at h
    split at h
    · simp at h; subst h; exact ⟨0, .zero _⟩
    · rename_i d rest he
      rw [Res.bind_eq_ok] at h
      obtain ⟨s1, h1, h⟩ := h
      obtain ⟨k, hk⟩ := ih h
      exact ⟨k + 1, .succ he h1 hk⟩

/-! ## One constraint -/

/-- Two entries have the same two vertices. -/
def ListedTwice (l : List EdgeData) : Prop :=
  ¬ l.Pairwise fun d e => ¬ ((d.edge.src = e.edge.src ∧ d.edge.dst = e.edge.dst) ∨ (d.edge.src = e.edge.dst ∧ d.edge.dst = e.edge.src))

/-- Meshes reached while the constraint `ce` is inserted. -/
def EVisits (vs : List (Vtx F)) (fuel : Nat) (ce : Edge) (s : AC) (us : List Tri) : Prop :=
  ∃ a b l, vs[ce.src]? = some a ∧ vs[ce.dst]? = some b ∧ registerEdges vs s.ts ce (a, b) s.v2t = .ok l ∧
    ((∃ k x, RCSteps vs (a, b) k ⟨s.ts, s.v2t, l, [], 0⟩ x ∧ us = x.ts) ∨
     (∃ rc k x, removeCrossed vs (a, b) fuel ⟨s.ts, s.v2t, l, [], 0⟩ = .ok rc ∧
        RSSteps vs ce k ⟨rc.ts, rc.v2t, rc.diags, []⟩ x ∧ us = x.ts))

/-- The search for crossed edges lists an edge twice. -/
def ETwice (vs : List (Vtx F)) (ce : Edge) (s : AC) : Prop :=
  ∃ a b l, vs[ce.src]? = some a ∧ vs[ce.dst]? = some b ∧ registerEdges vs s.ts ce (a, b) s.v2t = .ok l ∧ ListedTwice l

theorem registered_qinv {v2t : List Nat} (hv : Valid ts) {l : List EdgeData} (hl : registerEdges vs ts ce cv v2t = .ok l)
    (h2 : ¬ ListedTwice l) : QInv ts [] l := by
  have hok : ∀ d ∈ l, EOk ts d := by
    intro d hd
    obtain ⟨t, k, h1, e2, e3, h4, _⟩ := registerEdges_in hl d hd
    refine ⟨⟨t, h1, ?_⟩, h4⟩
    rw [e2, e3]
    fin_cases k
    · exact has_0 t
    · exact has_1 t
    · exact has_2 t
  refine ⟨by simp, hok, ?_, by simp⟩
  have h3 := not_not.1 h2
  refine List.Pairwise.imp_of_mem ?_ h3
  intro d e hd he hne hdis
  have e1 := hok d hd
  have e2 := hok e he
  rcases hdis with ⟨q1, q2⟩ | ⟨q1, q2⟩
  · have x2 := e2.1
    rw [← q1, ← q2] at x2
    exact hne (.inl (hv.nb_unique e1.1 x2 e1.2))
  · have x2 := hv.ent_pos e2.1 e2.2
    rw [← q1, ← q2] at x2
    obtain ⟨y1, y2⟩ := hv.nb_unique e1.1 x2 e1.2
    exact hne (.inr ⟨y1, y2⟩)

theorem insertEdge_comb (hn : vs.length ≤ INF0) {fuel : Nat} {s s' : AC} (h : MInv vs.length s.ts s.v2t)
    (hd : ∀ us, EVisits vs fuel ce s us → ¬ Doubled us) (h2 : ¬ ETwice vs ce s) (hs : insertEdge vs fuel ce s = .ok s') :
    MInv vs.length s'.ts s'.v2t ∧ Keeps s.ts s'.ts := by
  obtain ⟨a, b, l, ha, hb, hl, ⟨_, rfl⟩ | ⟨_, rc, rs, hrc, hrs, rfl⟩⟩ := insertEdge_ok hs
  · exact ⟨h, Keeps.refl _⟩
  · have hq := registered_qinv h.valid hl fun h3 => h2 ⟨a, b, l, ha, hb, hl, h3⟩
    have h0 : RCInv vs.length ⟨s.ts, s.v2t, l, [], 0⟩ := ⟨h, by simpa using hq⟩
    obtain ⟨⟨k, hk⟩, hnil⟩ := removeCrossed_steps hrc
    obtain ⟨h1, k1⟩ := h0.run hn hk fun k' x hx => hd _ ⟨a, b, l, ha, hb, hl, .inl ⟨k', x, hx, rfl⟩⟩
    have hq1 := h1.q
    rw [hnil] at hq1
    have h1' : RSInv vs.length ⟨rc.ts, rc.v2t, rc.diags, []⟩ := ⟨h1.m, by simpa using hq1⟩
    obtain ⟨k', hk'⟩ := restoreC_steps hrs
    obtain ⟨h3, k3⟩ := h1'.run hn hk' fun k' x hx => hd _ ⟨a, b, l, ha, hb, hl, .inr ⟨rc, k', x, hrc, hx, rfl⟩⟩
    exact ⟨h3.m, k1.trans k3⟩

/-! ## All constraints -/

/-- The constraint `⟨a, b⟩`, after merging, is inserted in the state `s'`. -/
def Inserts (vs : List (Vtx F)) (fuel : Nat) (merge : List Nat) (es : List Edge) (s : AC) (ce : Edge) (s' : AC) : Prop :=
  ∃ pre e post s1, es = pre ++ e :: post ∧ applyLoop vs fuel merge pre s = .ok s1 ∧ merge[e.src]? = some ce.src ∧ merge[e.dst]? = some ce.dst ∧
    ce.src ≠ ce.dst ∧ ce ∉ s1.S ∧ s' = ⟨s1.ts, s1.v2t, ce :: s1.S⟩

theorem applyOne_comb (hn : vs.length ≤ INF0) {fuel : Nat} {merge : List Nat} {e : Edge} {s s' : AC} (h : MInv vs.length s.ts s.v2t)
    (hd : ∀ ce x us, Inserts vs fuel merge [e] s ce x → EVisits vs fuel ce x us → ¬ Doubled us)
    (h2 : ∀ ce x, Inserts vs fuel merge [e] s ce x → ¬ ETwice vs ce x) (hs : applyOne vs fuel merge e s = .ok s') :
    MInv vs.length s'.ts s'.v2t ∧ Keeps s.ts s'.ts := by
  obtain ⟨a, b, ha, hb, ⟨_, rfl⟩ | ⟨_, _, rfl⟩ | ⟨hab, hS, hi⟩⟩ := applyOne_ok hs
  · exact ⟨h, Keeps.refl _⟩
  · exact ⟨h, Keeps.refl _⟩
  · have hI : Inserts vs fuel merge [e] s ⟨a, b⟩ ⟨s.ts, s.v2t, ⟨a, b⟩ :: s.S⟩ := ⟨[], e, [], s, rfl, rfl, ha, hb, hab, hS, rfl⟩
    exact insertEdge_comb (s := ⟨s.ts, s.v2t, ⟨a, b⟩ :: s.S⟩) hn h (fun us hu => hd _ _ us hI hu) (h2 _ _ hI) hi

theorem applyLoop_comb (hn : vs.length ≤ INF0) {fuel : Nat} {merge : List Nat} (es : List Edge) {s s' : AC} (h : MInv vs.length s.ts s.v2t)
    (hd : ∀ ce x us, Inserts vs fuel merge es s ce x → EVisits vs fuel ce x us → ¬ Doubled us)
    (h2 : ∀ ce x, Inserts vs fuel merge es s ce x → ¬ ETwice vs ce x) (hs : applyLoop vs fuel merge es s = .ok s') :
    MInv vs.length s'.ts s'.v2t ∧ Keeps s.ts s'.ts := by
  induction es generalizing s with
  | nil => simp only [applyLoop, Res.ok.injEq] at hs; subst hs; exact ⟨h, Keeps.refl _⟩
  | cons e es ih =>
    simp only [applyLoop, Res.bind_eq_ok] at hs
    obtain ⟨s1, h1, hs⟩ := hs
    have one : ∀ ce x, Inserts vs fuel merge [e] s ce x → Inserts vs fuel merge (e :: es) s ce x := by
      rintro ce x ⟨pre, e', post, s2, he, hp, hrest⟩
      rcases pre with _ | ⟨p, pre⟩
      · simp only [List.nil_append, List.cons.injEq] at he
        obtain ⟨rfl, -⟩ := he
        exact ⟨[], e, es, s2, rfl, hp, hrest⟩
      · simp at he
    obtain ⟨m1, k1⟩ := applyOne_comb hn h (fun ce x us hi => hd ce x us (one ce x hi)) (fun ce x hi => h2 ce x (one ce x hi)) h1
    have later : ∀ ce x, Inserts vs fuel merge es s1 ce x → Inserts vs fuel merge (e :: es) s ce x := by
      rintro ce x ⟨pre, e', post, s2, he, hp, hrest⟩
      refine ⟨e :: pre, e', post, s2, by rw [he]; rfl, ?_, hrest⟩
      simp only [applyLoop, h1, Res.ok_bind, hp]
    obtain ⟨m2, k2⟩ := ih m1 (fun ce x us hi => hd ce x us (later ce x hi)) (fun ce x hi => h2 ce x (later ce x hi)) hs
    exact ⟨m2, k1.trans k2⟩

/-- In a consistent mesh the search around a vertex does not meet a missing neighbor in both directions. -/
theorem not_bareStart (hn : vs.length ≤ INF0) {v2t : List Nat} (h : MInv vs.length ts v2t) (hs : ce.src < vs.length) (ho : Occ ts ce.src) :
    ¬ BareStart vs ts ce cv v2t := by
  rintro ⟨start, t, h1, h2, -, h3⟩
  obtain ⟨k, u, g1, g2, g3⟩ := h.v2t.2 _ hs ho
  rw [h1] at g1; simp only [Option.some.injEq] at g1; subst g1
  rw [h2] at g2; simp only [Option.some.injEq] at g2; subst g2
  have key : ∃ x y, Ent ts start x y NONE ∧ (x = ce.src ∨ y = ce.src) := by
    rw [hasVert_iff] at g3
    have e0 := has_0 t
    have e1 := has_1 t
    have e2 := has_2 t
    have n3 := (h.valid.pos _ _ h2).ne
    unfold Tri.vertexIndex at h3
    rcases g3 with e | e | e
    · rw [if_pos e] at h3
      exact ⟨t.v1, t.v2, ⟨t, h2, (show t.n12 = NONE from h3) ▸ e0⟩, .inl e⟩
    · rw [if_neg (fun h => n3.1 (h.trans e.symm)), if_pos e] at h3
      exact ⟨t.v2, t.v3, ⟨t, h2, (show t.n23 = NONE from h3) ▸ e1⟩, .inl e⟩
    · rw [if_neg (fun h => n3.2.2 (e.trans h.symm)), if_neg (fun h => n3.2.1 (h.trans e.symm))] at h3
      exact ⟨t.v3, t.v1, ⟨t, h2, (show t.n31 = NONE from h3) ▸ e2⟩, .inl e⟩
  obtain ⟨x, y, hE, hxy⟩ := key
  rcases h.valid.adj _ _ _ _ hE with ⟨_, q1, q2⟩ | ⟨q, _⟩
  · rcases hxy with rfl | rfl <;> omega
  · exact q rfl

/-! ## Vertices stay in the mesh -/

theorem Split3Spec.keeps {t1 p : Nat} {t : Tri} (hs : Split3Spec ts ts' t1 p t) (ht : ts[t1]? = some t) : Keeps ts ts' ∧ Occ ts' p := by
  refine ⟨?_, t1, _, hs.h1, by simp [hasVert_iff]⟩
  rintro v ⟨i, u, hu, hh⟩
  by_cases hi : i = t1
  · subst hi
    rw [ht] at hu; simp only [Option.some.injEq] at hu; subst hu
    rw [hasVert_iff] at hh
    rcases hh with h | h | h
    · exact ⟨_, _, hs.h1, by simp [hasVert_iff, h]⟩
    · exact ⟨_, _, hs.h2, by simp [hasVert_iff, h]⟩
    · exact ⟨_, _, hs.h1, by simp [hasVert_iff, h]⟩
  · have hl := lt_of_getElem? hu
    obtain ⟨t', ht', -⟩ := getI_lt (l := ts') (i := i) (by rw [hs.len]; omega)
    obtain ⟨u0, hu0, e1, e2, e3⟩ := hs.verts_other hl hi ht'
    rw [hu] at hu0; simp only [Option.some.injEq] at hu0; subst hu0
    refine ⟨i, t', ht', ?_⟩
    rw [hasVert_iff] at hh ⊢
    rwa [e1, e2, e3]

theorem Split4Spec.keeps {t1 t2 p x y o1 o2 n1 n2 n3 n4 : Nat} (hs : Split4Spec ts ts' t1 t2 p x y o1 o2 n1 n2 n3 n4) :
    Keeps ts ts' ∧ Occ ts' p := by
  refine ⟨?_, t1, _, hs.h1, by simp [hasVert_iff]⟩
  obtain ⟨a, ha, hRa⟩ := hs.g1
  obtain ⟨b, hb, hRb⟩ := hs.g2
  rintro v ⟨i, u, hu, hh⟩
  by_cases hi : i = t1
  · subst hi
    rw [ha] at hu; simp only [Option.some.injEq] at hu; subst hu
    rcases hRa.hasVert.1 hh with h | h | h
    · exact ⟨_, _, hs.h1, by simp [hasVert_iff, h]⟩
    · exact ⟨_, _, hs.h3, by simp [hasVert_iff, h]⟩
    · exact ⟨_, _, hs.h1, by simp [hasVert_iff, h]⟩
  by_cases hi2 : i = t2
  · subst hi2
    rw [hb] at hu; simp only [Option.some.injEq] at hu; subst hu
    rcases hRb.hasVert.1 hh with h | h | h
    · exact ⟨_, _, hs.h3, by simp [hasVert_iff, h]⟩
    · exact ⟨_, _, hs.h1, by simp [hasVert_iff, h]⟩
    · exact ⟨_, _, hs.h2, by simp [hasVert_iff, h]⟩
  · have hl := lt_of_getElem? hu
    obtain ⟨t', ht', -⟩ := getI_lt (l := ts') (i := i) (by rw [hs.len]; omega)
    obtain ⟨u0, hu0, e1, e2, e3⟩ := hs.verts_other hl hi hi2 ht'
    rw [hu] at hu0; simp only [Option.some.injEq] at hu0; subst hu0
    refine ⟨i, t', ht', ?_⟩
    rw [hasVert_iff] at hh ⊢
    rwa [e1, e2, e3]

theorem restore_keeps {p : Nat} (hn : vs.length ≤ INF0) (hpl : p < vs.length) (fuel : Nat) :
    ∀ (ts : List Tri) (st : List (Nat × Nat)), RInv vs.length p ts st → (∀ us, RVisits vs p ts st us → ¬ Doubled us) →
      ∀ ts', restore vs p fuel ts st = .ok ts' → Keeps ts ts' := by
  induction fuel with
  | zero =>
    intro ts st hI hd ts' hr
    cases st with
    | nil => simp only [restore, Res.ok.injEq] at hr; subst hr; exact Keeps.refl _
    | cons e st => simp [restore] at hr
  | succ n ih =>
    intro ts st hI hd ts' hr
    cases st with
    | nil => simp only [restore, Res.ok.injEq] at hr; subst hr; exact Keeps.refl _
    | cons e st =>
      obtain ⟨s, o⟩ := e
      obtain ⟨ts1, st1, h1, hI'⟩ := hI.step hn hpl
      obtain ⟨hI', -⟩ := hI' (hd _ (.step h1 (.here _ _)))
      simp only [restore, h1, Res.ok_bind] at hr
      refine Keeps.trans ?_ (ih ts1 st1 hI' (fun us h => hd us (.step h1 h)) ts' hr)
      obtain ⟨T, hT, hT1, hT2, ho⟩ := hI.stack (s, o) (by simp)
      obtain ⟨v1, a, b, n2, n23, n1⟩ := T
      simp only at hT hT1 hT2 ho
      subst hT1 hT2
      obtain ⟨U, c, n3, n4, hU, hRU, hpc, hcase | ⟨ts'', hcase, hF, -⟩⟩ := checkAndSwap_total (st := st) hI.valid hn hI.sane hpl hT ho
      · rw [h1] at hcase; simp only [Res.ok.injEq, Prod.mk.injEq] at hcase
        rw [hcase.1]; exact Keeps.refl _
      · rw [h1] at hcase; simp only [Res.ok.injEq, Prod.mk.injEq] at hcase
        rw [hcase.1]; exact hF.keeps

theorem LInv.fresh {n vid : Nat} {done : List Nat} {s : DT} (hI : LInv n done s) (hvd : vid ∉ done) (hvf : vid < INF0) : Fresh s.ts vid := by
  intro i t ht htv
  have := fun k => hI.verts.get ht k
  rw [forall_fin3] at this
  rw [hasVert_iff] at htv
  simp only [Tri.v_0, Tri.v_1, Tri.v_2] at this
  rcases htv with h | h | h
  · rw [h] at this; rcases this.1 with h' | h'
    · exact hvd h'
    · omega
  · rw [h] at this; rcases this.2.1 with h' | h'
    · exact hvd h'
    · omega
  · rw [h] at this; rcases this.2.2 with h' | h'
    · exact hvd h'
    · omega

/-- A vertex is put into the mesh or merged with one that is there, and no vertex leaves the mesh. -/
theorem insertVertex_keeps {done : List Nat} {s s' : DT} {vid fuel : Nat} (hI : LInv vs.length done s)
    (hn : vs.length ≤ INF0) (hvl : vid < vs.length) (hvd : vid ∉ done) (hlen : s.ts.length + 2 ≤ NONE)
    (hd : ∀ us, IVisits vs s vid us → ¬ Doubled us) (hr : insertVertex vs fuel s vid = .ok s') :
    Keeps s.ts s'.ts ∧ ((Occ s'.ts vid ∧ s'.merge = s.merge) ∨ ∃ x, Occ s'.ts x ∧ s'.merge = setMerge s.merge vid x) := by
  have hmax : s.ts.length + 1 ≤ IdCfg.maxId := by unfold NONE at hlen; omega
  have hfresh := hI.fresh hvd (by omega)
  have hv := hI.valid
  have hok := hI.sane
  obtain ⟨p, pl, hp, hpl, ⟨i, r, rfl, h1, h2, _, h3⟩ | ⟨i, ei, e, r, rfl, h1, h2, _, h3, f1, f2⟩ | ⟨i, ei, e, x, a, rfl, hx, hxf, _, _, rfl⟩⟩ := insertVertex_ok hr
  · obtain ⟨t, ht⟩ := findLoop_from hpl
    obtain ⟨ts1, h1', hs⟩ := split3_total (p := vid) hv hlen ht
    have e := h1
    rw [h1'] at e; simp only [Res.ok.injEq] at e; subst e
    have hsane := (split3_sane hok hvl hmax h1).1
    have hR := hs.rinv hv ht hlen hsane hfresh
    obtain ⟨k1, k2⟩ := hs.keeps ht
    have k3 := restore_keeps hn hvl fuel _ _ hR (fun us h => hd us ⟨p, _, hp, .inl ⟨i, hpl, h1'⟩, h⟩) _ h2
    exact ⟨k1.trans k3, .inl ⟨k3 _ k2, h3⟩⟩
  · obtain ⟨t, ht, he⟩ := findLoop_from hpl
    have hfin := findLoop_fin hn hpl
    have hcw : nextCwVert ei = ei + 1 := by fin_cases ei <;> rfl
    have hE : Has t (t.v ei) (t.v (ei + 1)) (t.n ei) := has_k t ei
    have hR : Rot t (t.v ei) (t.v (ei + 1)) (t.v (ei + 2)) (t.n ei) (t.n (ei + 1)) (t.n (ei + 2)) := by
      fin_cases ei
      · exact .inl rfl
      · exact .inr (.inl rfl)
      · exact .inr (.inr rfl)
    rw [hcw] at he
    have hnb : t.n ei ≠ NONE := by
      rcases hv.adj _ _ _ _ ⟨t, ht, hE⟩ with ⟨_, h1, h2⟩ | h
      · rw [he] at hfin
        rcases hfin with h' | h'
        · exact absurd h' h1
        · exact absurd h' h2
      · exact h.1
    obtain ⟨b, hb, hbh⟩ := hv.ent_pos ⟨t, ht, hE⟩ hnb
    obtain ⟨o2, n3, n4, hRb⟩ := hbh.rot
    obtain ⟨ts1, h1', hs⟩ := split4_total (p := vid) hv hlen ht rfl rfl hR hb hRb
    rw [← he] at h1'
    have hsrc : IdOk vs.length e.src := by rw [he]; exact hok.vert.get ht _
    have hdst : IdOk vs.length e.dst := by rw [he]; exact hok.vert.get ht _
    have hsane := (split4_sane hok hvl hmax hsrc hdst h1').1
    have e' := h1
    rw [h1'] at e'; simp only [Res.ok.injEq] at e'; subst e'
    have hRI := hs.rinv hv hlen hsane hfresh
    obtain ⟨k1, k2⟩ := hs.keeps
    have hfar : ∀ x, (x = e.src ∨ x = e.dst) → isFin x = true → ∃ b, vs[x]? = some b ∧ tooClose b p = false := by
      rintro x (rfl | rfl) hf
      · exact f1 hf
      · exact f2 hf
    have k3 := restore_keeps hn hvl fuel _ _ hRI (fun us h => hd us ⟨p, _, hp, .inr ⟨i, ei, e, hpl, hfar, h1'⟩, h⟩) _ h2
    exact ⟨k1.trans k3, .inl ⟨k3 _ k2, h3⟩⟩
  · obtain ⟨t, ht, he⟩ := findLoop_from hpl
    refine ⟨Keeps.refl _, .inr ⟨x, ⟨i, t, ht, ?_⟩, rfl⟩⟩
    have := fun k : Fin 3 => (show t.hasVert (t.v k) = true by rw [hasVert_iff]; fin_cases k <;> simp [Tri.v])
    rw [he] at hx
    rcases hx with rfl | rfl
    · exact this _
    · exact this _

/-- The merge table names vertices of the mesh. -/
structure Merged (n : Nat) (done : List Nat) (s : DT) : Prop where
  ex : ∃ m, s.merge = some m ∧ m.length = n ∧ ∀ v < n, (v ∉ done → m[v]? = some v) ∧ (v ∈ done → ∃ x, m[v]? = some x ∧ Occ s.ts x)

theorem Merged.step {done : List Nat} {s s' : DT} {vid fuel : Nat} (hM : Merged vs.length done s) (hI : LInv vs.length done s)
    (hn : vs.length ≤ INF0) (hvl : vid < vs.length) (hvd : vid ∉ done) (hlen : s.ts.length + 2 ≤ NONE)
    (hd : ∀ us, IVisits vs s vid us → ¬ Doubled us) (hr : insertVertex vs fuel s vid = .ok s') : Merged vs.length (vid :: done) s' := by
  obtain ⟨m, hm, hl, h⟩ := hM.ex
  obtain ⟨k, ⟨h1, h2⟩ | ⟨x, h1, h2⟩⟩ := insertVertex_keeps hI hn hvl hvd hlen hd hr
  · refine ⟨m, by rw [h2, hm], hl, fun v hv => ⟨fun hn => (h v hv).1 fun h => hn (by simp [h]), fun hin => ?_⟩⟩
    simp only [List.mem_cons] at hin
    by_cases hvv : v = vid
    · subst hvv; exact ⟨v, (h v hv).1 hvd, h1⟩
    · obtain ⟨x, hx, ho⟩ := (h v hv).2 (hin.resolve_left hvv)
      exact ⟨x, hx, k _ ho⟩
  · refine ⟨m.set vid x, by rw [h2, hm]; rfl, by simpa using hl, fun v hv => ⟨fun hn => ?_, fun hin => ?_⟩⟩
    · simp only [List.mem_cons, not_or] at hn
      rw [List.getElem?_set_ne (Ne.symm hn.1)]
      exact (h v hv).1 hn.2
    · simp only [List.mem_cons] at hin
      by_cases hvv : v = vid
      · subst hvv; exact ⟨x, List.getElem?_set_self (by rw [hl]; exact hv), h1⟩
      · obtain ⟨y, hy, ho⟩ := (h v hv).2 (hin.resolve_left hvv)
        exact ⟨y, by rw [List.getElem?_set_ne (Ne.symm hvv)]; exact hy, k _ ho⟩

theorem insertAll_merged {fuel : Nat} (hn : 2 * vs.length + 2 ≤ NONE) (hfuel : 6 * vs.length + 10 ≤ fuel)
    (l done : List Nat) (s : DT) (hI : LInv vs.length done s) (hM : Merged vs.length done s) (hnd : l.Nodup) (hdis : ∀ v ∈ l, v ∉ done)
    (hlt : ∀ v ∈ l, v < vs.length) (hcard : done.length + l.length ≤ vs.length)
    (hd : ∀ us, Visits vs fuel l s us → ¬ Doubled us) {s' : DT} (hr : insertAll vs fuel l s = .ok s') :
    LInv vs.length (l.reverse ++ done) s' ∧ Merged vs.length (l.reverse ++ done) s' := by
  induction l generalizing done s with
  | nil =>
    simp only [insertAll, Res.ok.injEq] at hr
    subst hr
    exact ⟨by simpa using hI, by simpa using hM⟩
  | cons v l ih =>
    simp only [List.length_cons] at hcard
    simp only [List.nodup_cons] at hnd
    have hl := hI.len
    have hb := IdCfg.big
    have hinf : vs.length ≤ INF0 := by unfold INF0; unfold NONE at hn; omega
    simp only [insertAll, Res.bind_eq_ok] at hr
    obtain ⟨s1, h, hr⟩ := hr
    have hd0 : ∀ us, IVisits vs s v us → ¬ Doubled us := fun us h => hd us ⟨[], v, l, s, rfl, rfl, h⟩
    have hM1 := hM.step hI hinf (hlt v (by simp)) (hdis v (by simp)) (by omega) hd0 h
    rcases insertVertex_total hI hinf (hlt v (by simp)) (hdis v (by simp)) (fuel := fuel) (by omega) (by omega) hd0 with h' | ⟨s1', h', hI1⟩
    · rw [h] at h'; simp at h'
    · rw [h] at h'; simp only [Res.ok.injEq] at h'; subst h'
      have := ih (v :: done) s1 hI1 hM1 hnd.2 (fun w hw => by
        have := hdis w (by simp [hw])
        simp only [List.mem_cons, not_or]
        exact ⟨fun h => hnd.1 (h ▸ hw), this⟩) (fun w hw => hlt w (by simp [hw])) (by simp only [List.length_cons]; omega)
        (fun us ⟨pre, vid, rest, s', e, hp, hv⟩ => hd us ⟨v :: pre, vid, rest, s', by rw [e]; rfl, by
          simp only [insertAll, h, Res.ok_bind, hp], hv⟩) hr
      simpa using this

end Comb
end CDT

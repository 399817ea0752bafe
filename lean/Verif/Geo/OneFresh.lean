import Verif.Geo.KeepLocal
import Verif.Props.Restored

/-! # Insertion of a constraint that crosses at most two edges -/

set_option linter.unusedSectionVars false
set_option linter.unusedVariables false

namespace CDT
open Plane

variable {K : Type} [Field K] [LinearOrder K] [IsStrictOrderedRing K] [ExactParams K] [IdCfg]
variable {vs : List (Vtx K)} {ts ts' : List Tri}

/-- A flip keeps all edges but the diagonal. -/
theorem FlipSpec.kept {H : Nat → HP K} {s o p a b c n1 n2 n3 n4 : Nat} (hf : FlipSpec ts ts' s o p a b c n1 n2 n3 n4) (hv : Valid H ts)
    {x y : Nat} (h : HasEdge ts x y) (h1 : ¬ (x = a ∧ y = b)) (h2 : ¬ (x = b ∧ y = a)) : HasEdge ts' x y := by
  obtain ⟨i, j, h⟩ := h
  by_cases e1 : i = s
  · subst e1
    rcases hf.ent_s.1 h with ⟨rfl, rfl, _⟩ | ⟨rfl, rfl, e⟩ | ⟨rfl, rfl, _⟩
    · exact ⟨_, _, hf.ent_s'.2 (.inl ⟨rfl, rfl, rfl⟩)⟩
    · exact absurd ⟨rfl, rfl⟩ h1
    · exact ⟨_, _, hf.ent_o'.2 (by tauto)⟩
  by_cases e2 : i = o
  · subst e2
    rcases hf.ent_o.1 h with ⟨rfl, rfl, e⟩ | ⟨rfl, rfl, _⟩ | ⟨rfl, rfl, _⟩
    · exact absurd ⟨rfl, rfl⟩ h2
    · exact ⟨_, _, hf.ent_s'.2 (.inr (.inl ⟨rfl, rfl, rfl⟩))⟩
    · exact ⟨_, _, hf.ent_o'.2 (.inr (.inl ⟨rfl, rfl, rfl⟩))⟩
  · exact ⟨i, _, (hf.ent_other hv e1 e2).2 ⟨j, h, rfl⟩⟩

/-- The corners of the quad of a flip are different. -/
theorem FlipSpec.nes {H : Nat → HP K} {s o p a b c n1 n2 n3 n4 : Nat} (hf : FlipSpec ts ts' s o p a b c n1 n2 n3 n4) (hv : Valid H ts) :
    p ≠ a ∧ a ≠ b ∧ b ≠ p ∧ a ≠ c ∧ c ≠ b := by
  obtain ⟨S, hS, hRS⟩ := hf.hs
  obtain ⟨U, hU, hRU⟩ := hf.ho
  have q1 := hv.pos _ _ hS
  have q2 := hv.pos _ _ hU
  exact ⟨q1.has_ne hRS.has1, q1.has_ne hRS.has2, q1.has_ne hRS.has3, q2.has_ne hRU.has2, q2.has_ne hRU.has3⟩

/-- The new diagonal of a flip was no edge. -/
theorem FlipSpec.new_not {s o p a b c n1 n2 n3 n4 : Nat} (hf : FlipSpec ts ts' s o p a b c n1 n2 n3 n4) (hv : Valid (hp vs) ts)
    (hv' : Valid (hp vs) ts') (hT' : Tiled vs ts') : ¬ HasEdge ts p c ∧ ¬ HasEdge ts c p := by
  obtain ⟨n1', n2', n3', n4', n5'⟩ := hf.nes hv
  constructor
  · rintro ⟨i, j, h⟩
    by_cases e1 : i = s
    · subst e1
      rcases hf.ent_s.1 h with ⟨h1, h2, _⟩ | ⟨h1, h2, _⟩ | ⟨h1, h2, _⟩
      · exact n4' h2
      · exact n1' h1.symm
      · exact n3' h1
    by_cases e2 : i = o
    · subst e2
      rcases hf.ent_o.1 h with ⟨h1, h2, _⟩ | ⟨h1, h2, _⟩ | ⟨h1, h2, _⟩
      · exact n3' h1
      · exact n1' h1.symm
      · exact n5' h2.symm
    · have := hT'.edge hv' ((hf.ent_other hv e1 e2).2 ⟨j, h, rfl⟩) (hf.ent_o'.2 (.inl ⟨rfl, rfl, rfl⟩))
      exact e2 this
  · rintro ⟨i, j, h⟩
    by_cases e1 : i = s
    · subst e1
      rcases hf.ent_s.1 h with ⟨h1, h2, _⟩ | ⟨h1, h2, _⟩ | ⟨h1, h2, _⟩
      · exact n1' h2.symm
      · exact n4' h1
      · exact n5' h1.symm
    by_cases e2 : i = o
    · subst e2
      rcases hf.ent_o.1 h with ⟨h1, h2, _⟩ | ⟨h1, h2, _⟩ | ⟨h1, h2, _⟩
      · exact n5' h1.symm
      · exact n4' h1
      · exact n3' h2
    · have := hT'.edge hv' ((hf.ent_other hv e1 e2).2 ⟨j, h, rfl⟩) (hf.ent_s'.2 (.inr (.inr ⟨rfl, rfl, rfl⟩)))
      exact e1 this

/-- The old diagonal of a flip is no edge any more. -/
theorem FlipSpec.old_not {s o p a b c n1 n2 n3 n4 : Nat} (hf : FlipSpec ts ts' s o p a b c n1 n2 n3 n4) (hv : Valid (hp vs) ts)
    (hT : Tiled vs ts) : ¬ HasEdge ts' a b ∧ ¬ HasEdge ts' b a := by
  obtain ⟨n1', n2', n3', n4', n5'⟩ := hf.nes hv
  constructor
  · rintro ⟨i, j, h⟩
    by_cases e1 : i = s
    · subst e1
      rcases hf.ent_s'.1 h with ⟨h1, h2, _⟩ | ⟨h1, h2, _⟩ | ⟨h1, h2, _⟩
      · exact n1' h1
      · exact n5' h2
      · exact n4' h1.symm
    by_cases e2 : i = o
    · subst e2
      rcases hf.ent_o'.1 h with ⟨h1, h2, _⟩ | ⟨h1, h2, _⟩ | ⟨h1, h2, _⟩
      · exact n1' h1
      · exact n4' h1.symm
      · exact n2' h1.symm
    · obtain ⟨j0, h0, _⟩ := (hf.ent_other hv e1 e2).1 h
      exact e1 (hT.edge hv h0 (hf.ent_s.2 (.inr (.inl ⟨rfl, rfl, rfl⟩))))
  · rintro ⟨i, j, h⟩
    by_cases e1 : i = s
    · subst e1
      rcases hf.ent_s'.1 h with ⟨h1, h2, _⟩ | ⟨h1, h2, _⟩ | ⟨h1, h2, _⟩
      · exact n3' h1.symm
      · exact n2' h1
      · exact n5' h1
    by_cases e2 : i = o
    · subst e2
      rcases hf.ent_o'.1 h with ⟨h1, h2, _⟩ | ⟨h1, h2, _⟩ | ⟨h1, h2, _⟩
      · exact n3' h1.symm
      · exact n5' h1
      · exact n1' h2
    · obtain ⟨j0, h0, _⟩ := (hf.ent_other hv e1 e2).1 h
      exact e2 (hT.edge hv h0 (hf.ent_o.2 (.inl ⟨rfl, rfl, rfl⟩)))

/-! ## Counting the created edges -/

/-- The mesh `ts` comes from `old` by an insertion of `a b`: it contains this edge and all edges that are not crossed. -/
structure Ins (vs : List (Vtx K)) (old : List Tri) (a b : Nat) (ts : List Tri) : Prop where
  v : Valid (hp vs) ts
  t : Tiled vs ts
  len : ts.length = old.length
  keep : ∀ x y, HasEdge old x y → ¬ HP.Cross (hp vs a) (hp vs b) (hp vs x) (hp vs y) → HasEdge ts x y

/-- At most two edges are crossed. -/
def TwoCross (vs : List (Vtx K)) (old : List Tri) (a b : Nat) : Prop :=
  ∃ x1 y1 x2 y2 : Nat, ∀ x y, HasEdge old x y → HP.Cross (hp vs a) (hp vs b) (hp vs x) (hp vs y) →
    (x = x1 ∧ y = y1) ∨ (x = y1 ∧ y = x1) ∨ (x = x2 ∧ y = y2) ∨ (x = y2 ∧ y = x2)

/-- Then at most one edge is created apart from the constraint. -/
theorem Ins.one {old : List Tri} {a b : Nat} (h : Ins vs old a b ts) (hvo : Valid (hp vs) old) (hTo : Tiled vs old) (ha : a < INF0) (hb : b < INF0)
    (hab : HasEdge ts a b) (hfin : ∀ x y, HasEdge old x y → HP.Cross (hp vs a) (hp vs b) (hp vs x) (hp vs y) → x < INF0 ∧ y < INF0)
    (h2 : TwoCross vs old a b) {x y x' y' : Nat} (hx : x < INF0) (hx' : x' < INF0) (e : HasEdge ts x y) (e' : HasEdge ts x' y')
    (n : ¬ HasEdge old x y) (n' : ¬ HasEdge old x' y') (hy : y < INF0) (hy' : y' < INF0)
    (c : ¬ ((x = a ∧ y = b) ∨ (x = b ∧ y = a))) (c' : ¬ ((x' = a ∧ y' = b) ∨ (x' = b ∧ y' = a))) :
    (x' = x ∧ y' = y) ∨ (x' = y ∧ y' = x) := by
  classical
  obtain ⟨x1, y1, x2, y2, h2⟩ := h2
  let X := (edgeSet old).filter fun e => HP.Cross (hp vs a) (hp vs b) (hp vs e.1) (hp vs e.2)
  have hX4 : X.card ≤ 4 := by
    refine le_trans (Finset.card_le_card (t := {(x1, y1), (y1, x1), (x2, y2), (y2, x2)}) ?_) (Finset.card_le_four)
    rintro ⟨u, v⟩ hm
    obtain ⟨m1, m2⟩ := Finset.mem_filter.1 hm
    have := h2 u v (mem_edgeSet.1 m1) m2
    simp only [Finset.mem_insert, Finset.mem_singleton, Prod.mk.injEq]
    tauto
  let Fs := edgeSet ts \ edgeSet old
  have hF : Fs.card ≤ X.card := by
    have hsub : (edgeSet old \ X) ∪ Fs ⊆ edgeSet ts := by
      rintro ⟨u, v⟩ hm
      rcases Finset.mem_union.1 hm with hm | hm
      · obtain ⟨m1, m2⟩ := Finset.mem_sdiff.1 hm
        exact mem_edgeSet.2 (h.keep u v (mem_edgeSet.1 m1) fun hc => m2 (Finset.mem_filter.2 ⟨m1, hc⟩))
      · exact (Finset.mem_sdiff.1 hm).1
    have hc := Finset.card_le_card hsub
    rw [Finset.card_union_of_disjoint, card_edgeSet h.v h.t, h.len, ← card_edgeSet hvo hTo] at hc
    · have := Finset.card_sdiff_add_card_eq_card (Finset.filter_subset (fun e => HP.Cross (hp vs a) (hp vs b) (hp vs e.1) (hp vs e.2)) (edgeSet old))
      change (edgeSet old \ X).card + X.card = _ at this
      omega
    · rw [Finset.disjoint_left]
      rintro q m1 m2
      exact (Finset.mem_sdiff.1 m2).2 (Finset.mem_sdiff.1 m1).1
  have fs : ∀ {u v : Nat}, u < INF0 → v < INF0 → HasEdge ts u v → ¬ HasEdge old u v → (u, v) ∈ Fs ∧ (v, u) ∈ Fs := by
    intro u v hu hv he hn
    refine ⟨Finset.mem_sdiff.2 ⟨mem_edgeSet.2 he, fun hm => hn (mem_edgeSet.1 hm)⟩,
      Finset.mem_sdiff.2 ⟨mem_edgeSet.2 (HasEdge.symm h.v (.inl hu) he), fun hm => hn (HasEdge.symm hvo (.inl hv) (mem_edgeSet.1 hm))⟩⟩
  have ne : ∀ {u v : Nat}, HasEdge ts u v → u ≠ v := by
    rintro u v ⟨i, j, T, hTi, hh⟩
    exact (h.v.pos _ _ hTi).has_ne hh
  have ab : ¬ HasEdge old a b := by
    intro ho
    have : X = ∅ := by
      rw [Finset.eq_empty_iff_forall_notMem]
      rintro ⟨u, v⟩ hm
      obtain ⟨m1, m2⟩ := Finset.mem_filter.1 hm
      obtain ⟨fu, fv⟩ := hfin u v (mem_edgeSet.1 m1) m2
      exact edges_no_cross hvo hTo ha hb fu fv ho (mem_edgeSet.1 m1) m2
    rw [this, Finset.card_empty] at hF
    have := Finset.card_pos.2 ⟨_, (fs hx hy e n).1⟩
    omega
  by_contra hcon
  have n1 := ne e
  have n2 := ne e'
  have n3 := ne hab
  have hsix : ({(x, y), (y, x), (x', y'), (y', x'), (a, b), (b, a)} : Finset (Nat × Nat)) ⊆ Fs := by
    obtain ⟨q1, q2⟩ := fs hx hy e n
    obtain ⟨q3, q4⟩ := fs hx' hy' e' n'
    obtain ⟨q5, q6⟩ := fs ha hb hab ab
    intro q hq
    simp only [Finset.mem_insert, Finset.mem_singleton] at hq
    rcases hq with rfl | rfl | rfl | rfl | rfl | rfl <;> assumption
  have hc := Finset.card_le_card hsix
  have : ({(x, y), (y, x), (x', y'), (y', x'), (a, b), (b, a)} : Finset (Nat × Nat)).card = 6 := by
    rw [Finset.card_insert_of_notMem, Finset.card_insert_of_notMem, Finset.card_insert_of_notMem, Finset.card_insert_of_notMem,
      Finset.card_insert_of_notMem, Finset.card_singleton]
    all_goals simp only [Finset.mem_insert, Finset.mem_singleton, Prod.mk.injEq]
    all_goals omega
  omega

/-! ## The two loops -/

/-- What both loops keep: the edges that are not crossed stay, the queue contains none of them. -/
structure FInv (vs : List (Vtx K)) (tsA old : List Tri) (a b : Nat) (ts : List Tri) (v2t : List Nat) (Q : List EdgeData) : Prop where
  c : CInv vs tsA ts v2t [] Q
  len : ts.length = old.length
  keep : ∀ x y, HasEdge old x y → ¬ HP.Cross (hp vs a) (hp vs b) (hp vs x) (hp vs y) → HasEdge ts x y
  q : ∀ d ∈ Q, (HasEdge old d.edge.src d.edge.dst → HP.Cross (hp vs a) (hp vs b) (hp vs d.edge.src) (hp vs d.edge.dst)) ∧
    (HasEdge old d.edge.dst d.edge.src → HP.Cross (hp vs a) (hp vs b) (hp vs d.edge.dst) (hp vs d.edge.src))

section Loops
variable {tsA old : List Tri} {a b : Nat} (hvA : Valid (hp vs) tsA) (hTA : Tiled vs tsA)
include hvA hTA

theorem FInv.ins {v2t : List Nat} {Q : List EdgeData} (h : FInv vs tsA old a b ts v2t Q) : Ins vs old a b ts :=
  ⟨h.c.m.valid, tiled_steps h.c.steps hvA hTA, h.len, h.keep⟩

omit hvA hTA in
theorem FInv.perm {v2t : List Nat} {Q Q' : List EdgeData} (h : FInv vs tsA old a b ts v2t Q) (hp' : Q.Perm Q') : FInv vs tsA old a b ts v2t Q' :=
  ⟨h.c.perm hp', h.len, h.keep, fun d hd => h.q d (hp'.mem_iff.2 hd)⟩

omit hvA hTA in
theorem FInv.tail {v2t : List Nat} {Q : List EdgeData} {d : EdgeData} (h : FInv vs tsA old a b ts v2t (d :: Q)) : FInv vs tsA old a b ts v2t Q :=
  ⟨h.c.tail, h.len, h.keep, fun e he => h.q e (List.mem_cons_of_mem _ he)⟩

theorem FInv.swap {v2t v2t' : List Nat} {Q : List EdgeData} {d : EdgeData} {p c n1 n2 n3 n4 : Nat} (h : FInv vs tsA old a b ts v2t (d :: Q))
    (hc : Convex4 (hp vs) d p c) (hf : FlipSpec ts ts' d.f d.t p d.edge.src d.edge.dst c n1 n2 n3 n4) (hm : MInv vs ts' v2t') :
    FInv vs tsA old a b ts' v2t' (Q.map (·.upd n3 n1 d.f d.t) ++ [⟨d.f, d.t, ⟨c, p⟩⟩]) := by
  have hc' := h.c.swap hc hf hm
  have hv := h.c.m.valid
  have hT' := tiled_steps hc'.steps hvA hTA
  obtain ⟨q1, q2⟩ := h.q d (by simp)
  obtain ⟨k1, k2⟩ := hf.new_not hv hm.valid hT'
  refine ⟨hc', hf.len.trans h.len, ?_, ?_⟩
  · intro x y ho hn
    refine hf.kept hv (h.keep x y ho hn) ?_ ?_
    · rintro ⟨rfl, rfl⟩; exact hn (q1 ho)
    · rintro ⟨rfl, rfl⟩; exact hn (q2 ho)
  · intro e he
    rcases List.mem_append.1 he with he | he
    · obtain ⟨e0, h0, rfl⟩ := List.mem_map.1 he
      rw [e0.upd_edge]
      exact h.q e0 (List.mem_cons_of_mem _ h0)
    · rw [List.mem_singleton] at he
      subst he
      exact ⟨fun ho => by_contra fun hn => k2 (h.keep _ _ ho hn), fun ho => by_contra fun hn => k1 (h.keep _ _ ho hn)⟩

/-- Every created edge is in the queue. -/
def Queued (old ts : List Tri) (Q : List EdgeData) : Prop :=
  ∀ x y, HasEdge ts x y → ¬ HasEdge old x y → ∃ d ∈ Q, d.edge.undirEq ⟨x, y⟩ = true

omit hvA hTA in
theorem Queued.perm {Q Q' : List EdgeData} (h : Queued old ts Q) (hp' : Q.Perm Q') : Queued old ts Q' := by
  intro x y h1 h2
  obtain ⟨d, hd, he⟩ := h x y h1 h2
  exact ⟨d, hp'.mem_iff.1 hd, he⟩

omit hTA hvA in
theorem Queued.swap {H : Nat → HP K} (hv : Valid H ts) {Q : List EdgeData} {d : EdgeData} {p c n1 n2 n3 n4 : Nat} (h : Queued old ts (d :: Q))
    (hf : FlipSpec ts ts' d.f d.t p d.edge.src d.edge.dst c n1 n2 n3 n4) (hold : ¬ HasEdge ts' d.edge.src d.edge.dst ∧ ¬ HasEdge ts' d.edge.dst d.edge.src) :
    Queued old ts' (Q.map (·.upd n3 n1 d.f d.t) ++ [⟨d.f, d.t, ⟨c, p⟩⟩]) := by
  rintro x y ⟨i, j, he⟩ hn
  rcases hf.ent_new hv he with ⟨i', j', h'⟩ | ⟨rfl, rfl⟩ | ⟨rfl, rfl⟩
  · obtain ⟨e, h1, h2⟩ := h x y ⟨i', j', h'⟩ hn
    rcases List.mem_cons.1 h1 with rfl | h1
    · exfalso
      rw [undirEq_iff] at h2
      rcases h2 with h2 | ⟨h2, h3⟩
      · rw [h2] at hold; exact hold.1 ⟨i, j, he⟩
      · rw [h2, h3] at hold; exact hold.2 ⟨i, j, he⟩
    · exact ⟨e.upd n3 n1 d.f d.t, List.mem_append_left _ (List.mem_map.2 ⟨e, h1, rfl⟩), by rw [e.upd_edge]; exact h2⟩
  · exact ⟨⟨d.f, d.t, ⟨y, x⟩⟩, by simp, by rw [undirEq_iff]; exact .inr ⟨rfl, rfl⟩⟩
  · exact ⟨⟨d.f, d.t, ⟨x, y⟩⟩, by simp, by rw [undirEq_iff]; exact .inl rfl⟩

/-- `remove_crossed_edges`. -/
theorem removeCrossed_fresh (hu : ∀ v ∈ vs, InUnit v) (hn : vs.length ≤ INF0) {A B : Vtx K}
    (ha : vs[a]? = some A) (hb : vs[b]? = some B) {fuel : Nat} {s s' : RC}
    (h : FInv vs tsA old a b s.ts s.v2t (s.isects ++ s.diags)) (hq : Queued old s.ts (s.isects ++ s.diags))
    (hs : removeCrossed vs (A, B) fuel s = .ok s') : FInv vs tsA old a b s'.ts s'.v2t s'.diags ∧ Queued old s'.ts s'.diags := by
  obtain ⟨⟨h1, h3⟩, h2⟩ := removeCrossed_rule (fun s => FInv vs tsA old a b s.ts s.v2t (s.isects ++ s.diags) ∧ Queued old s.ts (s.isects ++ s.diags))
    (fun s d rest s' h he hs => by
      obtain ⟨h, hq⟩ := h
      have hnc := (removeStep_ok hs).1
      rw [he, List.cons_append] at h hq
      obtain ⟨p, c, n1, n2, n3, n4, hQ⟩ := (h.c.eok (d := d) (by simp)).quadAt h.c.m.valid
      have hT := tiled_steps h.c.steps hvA hTA
      rcases removeStep_geo hu hn ha hb (s := { s with isects := rest }) h.c.m hQ hnc with
        ⟨_, e⟩ | ⟨_, _, e⟩ | ⟨_, hc, ts', v2t', hf, hm, ⟨_, e⟩ | ⟨_, e⟩⟩
      · rw [e] at hs; simp at hs
      · rw [e] at hs; simp at hs; subst hs
        have hp' : (d :: (rest ++ s.diags)).Perm (rest ++ [d] ++ s.diags) := by
          simp only [List.append_assoc, List.cons_append, List.nil_append]
          exact (List.perm_middle).symm
        exact ⟨h.perm hp', hq.perm hp'⟩
      · rw [e] at hs; simp at hs; subst hs
        have hp' : ((rest ++ s.diags).map (fun e : EdgeData => e.upd n3 n1 d.f d.t) ++ [(⟨d.f, d.t, ⟨c, p⟩⟩ : EdgeData)]).Perm
            (rest.map (fun e : EdgeData => e.upd n3 n1 d.f d.t) ++ ([(⟨d.f, d.t, ⟨c, p⟩⟩ : EdgeData)] ++ s.diags.map (fun e : EdgeData => e.upd n3 n1 d.f d.t))) := by
          simp only [List.map_append, List.append_assoc]
          exact List.Perm.append_left _ List.perm_append_comm
        rw [← List.append_assoc] at hp'
        simpa using And.intro ((h.swap hvA hTA hc hf hm).perm hp') ((hq.swap h.c.m.valid hf (hf.old_not h.c.m.valid hT)).perm hp')
      · rw [e] at hs; simp at hs; subst hs
        have := And.intro (h.swap hvA hTA hc hf hm) (hq.swap h.c.m.valid hf (hf.old_not h.c.m.valid hT))
        simpa using this) hs ⟨h, hq⟩
  rw [h2] at h1 h3
  exact ⟨h1, h3⟩

end Loops

/-- The Delaunay condition for one edge with real ends. -/
def Loc (vs : List (Vtx K)) (ts : List Tri) (x y : Nat) : Prop := ∀ c d, TriIn ts x y c → TriIn ts y x d →
  x < INF0 → y < INF0 → c < INF0 → d < INF0 → HP.ic (hp vs x) (hp vs y) (hp vs c) (hp vs d) ≤ 0

theorem Loc.symm {x y : Nat} (h : Loc vs ts x y) : Loc vs ts y x := by
  intro c d h1 h2 hy hx hc hd
  rw [ic_both (hp_w_fin vs hx) (hp_w_fin vs hy) (hp_w_fin vs hd) (hp_w_fin vs hc)]
  exact h d c h2 h1 hx hy hd hc

/-- The triangle on an edge is unique. -/
theorem TriIn.unique (hv : Valid (hp vs) ts) (hT : Tiled vs ts) {x y z w : Nat} (h : TriIn ts x y z) (h' : TriIn ts x y w) : z = w := by
  obtain ⟨i, T, _, _, _, hTi, hR⟩ := h
  obtain ⟨k, U, _, _, _, hUk, hR'⟩ := h'
  have := hT.edge hv ⟨T, hTi, hR.has1⟩ ⟨U, hUk, hR'.has1⟩
  subst this
  rw [hTi] at hUk; simp at hUk; subst hUk
  have hp' := hv.pos _ _ hTi
  have n1 := hp'.has_ne hR'.has1
  have n2 := hp'.has_ne hR'.has2
  have n3 := hp'.has_ne hR'.has3
  rcases hR'.hasVert.1 (hR.hasVert.2 (.inr (.inr rfl))) with e | e | e
  · subst e
    exact absurd rfl (hp'.has_ne hR.has3)
  · subst e
    exact absurd rfl (hp'.has_ne hR.has2)
  · exact e.symm

/-- One iteration of the restoration: what the test says. -/
theorem restoreStepC_test (hn : vs.length ≤ INF0) {ce : Edge} {d : EdgeData} {s : RS} (hm : MInv vs s.ts s.v2t) (hT : Tiled vs s.ts)
    {p c n1 n2 n3 n4 : Nat} (hq : QuadAt (hp vs) s.ts d p c n1 n2 n3 n4) :
    (restoreStepC vs ce d s = .ok s ∧ (d.edge.undirEq ce = true ∨ (d.f, d.t) ∈ s.hist ∨ Loc vs s.ts d.edge.src d.edge.dst)) ∨
    (d.edge.undirEq ce = false ∧ Convex4 (hp vs) d p c ∧ (p < INF0 ∧ c < INF0) ∧ ∃ ts' v2t',
      FlipSpec s.ts ts' d.f d.t p d.edge.src d.edge.dst c n1 n2 n3 n4 ∧ MInv vs ts' v2t' ∧ (Tiled vs ts' → Loc vs ts' p c) ∧
      restoreStepC vs ce d s = .ok ⟨ts', v2t', s.diags.map (·.upd n3 n1 d.f d.t) ++ [⟨d.f, d.t, ⟨c, p⟩⟩],
        (d.f, d.t) :: s.hist⟩) := by
  obtain ⟨S, hS, hRS⟩ := hq.s
  obtain ⟨U, hU, hRU⟩ := hq.o
  have va := Ent.vok hm.ok ⟨S, hS, hRS.has2⟩
  have vp := Ent.vok hm.ok ⟨S, hS, hRS.has1⟩
  have vc := Ent.vok hm.ok ⟨U, hU, hRU.has2⟩
  have t1 : TriIn s.ts d.edge.dst d.edge.src c := ⟨_, U, _, _, _, hU, hRU⟩
  have t2 : TriIn s.ts p d.edge.src d.edge.dst := ⟨_, S, _, _, _, hS, hRS⟩
  unfold restoreStepC
  by_cases he : d.edge.undirEq ce = true
  · left; rw [if_pos he]; exact ⟨rfl, .inl he⟩
  rw [if_neg he, hq.quad, Res.ok_bind]
  unfold shouldSwapC
  have loc : (c < INF0 → p < INF0 → d.edge.src < INF0 → d.edge.dst < INF0 →
      HP.ic (hp vs d.edge.dst) (hp vs d.edge.src) (hp vs c) (hp vs p) ≤ 0) → Loc vs s.ts d.edge.src d.edge.dst := by
    intro h
    refine Loc.symm ?_
    intro c' p' h1 h2 h3 h4 h5 h6
    have e1 := h1.unique hm.valid hT t1
    have e2 := h2.unique hm.valid hT t2.next
    subst e1 e2
    exact h h5 h6 h4 h3
  by_cases hi : (isInf c || isInf p) = true
  · left
    simp only [hi, if_true, Res.ok_bind, Bool.false_and, Bool.false_eq_true, if_false]
    refine ⟨trivial, .inr (.inr (loc fun h1 h2 => ?_))⟩
    simp only [Bool.or_eq_true, isInf_iff] at hi
    omega
  · simp only [hi, Bool.false_eq_true, if_false]
    simp only [Bool.or_eq_true, not_or, isInf_iff] at hi
    obtain ⟨hci, hpi⟩ := hi
    have hcf : c < INF0 := by omega
    have hpf : p < INF0 := by omega
    obtain ⟨r, h1, h2⟩ := shouldSwap_spec va.1 va.2 vc.2 (vp.1.fin hpf) hpf hq.p1 hq.p2
    rw [h1, Res.ok_bind]
    by_cases hr : (r && decide ((d.f, d.t) ∉ s.hist)) = true
    · right
      rw [if_pos hr]
      simp only [Bool.and_eq_true, decide_eq_true_eq] at hr
      have hc : Convex4 (hp vs) d p c := h2 hr.1
      obtain ⟨ts', v2t', g1, g2, g3⟩ := hm.swap hn hq hc
      refine ⟨by simpa using he, hc, ⟨hpf, hcf⟩, ts', v2t', g2, g3, ?_, ?_⟩
      · intro hT' x y t3 t4 _ _ fx fy
        obtain ⟨S', hS', hRS'⟩ := g2.hs'
        obtain ⟨U', hU', hRU'⟩ := g2.ho'
        have e1 := t3.unique g3.valid hT' ⟨_, U', _, _, _, hU', hRU'⟩
        have e2 := t4.unique g3.valid hT' (TriIn.next (TriIn.next ⟨_, S', _, _, _, hS', hRS'⟩))
        subst e1 e2
        have hic := ((shouldSwap_ic va.1 va.2 vc.2 (vp.1.fin hpf) hpf fy fx hq.p1 hq.p2).1 (by rw [h1, hr.1])).2
        have e3 : HP.ic (hp vs p) (hp vs c) (hp vs d.edge.dst) (hp vs d.edge.src) =
            - HP.ic (hp vs d.edge.dst) (hp vs d.edge.src) (hp vs c) (hp vs p) := by
          have w1 := hp_w_fin vs hpf
          have w2 := hp_w_fin vs hcf
          have w3 := hp_w_fin vs fx
          have w4 := hp_w_fin vs fy
          simp only [HP.ic, HP.o, HP.lift, w1, w2, w3, w4]; ring
        rw [e3]; linarith
      · rw [g1, Res.ok_bind]
    · left
      rw [if_neg hr]
      refine ⟨rfl, .inr ?_⟩
      by_cases hh : (d.f, d.t) ∈ s.hist
      · exact .inl hh
      right
      have hrf : r = false := by
        cases r with
        | false => rfl
        | true => exfalso; apply hr; simp [hh]
      exact loc fun h3 h4 h5 h6 => (shouldSwap_ic va.1 va.2 vc.2 (vp.1.fin hpf) hpf h5 h6 hq.p1 hq.p2).2 (by rw [h1, hrf]) h3

/-- **The restoration of one created edge.** -/
theorem restoreC_one {tsA old : List Tri} (hvA : Valid (hp vs) tsA) (hTA : Tiled vs tsA) (hn : vs.length ≤ INF0) {ce : Edge}
    (hvo : Valid (hp vs) old) (hTo : Tiled vs old) (ha : ce.src < INF0) (hb : ce.dst < INF0)
    (hfin : ∀ x y, HasEdge old x y → HP.Cross (hp vs ce.src) (hp vs ce.dst) (hp vs x) (hp vs y) → x < INF0 ∧ y < INF0)
    (h2 : TwoCross vs old ce.src ce.dst) {fuel : Nat} {s s' : RS} (h : FInv vs tsA old ce.src ce.dst s.ts s.v2t s.diags)
    (hq : Queued old s.ts s.diags) (hU : Unb (HasEdge old) s.ts) (hist : s.hist = []) (hce : HasEdge s.ts ce.src ce.dst)
    (hs : restoreC vs ce fuel s = .ok s') {x y : Nat} (hx : x < INF0) (hy : y < INF0) (hxy : HasEdge s'.ts x y) (hold : ¬ HasEdge old x y)
    (hne : (⟨x, y⟩ : Edge).undirEq ce = false) : Loc vs s'.ts x y := by
  -- created edges with real ends other than the constraint
  let Cr : List Tri → Nat → Nat → Prop := fun ts x y => x < INF0 ∧ y < INF0 ∧ HasEdge ts x y ∧ ¬ HasEdge old x y ∧
    (⟨x, y⟩ : Edge).undirEq ce = false
  have hune : ∀ {x y : Nat}, (⟨x, y⟩ : Edge).undirEq ce = false → ¬ ((x = ce.src ∧ y = ce.dst) ∨ (x = ce.dst ∧ y = ce.src)) := by
    intro x y hf hc
    have : (⟨x, y⟩ : Edge).undirEq ce = true := by
      rw [undirEq_iff]
      rcases hc with ⟨rfl, rfl⟩ | ⟨rfl, rfl⟩
      · exact .inl rfl
      · exact .inr ⟨rfl, rfl⟩
    rw [hf] at this; exact absurd this (by simp)
  obtain ⟨⟨-, -, -, hI⟩, hd⟩ := restoreC_rule (fun s => FInv vs tsA old ce.src ce.dst s.ts s.v2t s.diags ∧ HasEdge s.ts ce.src ce.dst ∧
      Unb (HasEdge old) s.ts ∧
      ((s.hist = [] ∧ ∀ x y, Cr s.ts x y → (∃ d ∈ s.diags, d.edge.undirEq ⟨x, y⟩ = true) ∨ Loc vs s.ts x y) ∨
        ∀ x y, Cr s.ts x y → Loc vs s.ts x y))
    (fun s d rest s' h he hs => by
      obtain ⟨h, hce, hU, hI⟩ := h
      rw [he] at h
      obtain ⟨p, c, n1, n2, n3, n4, hQ⟩ := (h.c.eok (d := d) (by simp)).quadAt h.c.m.valid
      have hT := tiled_steps h.c.steps hvA hTA
      rcases restoreStepC_test (ce := ce) hn (s := { s with diags := rest }) h.c.m hT hQ with
        ⟨e, ht⟩ | ⟨hdc, hc, hpc, ts', v2t', hf, hm, hloc, e⟩ <;> rw [hs] at e <;> simp only [Res.ok.injEq] at e <;> subst e
      · refine ⟨h.tail, hce, hU, ?_⟩
        rcases hI with ⟨hh, hI⟩ | hI
        · refine .inl ⟨hh, fun x y hC => ?_⟩
          rcases hI x y hC with ⟨d', hd', e⟩ | hI
          · rw [he] at hd'
            rcases List.mem_cons.1 hd' with rfl | hd'
            · right
              have hlc : Loc vs s.ts d'.edge.src d'.edge.dst := by
                rcases ht with ht | ht | ht
                · exfalso
                  rw [undirEq_iff] at ht e
                  refine hune hC.2.2.2.2 ?_
                  rcases e with e | ⟨e1, e2⟩
                  · rw [e] at ht
                    rcases ht with ht | ht
                    · exact .inl ⟨by rw [← ht], by rw [← ht]⟩
                    · exact .inr ht
                  · simp only at e1 e2
                    rcases ht with ht | ht
                    · exact .inr ⟨by rw [← ht, e2], by rw [← ht, e1]⟩
                    · exact .inl ⟨by rw [← ht.2, e2], by rw [← ht.1, e1]⟩
                · simp only [hh] at ht; simp at ht
                · exact ht
              rw [undirEq_iff] at e
              rcases e with e | ⟨e1, e2⟩
              · rw [e] at hlc; exact hlc
              · rw [e1, e2] at hlc; exact hlc.symm
            · exact .inl ⟨d', hd', e⟩
          · exact .inr hI
        · exact .inr hI
      · have h' := h.swap hvA hTA hc hf hm
        have hT' := tiled_steps h'.c.steps hvA hTA
        obtain ⟨o1, o2⟩ := hf.old_not h.c.m.valid hT
        have hdE : HasEdge s.ts d.edge.src d.edge.dst := ⟨_, _, (h.c.eok (d := d) (by simp)).1⟩
        have hdN : ∀ {u v : Nat}, d.edge.undirEq ⟨u, v⟩ = true → ¬ HasEdge ts' u v := by
          intro u v e hE
          rw [undirEq_iff] at e
          rcases e with e | ⟨e1, e2⟩
          · rw [e] at o1; exact o1 hE
          · rw [e1, e2] at o2; exact o2 hE
        have hce' : HasEdge ts' ce.src ce.dst := by
          refine hf.kept h.c.m.valid hce ?_ ?_
          · rintro ⟨e1, e2⟩
            have : d.edge.undirEq ce = true := by
              rw [undirEq_iff]; left
              rw [show ce = ⟨ce.src, ce.dst⟩ from rfl, e1, e2]
            rw [hdc] at this; simp at this
          · rintro ⟨e1, e2⟩
            have : d.edge.undirEq ce = true := by rw [undirEq_iff]; right; exact ⟨e2.symm, e1.symm⟩
            rw [hdc] at this; simp at this
        refine ⟨h', hce', hf.unb h.c.m.valid hU hpc.1 hpc.2, .inr fun x y hC => ?_⟩
        obtain ⟨fx, fy, hE, hnold, hnce⟩ := hC
        obtain ⟨i, j, hEE⟩ := id hE
        rcases hf.ent_new h.c.m.valid hEE with ⟨i', j', h'e⟩ | ⟨rfl, rfl⟩ | ⟨rfl, rfl⟩
        · exfalso
          -- the diagonal was the only created edge
          have hdf : d.edge.src < INF0 ∧ d.edge.dst < INF0 ∧ ¬ HasEdge old d.edge.src d.edge.dst := by
            by_cases ho : HasEdge old d.edge.src d.edge.dst
            · have hcr := (h.q d (by simp)).1 ho
              obtain ⟨f1, f2⟩ := hfin _ _ ho hcr
              exact absurd hcr (edges_no_cross h.c.m.valid hT ha hb f1 f2 hce hdE)
            · obtain ⟨i0, j0, hd0⟩ := id hdE
              have : d.edge.src < INF0 ∧ d.edge.dst < INF0 := by
                by_contra hc0; exact ho (hU _ _ _ _ hd0 hc0)
              exact ⟨this.1, this.2, ho⟩
          have := (h.ins hvA hTA).one hvo hTo ha hb hce hfin h2 fx hdf.1 ⟨i', j', h'e⟩ hdE hnold hdf.2.2 fy hdf.2.1 (hune hnce)
            (hune hdc)
          rcases this with ⟨e1, e2⟩ | ⟨e1, e2⟩
          · exact o1 (by rw [e1, e2]; exact hE)
          · exact o2 (by rw [e1, e2]; exact hE)
        · exact hloc hT'
        · exact (hloc hT').symm) hs ⟨h, hce, hU, .inl ⟨hist, fun x y hC => .inl (hq x y hC.2.2.1 hC.2.2.2.1)⟩⟩
  rcases hI with ⟨-, hI⟩ | hI
  · rcases hI x y ⟨hx, hy, hxy, hold, hne⟩ with ⟨d, hd', -⟩ | hI
    · rw [hd] at hd'; simp at hd'
    · exact hI
  · exact hI x y ⟨hx, hy, hxy, hold, hne⟩

/-- The state after `remove_crossed_edges`. -/
theorem insertEdge_mid (hu : ∀ v ∈ vs, InUnit v) (hn : vs.length ≤ INF0) {ts0 : List Tri} {s s' : AC} (h : AInv vs ts0 s)
    (hv0 : Valid (hp vs) ts0) (hT0 : Tiled vs ts0) {ce : Edge} (hab : ce.src ≠ ce.dst) (hocc : Occ s.ts ce.src) {fuel : Nat}
    (hf : s.ts.length + s.ts.length * s.ts.length ≤ fuel) (hFC : FinCross vs s.ts ce.src ce.dst)
    (hs : insertEdge vs fuel ce s = .ok s') :
    s'.ts = s.ts ∨ ∃ (rc : RC) (rs : RS), restoreC vs ce fuel ⟨rc.ts, rc.v2t, rc.diags, []⟩ = .ok rs ∧ s'.ts = rs.ts ∧
      FInv vs ts0 s.ts ce.src ce.dst rc.ts rc.v2t rc.diags ∧ Queued s.ts rc.ts rc.diags ∧ Unb (HasEdge s.ts) rc.ts ∧
      HasEdge rc.ts ce.src ce.dst ∧ ce.src < INF0 ∧ ce.dst < INF0 := by
  obtain ⟨A, B, l, ha, hb, hl, ⟨_, rfl⟩ | ⟨hne, rc, rs, hrc, hrs, rfl⟩⟩ := insertEdge_ok hs
  · exact .inl rfl
  right
  have la := lt_of_getElem? ha
  have lb := lt_of_getElem? hb
  have la' : ce.src < INF0 := by omega
  have lb' : ce.dst < INF0 := by omega
  rcases registerEdges_geo hu hn h.m ha hb hocc hl with ⟨rfl, _⟩ | ⟨d, rest, rfl, hF, hall, hdis, hlen, hlink, hlast⟩
  · exact absurd rfl hne
  set l := d :: rest with hld
  have hch : Chain (hp vs) s.ts ce.src ce.dst l := by
    refine ⟨fun e he => (hall e he).1, fun e he => (hall e he).2, hlink, ?_, hlast⟩
    intro e he
    simp [hld] at he; subst he
    obtain ⟨T, j1, j3, hT, hR⟩ := hF.tri
    exact ⟨T, hT, hR.hasVert.2 (by simp)⟩
  have hcan : l.map (can (hp vs) ce.src ce.dst) = l := by
    refine (List.map_congr_left fun e he => ?_).trans (List.map_id l)
    exact if_pos (hall e he).2.su
  have hX : XInv vs ce.src ce.dst (HasEdge s.ts) l.length (FinCross vs s.ts ce.src ce.dst) ⟨s.ts, s.v2t, l, [], 0⟩ (l.length ^ 2) := by
    refine ⟨h.m, ⟨[], l, by simpa using hcan, by simpa using hch, ?_, .inr ⟨⟨d, rest, rfl, hch.seen_first⟩, ?_⟩⟩,
      ⟨l, [], by simp, rfl, by simp⟩, .inl (by simp [hld]), ?_, by simp⟩
    · intro hFC e he
      exact hFC _ _ _ _ (hall e (by simpa using he)).1.1 (hall e (by simpa using he)).2
    · have := sq_sub l.length (by simp [hld])
      simp only [List.nil_append]; omega
    · intro _ i x y j hE _; exact ⟨i, j, hE⟩
  have hl2 : l.length ^ 2 ≤ s.ts.length * s.ts.length := by
    rw [pow_two]; exact Nat.mul_le_mul hlen hlen
  rcases hX.run hu hn ha hb (fuel := fuel) (by omega) with ⟨hnF, -⟩ | ⟨rc', hrc', ⟨dd, hdd, hde⟩, hunb, -⟩
  · exact absurd hFC hnF
  rw [hrc] at hrc'; simp only [Res.ok.injEq] at hrc'; subst hrc'
  have base : CInv vs ts0 s.ts s.v2t [] (l ++ []) := by
    refine ⟨h.m, h.steps, h.occ, [], rfl, by simp, ?_, ?_, by simp⟩
    · intro e he; rw [List.append_nil] at he; exact (hall e he).1
    · rw [List.append_nil]; exact hdis
  obtain ⟨hFI, hQ⟩ := removeCrossed_fresh hv0 hT0 hu hn ha hb (s := ⟨s.ts, s.v2t, l, [], 0⟩) (old := s.ts) (tsA := ts0)
    ⟨base, rfl, fun x y hxy _ => hxy, fun e he => by
      have := (hall e (by simpa using he)).2.cross
      exact ⟨fun _ => this, fun _ => this.flip⟩⟩ (fun x y h1 h2 => absurd h1 h2) hrc
  refine ⟨rc, rs, hrs, rfl, hFI, hQ, hunb hFC, ?_, la', lb'⟩
  have hdd' : HasEdge rc.ts dd.edge.src dd.edge.dst := ⟨_, _, (hFI.c.eok hdd).1⟩
  rw [undirEq_iff] at hde
  rcases hde with e | ⟨e1, e2⟩
  · rw [e] at hdd'; exact hdd'
  · rw [e1, e2] at hdd'; exact HasEdge.symm hFI.c.m.valid (.inl lb') hdd'

/-- Insertion of a constraint that crosses at most two edges: the created edges are locally Delaunay. -/
theorem insertEdge_two (hu : ∀ v ∈ vs, InUnit v) (hn : vs.length ≤ INF0) {ts0 : List Tri} {s s' : AC} (h : AInv vs ts0 s)
    (hv0 : Valid (hp vs) ts0) (hT0 : Tiled vs ts0) {ce : Edge} (hab : ce.src ≠ ce.dst) (hocc : Occ s.ts ce.src) {fuel : Nat}
    (hf : s.ts.length + s.ts.length * s.ts.length ≤ fuel)
    (hfin : ∀ x y, HasEdge s.ts x y → HP.Cross (hp vs ce.src) (hp vs ce.dst) (hp vs x) (hp vs y) → x < INF0 ∧ y < INF0)
    (h2 : TwoCross vs s.ts ce.src ce.dst) (hs : insertEdge vs fuel ce s = .ok s') {x y : Nat} (hx : x < INF0) (hy : y < INF0)
    (hxy : HasEdge s'.ts x y) (hold : ¬ HasEdge s.ts x y) (hne : (⟨x, y⟩ : Edge).undirEq ce = false) : Loc vs s'.ts x y := by
  rcases insertEdge_mid hu hn h hv0 hT0 hab hocc hf (fun i x y j hE hEd => hfin x y ⟨i, j, hE⟩ hEd.cross) hs with
    e | ⟨rc, rs, hrs, e, hFI, hQ, hU, hce, fa, fb⟩
  · rw [e] at hxy; exact absurd hxy hold
  rw [e] at hxy ⊢
  exact restoreC_one hv0 hT0 hn h.m.valid (tiled_steps h.steps hv0 hT0) fa fb hfin h2 hFI hQ hU rfl hce hrs hx hy hxy hold hne

end CDT

import Verif.Geo.CdtSwap
import Verif.Geo.Tile

/-! # The loops of the constraint phase on a valid mesh -/

set_option linter.unusedSectionVars false
set_option linter.unusedSimpArgs false
set_option linter.unusedVariables false

namespace CDT

variable {K : Type} [Field K] [LinearOrder K] [IsStrictOrderedRing K] [ExactParams K] [IdCfg]
variable {vs : List (Vtx K)}
open Plane

/-- Invariant of mesh and `vertex_to_triangle`. -/
structure MInv (vs : List (Vtx K)) (ts : List Tri) (v2t : List Nat) : Prop where
  valid : Valid (hp vs) ts
  ok : VertsIn (VOk vs.length) ts
  v2t : V2tOk vs.length ts v2t

theorem Ent.vok {ts : List Tri} (hok : VertsIn (VOk vs.length) ts) {i x y j : Nat} (h : Ent ts i x y j) :
    VOk vs.length x ∧ VOk vs.length y := by
  obtain ⟨t, ht, hh⟩ := h
  have := hok.get ht
  rcases hh with ⟨rfl, rfl, _⟩ | ⟨rfl, rfl, _⟩ | ⟨rfl, rfl, _⟩
  · exact ⟨this 0, this 1⟩
  · exact ⟨this 1, this 2⟩
  · exact ⟨this 2, this 0⟩

/-- The quad of a queue entry. -/
structure QuadAt (H : Nat → HP K) (ts : List Tri) (d : EdgeData) (p c n1 n2 n3 n4 : Nat) : Prop where
  s : ∃ S, ts[d.f]? = some S ∧ Rot S p d.edge.src d.edge.dst n2 d.t n1
  o : ∃ U, ts[d.t]? = some U ∧ Rot U d.edge.dst d.edge.src c d.f n3 n4
  quad : d.toQuad ts = .ok ⟨d.edge.src, d.edge.dst, c, p⟩
  p1 : 0 < HP.o (H d.edge.dst) (H d.edge.src) (H c)
  p2 : 0 < HP.o (H p) (H d.edge.src) (H d.edge.dst)

theorem EOk.quadAt {H : Nat → HP K} {ts : List Tri} (hv : Valid H ts) {d : EdgeData} (hd : EOk ts d) :
    ∃ p c n1 n2 n3 n4, QuadAt H ts d p c n1 n2 n3 n4 := by
  obtain ⟨S, U, p, c, n1, n2, n3, n4, hS, hRS, hU, hRU, hq⟩ := toQuad_total hv hd
  exact ⟨p, c, n1, n2, n3, n4, ⟨S, hS, hRS⟩, ⟨U, hU, hRU⟩, hq, hRU.pos_iff.1 (hv.pos _ _ hU),
    hRS.pos_iff.1 (hv.pos _ _ hS)⟩

/-- The quad is strictly convex. -/
def Convex4 (H : Nat → HP K) (d : EdgeData) (p c : Nat) : Prop :=
  0 < HP.o (H p) (H d.edge.src) (H c) ∧ 0 < HP.o (H p) (H c) (H d.edge.dst)

theorem Convex4.ne {H : Nat → HP K} {d : EdgeData} {p c : Nat} (h : Convex4 H d p c) : p ≠ c := by
  rintro rfl
  have := h.1
  rw [HP.o_same''] at this
  exact lt_irrefl _ this

/-- A convex swap. -/
theorem MInv.swap {ts : List Tri} {v2t : List Nat} (hm : MInv vs ts v2t) (hn : vs.length ≤ INF0) {d : EdgeData}
    {p c n1 n2 n3 n4 : Nat} (hq : QuadAt (hp vs) ts d p c n1 n2 n3 n4) (hc : Convex4 (hp vs) d p c) :
    ∃ ts' v2t', swapQuad ts v2t d ⟨d.edge.src, d.edge.dst, c, p⟩ = .ok ⟨ts', v2t', n3, n1⟩ ∧
      FlipSpec ts ts' d.f d.t p d.edge.src d.edge.dst c n1 n2 n3 n4 ∧ MInv vs ts' v2t' := by
  obtain ⟨S, hS, hRS⟩ := hq.s
  obtain ⟨U, hU, hRU⟩ := hq.o
  obtain ⟨ts', v2t', h1, h2, h3⟩ := swapQuad_total hm.valid hm.ok hn hm.v2t hS hRS hU hRU hc.ne
  have va := Ent.vok hm.ok ⟨S, hS, hRS.has2⟩
  have vp := Ent.vok hm.ok ⟨S, hS, hRS.has1⟩
  have vc := Ent.vok hm.ok ⟨U, hU, hRU.has2⟩
  exact ⟨ts', v2t', h1, h2, h2.valid hm.valid hc.1 hc.2, swapQuad_verts h1 hm.ok ⟨va.1, va.2, vc.2, vp.1⟩, h3⟩

/-- One iteration of `remove_crossed_edges` on a valid mesh: all outcomes. -/
theorem removeStep_geo (hu : ∀ v ∈ vs, InUnit v) (hn : vs.length ≤ INF0) {a b : Nat} {A B : Vtx K}
    (ha : vs[a]? = some A) (hb : vs[b]? = some B) {d : EdgeData} {s : RC} (hm : MInv vs s.ts s.v2t)
    {p c n1 n2 n3 n4 : Nat} (hq : QuadAt (hp vs) s.ts d p c n1 n2 n3 n4) (hnc : s.nonConvex ≤ s.isects.length) :
    (¬ p < INF0 ∧ removeStep vs (A, B) d s = .panic) ∨
    (p < INF0 ∧ ¬ Convex4 (hp vs) d p c ∧
      removeStep vs (A, B) d s = .ok { s with isects := s.isects ++ [d], nonConvex := s.nonConvex + 1 }) ∨
    (p < INF0 ∧ Convex4 (hp vs) d p c ∧ ∃ ts' v2t',
      FlipSpec s.ts ts' d.f d.t p d.edge.src d.edge.dst c n1 n2 n3 n4 ∧ MInv vs ts' v2t' ∧
      ((HP.Cross (hp vs a) (hp vs b) (hp vs c) (hp vs p) ∧ removeStep vs (A, B) d s =
          .ok ⟨ts', v2t', s.isects.map (·.upd n3 n1 d.f d.t) ++ [⟨d.f, d.t, ⟨c, p⟩⟩],
            s.diags.map (·.upd n3 n1 d.f d.t), 0⟩) ∨
       (¬ HP.Cross (hp vs a) (hp vs b) (hp vs c) (hp vs p) ∧ removeStep vs (A, B) d s =
          .ok ⟨ts', v2t', s.isects.map (·.upd n3 n1 d.f d.t),
            s.diags.map (·.upd n3 n1 d.f d.t) ++ [⟨d.f, d.t, ⟨c, p⟩⟩], 0⟩))) := by
  obtain ⟨S, hS, hRS⟩ := hq.s
  obtain ⟨U, hU, hRU⟩ := hq.o
  have va := Ent.vok hm.ok ⟨S, hS, hRS.has2⟩
  have vp := Ent.vok hm.ok ⟨S, hS, hRS.has1⟩
  have vc := Ent.vok hm.ok ⟨U, hU, hRU.has2⟩
  unfold removeStep
  rw [if_neg (by omega), hq.quad, Res.ok_bind]
  rcases quadDiag_spec hu hn va.1 va.2 vc.2 vp.1 hq.p1 hq.p2 with ⟨h1, h2⟩ | ⟨r, h1, h2, h3⟩
  · left; rw [h1]; exact ⟨h2, rfl⟩
  · right
    rw [h1, Res.ok_bind]
    by_cases hr : r = .crossing
    · right
      have hc : Convex4 (hp vs) d p c := h3.1 hr
      obtain ⟨ts', v2t', g1, g2, g3⟩ := hm.swap hn hq hc
      refine ⟨h2, hc, ts', v2t', g2, g3, ?_⟩
      obtain ⟨x, e1, e2⟩ := edgeIsect_spec (e := ⟨c, p⟩) hu hn vc.2 vp.1 ha hb
      simp only at e2
      rw [if_neg (by simpa using hr), g1, Res.ok_bind]
      simp only [e1, Res.ok_bind]
      by_cases hx : x = .crossing
      · left; exact ⟨e2.1 hx, by rw [if_pos hx]⟩
      · right; exact ⟨fun h => hx (e2.2 h), by rw [if_neg hx]⟩
    · left
      exact ⟨h2, fun h => hr (h3.2 h), by rw [if_pos hr]⟩

/-- One iteration of `restore_delaunay_triangulation_constrained` on a valid mesh: all outcomes. -/
theorem restoreStepC_geo (hn : vs.length ≤ INF0) {ce : Edge} {d : EdgeData} {s : RS} (hm : MInv vs s.ts s.v2t)
    {p c n1 n2 n3 n4 : Nat} (hq : QuadAt (hp vs) s.ts d p c n1 n2 n3 n4) :
    restoreStepC vs ce d s = .ok s ∨
    (d.edge.undirEq ce = false ∧ Convex4 (hp vs) d p c ∧ ((d.f, d.t) ∉ s.hist ∧ p < INF0 ∧ c < INF0) ∧ ∃ ts' v2t',
      FlipSpec s.ts ts' d.f d.t p d.edge.src d.edge.dst c n1 n2 n3 n4 ∧ MInv vs ts' v2t' ∧
      restoreStepC vs ce d s = .ok ⟨ts', v2t', s.diags.map (·.upd n3 n1 d.f d.t) ++ [⟨d.f, d.t, ⟨c, p⟩⟩],
        (d.f, d.t) :: s.hist⟩) := by
  obtain ⟨S, hS, hRS⟩ := hq.s
  obtain ⟨U, hU, hRU⟩ := hq.o
  have va := Ent.vok hm.ok ⟨S, hS, hRS.has2⟩
  have vp := Ent.vok hm.ok ⟨S, hS, hRS.has1⟩
  have vc := Ent.vok hm.ok ⟨U, hU, hRU.has2⟩
  unfold restoreStepC
  by_cases he : d.edge.undirEq ce = true
  · left; rw [if_pos he]
  rw [if_neg he, hq.quad, Res.ok_bind]
  unfold shouldSwapC
  by_cases hi : (isInf c || isInf p) = true
  · left; simp only [hi, if_true, Res.ok_bind, Bool.false_and, Bool.false_eq_true, if_false]
  · simp only [hi, Bool.false_eq_true, if_false]
    simp only [Bool.or_eq_true, not_or, isInf_iff, not_not] at hi
    obtain ⟨hci, hpi⟩ := hi
    have hcf : c < INF0 := by omega
    have hpf : p < INF0 := by omega
    obtain ⟨r, h1, h2⟩ := shouldSwap_spec va.1 va.2 vc.2 (vp.1.fin hpf) hpf hq.p1 hq.p2
    rw [h1, Res.ok_bind]
    by_cases hr : (r && decide ((d.f, d.t) ∉ s.hist)) = true
    · right
      rw [if_pos hr]
      simp only [Bool.and_eq_true, decide_eq_true_eq] at hr
      have hc : Convex4 (hp vs) d p c := h2 hr.1
      obtain ⟨ts', v2t', g1, g2, g3⟩ := hm.swap hn hq hc
      refine ⟨by simpa using he, hc, ⟨hr.2, hpf, hcf⟩, ts', v2t', g2, g3, ?_⟩
      rw [g1, Res.ok_bind]
    · left; rw [if_neg hr]

/-! ## Invariants of the loops -/

/-- What the constraint phase keeps: the mesh is reachable by convex flips, queue entries are different
edges, the edges `E` are still there. -/
structure CInv (vs : List (Vtx K)) (ts0 ts : List Tri) (v2t : List Nat) (E : List Edge) (Q : List EdgeData) : Prop where
  m : MInv vs ts v2t
  steps : Relation.ReflTransGen (MStep (hp vs)) ts0 ts
  occ : VertsIn (Occ ts0) ts
  q : ∃ P : List EdgeData, P.map (·.edge) = E ∧ QInv ts P Q

theorem CInv.perm {ts0 ts : List Tri} {v2t : List Nat} {E : List Edge} {Q Q' : List EdgeData}
    (h : CInv vs ts0 ts v2t E Q) (hp : Q.Perm Q') : CInv vs ts0 ts v2t E Q' := by
  obtain ⟨P, e, hq⟩ := h.q
  exact ⟨h.m, h.steps, h.occ, P, e, hq.perm hp⟩

theorem CInv.tail {ts0 ts : List Tri} {v2t : List Nat} {E : List Edge} {Q : List EdgeData} {d : EdgeData}
    (h : CInv vs ts0 ts v2t E (d :: Q)) : CInv vs ts0 ts v2t E Q := by
  obtain ⟨P, e, hq⟩ := h.q
  exact ⟨h.m, h.steps, h.occ, P, e, hq.tail⟩

theorem CInv.protect {ts0 ts : List Tri} {v2t : List Nat} {E : List Edge} {Q : List EdgeData} {d : EdgeData}
    (h : CInv vs ts0 ts v2t E (d :: Q)) : CInv vs ts0 ts v2t (d.edge :: E) Q := by
  obtain ⟨P, e, hq⟩ := h.q
  exact ⟨h.m, h.steps, h.occ, d :: P, by simp [e], hq.protect⟩

theorem CInv.eok {ts0 ts : List Tri} {v2t : List Nat} {E : List Edge} {Q : List EdgeData}
    (h : CInv vs ts0 ts v2t E Q) {d : EdgeData} (hd : d ∈ Q) : EOk ts d := by
  obtain ⟨P, e, hq⟩ := h.q
  exact hq.okQ d hd

theorem occ_rot {ts : List Tri} {i x y z j1 j2 j3 : Nat} {t : Tri} (ht : ts[i]? = some t) (hR : Rot t x y z j1 j2 j3) :
    Occ ts x ∧ Occ ts y ∧ Occ ts z :=
  ⟨⟨i, t, ht, hR.hasVert.2 (by simp)⟩, ⟨i, t, ht, hR.hasVert.2 (by simp)⟩, ⟨i, t, ht, hR.hasVert.2 (by simp)⟩⟩

theorem vertsIn_rot {Q : Nat → Prop} {ts : List Tri} (hv : VertsIn Q ts) {i x y z j1 j2 j3 : Nat} {t : Tri}
    (ht : ts[i]? = some t) (hR : Rot t x y z j1 j2 j3) : Q x ∧ Q y ∧ Q z := by
  have := hv.get ht
  have h0 := this 0
  have h1 := this 1
  have h2 := this 2
  rcases hR with rfl | rfl | rfl
  · exact ⟨h0, h1, h2⟩
  · exact ⟨h1, h2, h0⟩
  · exact ⟨h2, h0, h1⟩

theorem FlipSpec.vertsIn {Q : Nat → Prop} {ts ts' : List Tri} {s o p a b c n1 n2 n3 n4 : Nat}
    (hf : FlipSpec ts ts' s o p a b c n1 n2 n3 n4) (hv : VertsIn Q ts) : VertsIn Q ts' := by
  obtain ⟨S, hS, hRS⟩ := hf.hs
  obtain ⟨U, hU, hRU⟩ := hf.ho
  obtain ⟨S', hS', hRS'⟩ := hf.hs'
  obtain ⟨U', hU', hRU'⟩ := hf.ho'
  obtain ⟨q1, q2, q3⟩ := vertsIn_rot hv hS hRS
  obtain ⟨-, -, q4⟩ := vertsIn_rot hv hU hRU
  intro t ht k
  obtain ⟨i, hi⟩ := List.getElem?_of_mem ht
  by_cases his : i = s
  · subst his; rw [hS'] at hi; simp at hi; subst hi
    rcases hRS' with rfl | rfl | rfl <;> fin_cases k <;> assumption
  by_cases hio : i = o
  · subst hio; rw [hU'] at hi; simp at hi; subst hi
    rcases hRU' with rfl | rfl | rfl <;> fin_cases k <;> assumption
  · obtain ⟨t0, ht0, e1, e2, e3⟩ := hf.verts_other his hio hi
    have := hv.get ht0
    fin_cases k
    · show Q t.v1; rw [e1]; exact this 0
    · show Q t.v2; rw [e2]; exact this 1
    · show Q t.v3; rw [e3]; exact this 2

/-- A swap of the head. -/
theorem CInv.swap {ts0 ts ts' : List Tri} {v2t v2t' : List Nat} {E : List Edge} {Q : List EdgeData} {d : EdgeData}
    {p c n1 n2 n3 n4 : Nat} (h : CInv vs ts0 ts v2t E (d :: Q)) (hc : Convex4 (hp vs) d p c)
    (hf : FlipSpec ts ts' d.f d.t p d.edge.src d.edge.dst c n1 n2 n3 n4) (hm : MInv vs ts' v2t') :
    CInv vs ts0 ts' v2t' E (Q.map (·.upd n3 n1 d.f d.t) ++ [⟨d.f, d.t, ⟨c, p⟩⟩]) := by
  obtain ⟨P, e, hq⟩ := h.q
  refine ⟨hm, h.steps.tail (.flip hf hc.1 hc.2), hf.vertsIn h.occ, _, ?_, hq.swap hf h.m.valid hm.valid hc.ne rfl⟩
  rw [← e, List.map_map]
  congr 1
  funext x
  exact x.upd_edge _ _ _ _

/-- A protected edge is an edge of the mesh. -/
theorem CInv.edge {ts0 ts : List Tri} {v2t : List Nat} {E : List Edge} {Q : List EdgeData}
    (h : CInv vs ts0 ts v2t E Q) {e : Edge} (he : e ∈ E) : ∃ i j, Ent ts i e.src e.dst j := by
  obtain ⟨P, rfl, hq⟩ := h.q
  obtain ⟨d, hd, rfl⟩ := List.mem_map.1 he
  exact ⟨_, _, (hq.okP d hd).1⟩

/-- Invariant of `remove_crossed_edges`, for successful iterations. -/
theorem removeStep_inv (hu : ∀ v ∈ vs, InUnit v) (hn : vs.length ≤ INF0) {a b : Nat} {A B : Vtx K}
    (ha : vs[a]? = some A) (hb : vs[b]? = some B) {ts0 : List Tri} {E : List Edge} {d : EdgeData} {rest : List EdgeData}
    {s s' : RC} (h : CInv vs ts0 s.ts s.v2t E (s.isects ++ s.diags)) (he : s.isects = d :: rest)
    (hs : removeStep vs (A, B) d { s with isects := rest } = .ok s') :
    CInv vs ts0 s'.ts s'.v2t E (s'.isects ++ s'.diags) := by
  have hnc := (removeStep_ok hs).1
  rw [he, List.cons_append] at h
  obtain ⟨p, c, n1, n2, n3, n4, hq⟩ := (h.eok (d := d) (by simp)).quadAt h.m.valid
  rcases removeStep_geo hu hn ha hb (s := { s with isects := rest }) h.m hq hnc with
    ⟨_, e⟩ | ⟨_, _, e⟩ | ⟨_, hc, ts', v2t', hf, hm, ⟨_, e⟩ | ⟨_, e⟩⟩
  · rw [e] at hs; simp at hs
  · rw [e] at hs; simp at hs; subst hs
    refine h.perm ?_
    simp only [List.cons_append, List.append_assoc]
    exact (List.perm_middle).symm
  · rw [e] at hs; simp at hs; subst hs
    refine (h.swap hc hf hm).perm ?_
    simp only [List.map_append, List.append_assoc]
    exact List.Perm.append_left _ List.perm_append_comm
  · rw [e] at hs; simp at hs; subst hs
    refine (h.swap hc hf hm).perm ?_
    simp only [List.map_append, List.append_assoc]
    exact List.Perm.refl _

theorem removeCrossed_inv (hu : ∀ v ∈ vs, InUnit v) (hn : vs.length ≤ INF0) {a b : Nat} {A B : Vtx K}
    (ha : vs[a]? = some A) (hb : vs[b]? = some B) {ts0 : List Tri} {E : List Edge} {fuel : Nat}
    {s s' : RC} (h : CInv vs ts0 s.ts s.v2t E (s.isects ++ s.diags))
    (hs : removeCrossed vs (A, B) fuel s = .ok s') : CInv vs ts0 s'.ts s'.v2t E s'.diags ∧ s'.isects = [] := by
  obtain ⟨h1, h2⟩ := removeCrossed_rule (fun s => CInv vs ts0 s.ts s.v2t E (s.isects ++ s.diags))
    (fun s d rest s' h he hs => removeStep_inv hu hn ha hb h he hs) hs h
  rw [h2] at h1
  exact ⟨h1, h2⟩

/-- Invariant of `restore_delaunay_triangulation_constrained`. -/
theorem restoreStepC_inv (hn : vs.length ≤ INF0) {ce : Edge} {ts0 : List Tri} {E : List Edge} {d : EdgeData}
    {rest : List EdgeData} {s : RS} (h : CInv vs ts0 s.ts s.v2t E s.diags) (he : s.diags = d :: rest) :
    ∃ s', restoreStepC vs ce d { s with diags := rest } = .ok s' ∧
    ((d.edge.undirEq ce = true ∧ CInv vs ts0 s'.ts s'.v2t (d.edge :: E) s'.diags) ∨
      (d.edge.undirEq ce = false ∧ CInv vs ts0 s'.ts s'.v2t E s'.diags)) := by
  rw [he] at h
  obtain ⟨p, c, n1, n2, n3, n4, hq⟩ := (h.eok (d := d) (by simp)).quadAt h.m.valid
  rcases restoreStepC_geo (ce := ce) hn (s := { s with diags := rest }) h.m hq with
    e | ⟨hne, hc, _, ts', v2t', hf, hm, e⟩
  · refine ⟨_, e, ?_⟩
    by_cases hh : d.edge.undirEq ce = true
    · exact .inl ⟨hh, h.protect⟩
    · exact .inr ⟨by simpa using hh, h.tail⟩
  · exact ⟨_, e, .inr ⟨hne, h.swap hc hf hm⟩⟩

theorem CInv.mono {ts0 ts : List Tri} {v2t : List Nat} {e : Edge} {E : List Edge} {Q : List EdgeData}
    (h : CInv vs ts0 ts v2t (e :: E) Q) : CInv vs ts0 ts v2t E Q := by
  obtain ⟨P, he, hq⟩ := h.q
  cases P with
  | nil => simp at he
  | cons d P =>
    simp at he
    exact ⟨h.m, h.steps, h.occ, P, he.2, fun x hx => hq.okP x (by simp [hx]), hq.okQ, hq.disQ,
      fun x hx => hq.disP x (by simp [hx])⟩

theorem restoreC_inv (hn : vs.length ≤ INF0) {ce : Edge} {ts0 : List Tri} {E : List Edge} {fuel : Nat}
    {s s' : RS} (h : CInv vs ts0 s.ts s.v2t E s.diags)
    (hs : restoreC vs ce fuel s = .ok s') : CInv vs ts0 s'.ts s'.v2t E [] := by
  obtain ⟨h1, h2⟩ := restoreC_rule (fun s => CInv vs ts0 s.ts s.v2t E s.diags)
    (fun s d rest s' h he hs => by
      obtain ⟨s1, h1, h2⟩ := restoreStepC_inv (ce := ce) hn h he
      rw [h1] at hs; simp at hs; subst hs
      rcases h2 with h2 | h2
      · exact h2.2.mono
      · exact h2.2) hs h
  rw [h2] at h1
  exact h1

/-- If the constrained edge is among the diagonals it is in the final mesh. -/
theorem restoreC_keep (hn : vs.length ≤ INF0) {ce : Edge} {ts0 : List Tri} {E : List Edge} {fuel : Nat}
    {s s' : RS} (h : CInv vs ts0 s.ts s.v2t E s.diags)
    (hin : (∃ d ∈ s.diags, d.edge.undirEq ce = true) ∨ ∃ e ∈ E, e.undirEq ce = true)
    (hs : restoreC vs ce fuel s = .ok s') : ∃ E', E <:+ E' ∧ CInv vs ts0 s'.ts s'.v2t E' [] ∧
      ∃ e ∈ E', e.undirEq ce = true := by
  obtain ⟨⟨E', hsuf, h1, h3⟩, h2⟩ := restoreC_rule (fun s => ∃ E', E <:+ E' ∧ CInv vs ts0 s.ts s.v2t E' s.diags ∧
      ((∃ d ∈ s.diags, d.edge.undirEq ce = true) ∨ ∃ e ∈ E', e.undirEq ce = true))
    (fun s d rest s' h he hs => by
      obtain ⟨E', hsuf, h, hin⟩ := h
      obtain ⟨s1, h1, h2⟩ := restoreStepC_inv (ce := ce) hn h he
      rw [h1] at hs; simp at hs; subst hs
      rcases h2 with ⟨hh, h2⟩ | ⟨hh, h2⟩
      · exact ⟨d.edge :: E', hsuf.trans (List.suffix_cons _ _), h2, .inr ⟨d.edge, by simp, hh⟩⟩
      · refine ⟨E', hsuf, h2, ?_⟩
        rcases hin with ⟨d', hd', hd2⟩ | hin
        · left
          rw [he] at hd'
          rcases List.mem_cons.1 hd' with rfl | hd'
          · rw [hd2] at hh; exact absurd hh (by simp)
          · rcases restoreStepC_ok h1 with ⟨_, rfl⟩ | ⟨_, q, b, _, _, ⟨_, rfl⟩ | ⟨_, _, w, _, rfl⟩⟩
            · exact ⟨d', hd', hd2⟩
            · exact ⟨d', hd', hd2⟩
            · refine ⟨d'.upd w.ttl w.tfr d.f d.t, by simp; exact .inl ⟨d', hd', rfl⟩, by rw [d'.upd_edge]; exact hd2⟩
        · exact .inr hin) hs ⟨E, List.suffix_refl _, h, hin⟩
  refine ⟨E', hsuf, by rw [h2] at h1; exact h1, ?_⟩
  rw [h2] at h3
  simpa using h3

/-- Edges after a flip. -/
theorem FlipSpec.ent_new {H : Nat → HP K} {ts ts' : List Tri} {s o p a b c n1 n2 n3 n4 : Nat}
    (hf : FlipSpec ts ts' s o p a b c n1 n2 n3 n4) (hv : Valid H ts) {i x y j : Nat} (h : Ent ts' i x y j) :
    (∃ i j, Ent ts i x y j) ∨ (x = p ∧ y = c) ∨ (x = c ∧ y = p) := by
  by_cases h1 : i = s
  · subst h1
    rcases hf.ent_s'.1 h with ⟨rfl, rfl, _⟩ | ⟨rfl, rfl, _⟩ | ⟨rfl, rfl, _⟩
    · exact .inl ⟨_, _, hf.ent_s.2 (.inl ⟨rfl, rfl, rfl⟩)⟩
    · exact .inl ⟨_, _, hf.ent_o.2 (.inr (.inl ⟨rfl, rfl, rfl⟩))⟩
    · exact .inr (.inr ⟨rfl, rfl⟩)
  by_cases h2 : i = o
  · subst h2
    rcases hf.ent_o'.1 h with ⟨rfl, rfl, _⟩ | ⟨rfl, rfl, _⟩ | ⟨rfl, rfl, _⟩
    · exact .inr (.inl ⟨rfl, rfl⟩)
    · exact .inl ⟨_, _, hf.ent_o.2 (.inr (.inr ⟨rfl, rfl, rfl⟩))⟩
    · exact .inl ⟨_, _, hf.ent_s.2 (.inr (.inr ⟨rfl, rfl, rfl⟩))⟩
  obtain ⟨j0, hj, _⟩ := (hf.ent_other hv h1 h2).1 h
  exact .inl ⟨_, _, hj⟩

/-- The edges with an artificial vertex are among `U`. -/
def Unb (U : Nat → Nat → Prop) (ts : List Tri) : Prop :=
  ∀ i x y j, Ent ts i x y j → ¬ (x < INF0 ∧ y < INF0) → U x y

theorem FlipSpec.unb {H : Nat → HP K} {ts ts' : List Tri} {s o p a b c n1 n2 n3 n4 : Nat}
    (hf : FlipSpec ts ts' s o p a b c n1 n2 n3 n4) (hv : Valid H ts) {U : Nat → Nat → Prop} (h : Unb U ts)
    (hp : p < INF0) (hc : c < INF0) : Unb U ts' := by
  intro i x y j he hn
  rcases hf.ent_new hv he with ⟨i', j', h'⟩ | ⟨rfl, rfl⟩ | ⟨rfl, rfl⟩
  · exact h _ _ _ _ h' hn
  · exact absurd ⟨hp, hc⟩ hn
  · exact absurd ⟨hc, hp⟩ hn

/-- `restore_delaunay_triangulation_constrained` on a valid mesh with enough fuel succeeds. -/
theorem restoreC_total (hn : vs.length ≤ INF0) {ce : Edge} {ts0 : List Tri} {E : List Edge} {fuel : Nat}
    {s : RS} {U : Nat → Nat → Prop} (h : CInv vs ts0 s.ts s.v2t E s.diags) (hd : restoreC vs ce fuel s ≠ .diverge) :
    ∃ s', restoreC vs ce fuel s = .ok s' ∧ (Unb U s.ts → Unb U s'.ts) := by
  induction fuel generalizing s with
  | zero =>
    unfold restoreC at hd ⊢
    split
    · exact ⟨s, rfl, id⟩
    · rename_i he; simp [he] at hd
  | succ n ih =>
    unfold restoreC at hd ⊢
    split
    · exact ⟨s, rfl, id⟩
    · rename_i d rest he
      simp only [he] at hd
      obtain ⟨s1, h1, h2⟩ := restoreStepC_inv (ce := ce) hn h he
      have h2' : CInv vs ts0 s1.ts s1.v2t E s1.diags := by
        rcases h2 with h2 | h2
        · exact h2.2.mono
        · exact h2.2
      have hun : Unb U s.ts → Unb U s1.ts := by
        intro hU
        rw [he] at h
        obtain ⟨p, c, n1, n2, n3, n4, hq⟩ := (h.eok (d := d) (by simp)).quadAt h.m.valid
        rcases restoreStepC_geo (ce := ce) hn (s := { s with diags := rest }) h.m hq with
          e | ⟨_, _, ⟨_, hp', hc'⟩, ts', v2t', hf, hm, e⟩ <;> rw [h1] at e <;> simp at e <;> subst e
        · exact hU
        · exact hf.unb h.m.valid hU hp' hc'
      rw [h1, Res.ok_bind] at hd ⊢
      obtain ⟨s', e1, e2⟩ := ih h2' hd
      exact ⟨s', e1, fun h => e2 (hun h)⟩

end CDT

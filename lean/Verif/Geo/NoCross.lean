import Verif.Geo.CdtAccept

/-! # Edges of a tiled mesh do not cross; inserting a present edge changes nothing -/

set_option linter.unusedSectionVars false
set_option linter.unusedVariables false

namespace CDT

section
variable {K : Type} [Field K] [LinearOrder K] [IsStrictOrderedRing K] [ExactParams K] [IdCfg]
variable {vs : List (Vtx K)} {ts : List Tri} {a b : Nat}

/-- Two crossing edges, the triangle of the first one reaching over the second one. -/
theorem no_cross_aux (ht : Tiled vs ts) (hv : Valid (hp vs) ts) {i k u v w x j1 j2 j3 l1 l2 l3 : Nat} {S T : Tri}
    (hS : ts[i]? = some S) (hRS : Rot S a b x j1 j2 j3) (hT : ts[k]? = some T) (hRT : Rot T u v w l1 l2 l3)
    (h1 : 0 < HP.o (hp vs u) (hp vs v) (hp vs a) * -HP.o (hp vs u) (hp vs v) (hp vs b))
    (h2 : 0 < HP.o (hp vs a) (hp vs b) (hp vs v) * -HP.o (hp vs a) (hp vs b) (hp vs u))
    (h3 : 0 < HP.o (hp vs u) (hp vs v) (hp vs a) * HP.o (hp vs a) (hp vs b) (hp vs v))
    (hx : 0 ≤ HP.o (hp vs u) (hp vs v) (hp vs x)) : i = k := by
  have hw := fun i => hp_w_nonneg vs i
  have D2 := hRS.pos_iff.1 (hv.pos _ _ hS)
  have D1 := hRT.pos_iff.1 (hv.pos _ _ hT)
  set A := hp vs a
  set B := hp vs b
  set U := hp vs u
  set V := hp vs v
  set W := hp vs w
  set X := hp vs x
  have hsa : HP.o U V A ≠ 0 := by rintro h; rw [h] at h1; simp at h1
  -- the crossing point
  let c := -HP.o U V B / HP.o U V A
  have hc : 0 < c := by
    rcases pos_and_pos_or_neg_and_neg_of_mul_pos h1 with h | h
    · exact div_pos h.2 h.1
    · exact div_pos_of_neg_of_neg h.2 h.1
  let Z := B.lin A c
  have z1 : HP.o A B Z = 0 := by simp only [Z, o_lin, HP.o_same', HP.o_same'']; ring
  have z2 : HP.o U V Z = 0 := by simp only [Z, o_lin, c]; field_simp; ring
  have z3 : 0 < HP.o B X Z := by
    simp only [Z, o_lin, HP.o_same'', HP.o_cyc A B X, zero_add]; exact mul_pos hc D2
  have z4 : 0 < HP.o X A Z := by
    simp only [Z, o_lin, HP.o_same', HP.o_cyc' A B X, mul_zero, add_zero]; exact D2
  have key : ∀ Y : HP K, ∀ Q : HP K, HP.o U V A * HP.o Y Q Z = HP.o A B V * HP.o Y Q U - HP.o A B U * HP.o Y Q V := by
    intro Y Q
    have e1 : HP.o U V A * HP.o Y Q Z = HP.o U V A * HP.o Y Q B - HP.o U V B * HP.o Y Q A := by
      simp only [Z, o_lin, c]; field_simp; ring
    rw [e1]; simp only [HP.o]; ring
  have z5 : 0 < HP.o V W Z := by
    have e := key V W
    rw [HP.o_cyc U V W, HP.o_same'', mul_zero, sub_zero] at e
    have : 0 < HP.o U V A * HP.o U V A * HP.o V W Z := by
      rw [mul_assoc, e, ← mul_assoc]; exact mul_pos h3 D1
    exact pos_of_mul_pos_right this (mul_self_nonneg _)
  have z6 : 0 < HP.o W U Z := by
    have e := key W U
    rw [HP.o_cyc' U V W, HP.o_same', mul_zero, zero_sub] at e
    have h4 : 0 < HP.o U V A * -HP.o A B U := by
      have : 0 < HP.o A B V * HP.o A B V * (HP.o U V A * -HP.o A B U) := by
        have := mul_pos h3 h2
        calc (0 : K) < _ := this
          _ = _ := by ring
      exact pos_of_mul_pos_right this (mul_self_nonneg _)
    have : 0 < HP.o U V A * HP.o U V A * HP.o W U Z := by
      rw [mul_assoc, e]
      have := mul_pos h4 D1
      linarith
    exact pos_of_mul_pos_right this (mul_self_nonneg _)
  obtain ⟨f, pf, hf⟩ := quad_pos_near D2 (HP.o A B W) 0
  obtain ⟨f, f0, f1⟩ := exists_between pf
  have hf := hf f f0 f1
  let Y := X.lin W f
  have y1 : 0 < HP.o A B Y := by simp only [Y, o_lin]; linarith
  have y2 : 0 < HP.o U V Y := by simp only [Y, o_lin]; have := mul_pos f0 D1; linarith
  obtain ⟨d1, p1, q1⟩ := quad_pos_near z3 (HP.o B X Y) 0
  obtain ⟨d2, p2, q2⟩ := quad_pos_near z4 (HP.o X A Y) 0
  obtain ⟨d3, p3, q3⟩ := quad_pos_near z5 (HP.o V W Y) 0
  obtain ⟨d4, p4, q4⟩ := quad_pos_near z6 (HP.o W U Y) 0
  obtain ⟨e, e0, e1⟩ := exists_between (lt_min (lt_min p1 p2) (lt_min p3 p4))
  simp only [lt_min_iff] at e1
  have q1 := q1 e e0 e1.1.1
  have q2 := q2 e e0 e1.1.2
  have q3 := q3 e e0 e1.2.1
  have q4 := q4 e e0 e1.2.2
  have in1 : In3 A B X (Z.lin Y e) := by
    refine ⟨?_, ?_, ?_⟩ <;> rw [o_lin]
    · rw [z1, zero_add]; exact mul_pos e0 y1
    · linarith
    · linarith
  have in2 : In3 U V W (Z.lin Y e) := by
    refine ⟨?_, ?_, ?_⟩ <;> rw [o_lin]
    · rw [z2, zero_add]; exact mul_pos e0 y2
    · linarith
    · linarith
  have hz := in3_w (hw a) (hw b) (hw x) D2 in1
  exact ht.disjoint (g := (Z.lin Y e).nrm) rfl ((inAt_rot hS hRS).2 (in1.nrm hz)) ((inAt_rot hT hRT).2 (in2.nrm hz))

/-- Two edges of a tiled mesh do not cross, if the ends of the first one are real. -/
theorem no_cross (hv : Valid (hp vs) ts) (ht : Tiled vs ts) (ha : a < INF0) (hb : b < INF0) (h : HasEdge ts a b) {i u v j : Nat}
    (he : Ent ts i u v j) : ¬ Ed (hp vs) a b u v := by
  intro hE
  have hN := hE.nb hv ha hb he
  obtain ⟨k, m, S, hS, hh⟩ := h
  obtain ⟨x, _, _, hRS⟩ := hh.rot
  have hne := hE.ne
  obtain ⟨su, sv, sa, sb⟩ := hE
  have fin : ∀ {T : Tri} {l p q l1 l2 l3 : Nat}, ts[l]? = some T → (∃ r, Rot T p q r l1 l2 l3) → k = l →
      ((p = u ∧ q = v) ∨ (p = v ∧ q = u)) → False := by
    rintro T l p q l1 l2 l3 hT ⟨r, hR⟩ rfl hpq
    rw [hS] at hT; simp at hT; subst hT
    have mu : S.hasVert u = true := hR.hasVert.2 (by rcases hpq with ⟨rfl, rfl⟩ | ⟨rfl, rfl⟩ <;> simp)
    have mv : S.hasVert v = true := hR.hasVert.2 (by rcases hpq with ⟨rfl, rfl⟩ | ⟨rfl, rfl⟩ <;> simp)
    rcases hRS.hasVert.1 mu with e | e | e
    · exact hne.1 e.symm
    · exact hne.2.1 e.symm
    · rcases hRS.hasVert.1 mv with e' | e' | e'
      · exact hne.2.2.1 e'.symm
      · exact hne.2.2.2.1 e'.symm
      · exact hne.2.2.2.2 (e.symm.trans e')
  rcases le_total 0 (HP.o (hp vs u) (hp vs v) (hp vs x)) with hx | hx
  · obtain ⟨T, hT, hhT⟩ := he
    obtain ⟨w, _, _, hRT⟩ := hhT.rot
    exact fin hT ⟨w, hRT⟩ (no_cross_aux ht hv hS hRS hT hRT (mul_pos sa (by linarith)) (mul_pos sv (by linarith)) (mul_pos sa sv) hx)
      (.inl ⟨rfl, rfl⟩)
  · obtain ⟨T, hT, hhT⟩ := hv.ent_pos he hN
    obtain ⟨w, _, _, hRT⟩ := hhT.rot
    refine fin hT ⟨w, hRT⟩ (no_cross_aux ht hv hS hRS hT hRT ?_ ?_ ?_ ?_) (.inr ⟨rfl, rfl⟩)
    · rw [HP.o_swap, HP.o_swap (hp vs u) (hp vs v) (hp vs b)]; have := mul_pos sa (neg_pos.2 sb); linarith
    · have := mul_pos sv (neg_pos.2 su); linarith
    · rw [HP.o_swap]; have := mul_pos sa (neg_pos.2 su); linarith
    · rw [HP.o_swap]; linarith

/-- A mesh vertex on an edge of the mesh is one of its ends. -/
theorem HasEdge.noBtw (hv : Valid (hp vs) ts) (ht : Tiled vs ts) (ha : a < INF0) (hb : b < INF0) (h : HasEdge ts a b) : NoBtw vs ts a b := by
  intro w hw hB
  obtain ⟨k, m, S, hS, hh⟩ := h
  obtain ⟨x, _, _, hR⟩ := hh.rot
  have D := hR.pos_iff.1 (hv.pos _ _ hS)
  obtain ⟨s, t, hs, ht0, ex, ey, ew⟩ := hB
  have wa := hp_w_fin vs ha
  have wb := hp_w_fin vs hb
  have wf : w < INF0 := by
    rw [← hp_w_pos_iff vs w, ew, wa, wb]; linarith
  have comb : ∀ p q : HP K, HP.o p q (hp vs w) = s * HP.o p q (hp vs a) + t * HP.o p q (hp vs b) := by
    intro p q; simp only [HP.o, ex, ey, ew]; ring
  have o1 : HP.o (hp vs a) (hp vs b) (hp vs w) = 0 := by rw [comb, HP.o_same'', HP.o_same']; ring
  have o2 : HP.o (hp vs b) (hp vs x) (hp vs w) = s * HP.o (hp vs a) (hp vs b) (hp vs x) := by
    rw [comb, HP.o_same'', HP.o_cyc (hp vs a)]; ring
  have o3 : HP.o (hp vs x) (hp vs a) (hp vs w) = t * HP.o (hp vs a) (hp vs b) (hp vs x) := by
    rw [comb, HP.o_same', HP.o_cyc' (hp vs a)]; ring
  have := vert_of_in hv ht wf hw hS hR o1.ge (by rw [o2]; exact (mul_pos hs D).le) (by rw [o3]; exact (mul_pos ht0 D).le)
  rcases hR.hasVert.1 this with rfl | rfl | rfl
  · rw [HP.o_same'] at o3; exact (mul_pos ht0 D).ne o3
  · rw [HP.o_same''] at o2; exact (mul_pos hs D).ne o2
  · exact D.ne' o1

theorem HasEdge.occ (h : HasEdge ts a b) : Occ ts a ∧ Occ ts b := by
  obtain ⟨i, j, h⟩ := h
  exact h.occ

/-- Inserting an edge of the mesh changes nothing. -/
theorem insertEdge_present {ce : Edge} {A B : Vtx K} (hu : ∀ v ∈ vs, Plane.InUnit v) (hn : vs.length ≤ INF0) {s : AC}
    (hm : MInv vs s.ts s.v2t) (ht : Tiled vs s.ts) (ha : vs[ce.src]? = some A) (hb : vs[ce.dst]? = some B)
    (h : HasEdge s.ts ce.src ce.dst) (fuel : Nat) : insertEdge vs fuel ce s = .ok s := by
  have la := lt_of_getElem? ha
  have lb := lt_of_getElem? hb
  have la' : ce.src < INF0 := by omega
  have lb' : ce.dst < INF0 := by omega
  have hAB : A ≠ B := by
    rintro rfl
    obtain ⟨k, m, S, hS, hh⟩ := h
    obtain ⟨x, _, _, hR⟩ := hh.rot
    have D := hR.pos_iff.1 (hm.valid.pos _ _ hS)
    rw [hp_fin la' ha, hp_fin lb' hb, HP.o_same] at D
    exact lt_irrefl _ D
  unfold insertEdge
  rw [getI_of ha, Res.ok_bind, getI_of hb, Res.ok_bind]
  rcases registerEdges_total hu hn hm ha hb h.occ.1 with ⟨l, hl⟩ | ⟨-, hno⟩
  swap
  · exact absurd ⟨ht, h.occ.2, h.noBtw hm.valid ht la' lb', hAB⟩ hno
  rw [hl, Res.ok_bind]
  rcases registerEdges_geo hu hn hm ha hb h.occ.1 hl with ⟨rfl, -⟩ | ⟨d, rest, rfl, hF, -⟩
  · rfl
  · exact absurd hF.ed (no_cross hm.valid ht la' lb' h hF.ok.1)

end
end CDT

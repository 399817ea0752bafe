import Verif.Comb.Run
import Verif.Geo.CdtReg
import Verif.Geo.CdtRun
import Verif.Proofs.PanicC

/-!
# The swap of the constraint phase on combinatorial meshes

As `Verif.Geo.CdtSwap`, without geometry.
-/

set_option linter.unusedSectionVars false
set_option linter.unusedSimpArgs false
set_option linter.unusedVariables false

namespace CDT
namespace Comb

variable [IdCfg] {ts ts' : List Tri}
variable {s o p a b c n1 n2 n3 n4 : Nat}

/-- Two vertices determine the neighbor in a triangle. -/
theorem Valid.ent_nb (hv : Valid ts) {i x y j j' : Nat} (h : Ent ts i x y j) (h' : Ent ts i x y j') : j = j' := by
  obtain ⟨t, ht, hh⟩ := h
  obtain ⟨t', ht', hh'⟩ := h'
  rw [ht] at ht'; simp at ht'; subst ht'
  obtain ⟨e1, e2, e3⟩ := (hv.pos _ _ ht).ne
  rcases hh with ⟨rfl, rfl, rfl⟩ | ⟨rfl, rfl, rfl⟩ | ⟨rfl, rfl, rfl⟩ <;>
    rcases hh' with ⟨f1, f2, rfl⟩ | ⟨f1, f2, rfl⟩ | ⟨f1, f2, rfl⟩ <;>
    first
    | rfl
    | exact absurd f1 ‹_›
    | exact absurd f1.symm ‹_›

/-- `to_quad` on an entry of a valid mesh. -/
theorem toQuad_total (hv : Valid ts) {d : EdgeData} (hd : EOk ts d) :
    ∃ S U p c n1 n2 n3 n4, ts[d.f]? = some S ∧ Rot S p d.edge.src d.edge.dst n2 d.t n1 ∧ ts[d.t]? = some U ∧
      Rot U d.edge.dst d.edge.src c d.f n3 n4 ∧ d.toQuad ts = .ok ⟨d.edge.src, d.edge.dst, c, p⟩ := by
  obtain ⟨he, hn⟩ := hd
  obtain ⟨U, hU, hh'⟩ := hv.ent_pos he hn
  obtain ⟨S, hS, hh⟩ := he
  obtain ⟨p, n1, n2, hRS⟩ := hh.rot
  obtain ⟨c, n3, n4, hRU⟩ := hh'.rot
  have e1 := (hv.pos _ _ hS).has_ne hRS.has2
  have e2 := (hv.pos _ _ hS).has_ne hRS.has3
  have f1 := (hv.pos _ _ hU).has_ne hRU.has2
  have f2 := (hv.pos _ _ hU).has_ne hRU.has3
  refine ⟨S, U, p, c, n1, n2, n3, n4, hS, hRS.next.next, hU, hRU, ?_⟩
  unfold EdgeData.toQuad
  simp only [getI_of hS, getI_of hU, Res.ok_bind]
  have q1 := (oppVertexId_rot2 hRS (Ne.symm e2) e1).1
  have q2 := (oppVertexId_rot2 hRU (Ne.symm f2) f1).2
  rw [show d.edge = ⟨d.edge.src, d.edge.dst⟩ from rfl, q1, q2]

theorem vertexIndex_rot3 (hv : Valid ts) {i : Nat} {t : Tri} (ht : ts[i]? = some t) {x y z j1 j2 j3 : Nat}
    (hR : Rot t x y z j1 j2 j3) :
    t.n (oppEdgeIdx (t.vertexIndex x)) = j2 ∧ t.n (nextCwEdge (oppEdgeIdx (t.vertexIndex x))) = j3 ∧
    t.n (nextCcwEdge (oppEdgeIdx (t.vertexIndex x))) = j1 := by
  have e1 := (hv.pos _ _ ht).has_ne hR.has1
  have e2 := (hv.pos _ _ ht).has_ne hR.has2
  have e3 := (hv.pos _ _ ht).has_ne hR.has3
  unfold Tri.vertexIndex
  rcases hR with rfl | rfl | rfl
  · simp [oppEdgeIdx, nextCwEdge, nextCcwEdge, Tri.n]
  · simp [e3, oppEdgeIdx, nextCwEdge, nextCcwEdge, Tri.n]
  · simp [Ne.symm e1, e3, oppEdgeIdx, nextCwEdge, nextCcwEdge, Tri.n]

/-- `swap_quad_diagonal` on a valid mesh swaps the diagonal. -/
theorem swapQuad_total (hv : Valid ts) {n : Nat} {v2t : List Nat} (hok : VertsIn (VOk n) ts) (hn : n ≤ INF0)
    (hV : V2tOk n ts v2t) {d : EdgeData} {S U : Tri} (hS : ts[d.f]? = some S) (hRS : Rot S p a b n2 d.t n1)
    (hU : ts[d.t]? = some U) (hRU : Rot U b a c d.f n3 n4) (hpc : p ≠ c) :
    ∃ ts' v2t', swapQuad ts v2t d ⟨a, b, c, p⟩ = .ok ⟨ts', v2t', n3, n1⟩ ∧
      FlipSpec ts ts' d.f d.t p a b c n1 n2 n3 n4 ∧ V2tOk n ts' v2t' := by
  obtain ⟨i1, i2, -⟩ := vertexIndex_rot3 hv hU hRU
  obtain ⟨k1, -, k2⟩ := vertexIndex_rot3 hv hS hRS.next.next
  obtain ⟨ts1, ts', u1, u2, hF⟩ := flip_total' hv hS hRS hU hRU (S' := ⟨c, p, a, d.t, n2, n3⟩)
    (U' := ⟨c, b, p, n4, n1, d.f⟩) (.inr (.inl rfl)) (.inr (.inr rfl)) hpc
  have va : VOk n a := by
    have := hok.get hS
    rcases hRS with rfl | rfl | rfl
    · exact this 1
    · exact this 2
    · exact this 0
  have vb : VOk n b := by
    have := hok.get hS
    rcases hRS with rfl | rfl | rfl
    · exact this 2
    · exact this 0
    · exact this 1
  obtain ⟨w1, s1, l1, g1⟩ := setV2t_total (t := d.f) hV.1 va
  obtain ⟨w2, s2, l2, g2⟩ := setV2t_total (t := d.t) l1 vb
  refine ⟨ts', w2, ?_, hF, l2, ?_⟩
  · unfold swapQuad
    simp only [getI_of hU, getI_of hS, Res.ok_bind, i1, i2, k1, k2, u1, u2, s1, s2]
  · intro v hvn hocc
    have hvf : v < INF0 := by omega
    rw [g2 v hvf]
    obtain ⟨t1, ht1, hR1⟩ := hF.hs'
    obtain ⟨t2, ht2, hR2⟩ := hF.ho'
    by_cases hb : v = b
    · rw [if_pos ⟨hb, hvn⟩]
      exact ⟨_, t2, rfl, ht2, hR2.hasVert.2 (by simp [hb])⟩
    rw [if_neg (fun h => hb h.1), g1 v hvf]
    by_cases ha : v = a
    · rw [if_pos ⟨ha, hvn⟩]
      exact ⟨_, t1, rfl, ht1, hR1.hasVert.2 (by simp [ha])⟩
    rw [if_neg (fun h => ha h.1)]
    have hocc' : Occ ts v := by
      obtain ⟨i, t, ht, hh⟩ := hocc
      by_cases his : i = d.f
      · subst his
        rw [ht] at ht1; simp at ht1; subst ht1
        rcases hR1.hasVert.1 hh with h | h | h
        · exact ⟨_, S, hS, hRS.hasVert.2 (by simp [h])⟩
        · exact absurd h.symm ha
        · exact ⟨_, U, hU, hRU.hasVert.2 (by simp [h])⟩
      · by_cases hio : i = d.t
        · subst hio
          rw [ht] at ht2; simp at ht2; subst ht2
          rcases hR2.hasVert.1 hh with h | h | h
          · exact ⟨_, S, hS, hRS.hasVert.2 (by simp [h])⟩
          · exact ⟨_, U, hU, hRU.hasVert.2 (by simp [h])⟩
          · exact absurd h.symm hb
        · obtain ⟨t0, ht0, e1, e2, e3⟩ := hF.verts_other his hio ht
          refine ⟨i, t0, ht0, ?_⟩
          rw [hasVert_iff] at hh ⊢
          rw [← e1, ← e2, ← e3]; exact hh
    obtain ⟨k, t, hk, ht, hh⟩ := hV.2 v hvn hocc'
    by_cases his : k = d.f
    · subst his
      rw [hS] at ht; simp at ht; subst ht
      rcases hRS.hasVert.1 hh with h | h | h
      · exact ⟨_, t1, hk, ht1, hR1.hasVert.2 (by simp [h])⟩
      · exact absurd h.symm ha
      · exact absurd h.symm hb
    · by_cases hio : k = d.t
      · subst hio
        rw [hU] at ht; simp at ht; subst ht
        rcases hRU.hasVert.1 hh with h | h | h
        · exact absurd h.symm hb
        · exact absurd h.symm ha
        · exact ⟨_, t2, hk, ht2, hR2.hasVert.2 (by simp [h])⟩
      · have hlt : k < ts'.length := by rw [hF.len]; exact lt_of_getElem? ht
        obtain ⟨t', ht', -⟩ := getI_lt hlt
        obtain ⟨t0, ht0, e1, e2, e3⟩ := hF.verts_other his hio ht'
        rw [ht] at ht0; simp at ht0; subst ht0
        refine ⟨k, t', hk, ht', ?_⟩
        rw [hasVert_iff] at hh ⊢
        rw [e1, e2, e3]; exact hh

/-- Effect of a swap on a queued edge that is not the swapped one. -/
theorem FlipSpec.eok_upd (hf : FlipSpec ts ts' s o p a b c n1 n2 n3 n4) (hv : Valid ts) (hpc : p ≠ c)
    {e : EdgeData} (he : EOk ts e) (hd : Dis ⟨s, o, ⟨a, b⟩⟩ e) :
    EOk ts' (e.upd n3 n1 s o) ∧ Dis ⟨s, o, ⟨c, p⟩⟩ (e.upd n3 n1 s o) ∧
      ((e.f ≠ s ∧ e.f ≠ o → (e.upd n3 n1 s o).f = e.f) ∧
       (e.f = s → e.edge = ⟨p, a⟩ ∧ (e.upd n3 n1 s o).f = s ∨ e.edge = ⟨b, p⟩ ∧ (e.upd n3 n1 s o).f = o) ∧
       (e.f = o → e.edge = ⟨a, c⟩ ∧ (e.upd n3 n1 s o).f = s ∨ e.edge = ⟨c, b⟩ ∧ (e.upd n3 n1 s o).f = o)) ∧
      ((e.t ≠ s ∧ e.t ≠ o → (e.upd n3 n1 s o).t = e.t) ∧
       (e.t = s ∨ e.t = o → (e.upd n3 n1 s o).t = s ∨ (e.upd n3 n1 s o).t = o)) := by
  obtain ⟨⟨a1, a2, a3, a4⟩, ⟨b1, b2, b3, b4⟩, c12, c34, c13⟩ := hf.outer_ne hv hpc
  have hso := hf.s_ne_o hv
  obtain ⟨ls, lo⟩ := hf.lt_none hv
  obtain ⟨ef, et, ⟨x, y⟩⟩ := e
  obtain ⟨hE, hn⟩ := he
  simp only at hE hn
  unfold Dis at hd
  simp only [not_or, not_and] at hd
  have D : ∀ x y : Nat, ∀ E E' : Edge, ¬ (s = x ∧ o = y) → ¬ (s = y ∧ o = x) → Dis ⟨s, o, E⟩ ⟨x, y, E'⟩ := by
    intro x y E E' h1 h2 h
    rcases h with h | h
    · exact h1 h
    · exact h2 h
  by_cases hs : ef = s
  · subst hs
    rcases hf.ent_s.1 hE with ⟨rfl, rfl, rfl⟩ | ⟨rfl, rfl, rfl⟩ | ⟨rfl, rfl, rfl⟩
    · have e : (⟨ef, n2, ⟨p, a⟩⟩ : EdgeData).upd n3 n1 ef o = ⟨ef, n2, ⟨p, a⟩⟩ := by grind [EdgeData.upd]
      rw [e]
      exact ⟨⟨hf.ent_s'.2 (by simp), hn⟩, D _ _ _ _ (by grind) (by grind), by grind, by grind⟩
    · exact absurd rfl (hd.1 rfl)
    · have e : (⟨ef, n1, ⟨b, p⟩⟩ : EdgeData).upd n3 n1 ef o = ⟨o, n1, ⟨b, p⟩⟩ := by grind [EdgeData.upd]
      rw [e]
      exact ⟨⟨hf.ent_o'.2 (by simp), hn⟩, D _ _ _ _ (by grind) (by grind), by grind, by grind⟩
  by_cases ho : ef = o
  · subst ho
    rcases hf.ent_o.1 hE with ⟨rfl, rfl, rfl⟩ | ⟨rfl, rfl, rfl⟩ | ⟨rfl, rfl, rfl⟩
    · exact absurd rfl (hd.2 rfl)
    · have e : (⟨ef, n3, ⟨a, c⟩⟩ : EdgeData).upd n3 n1 s ef = ⟨s, n3, ⟨a, c⟩⟩ := by grind [EdgeData.upd]
      rw [e]
      exact ⟨⟨hf.ent_s'.2 (by simp), hn⟩, D _ _ _ _ (by grind) (by grind), by grind, by grind⟩
    · have e : (⟨ef, n4, ⟨c, b⟩⟩ : EdgeData).upd n3 n1 s ef = ⟨ef, n4, ⟨c, b⟩⟩ := by grind [EdgeData.upd]
      rw [e]
      exact ⟨⟨hf.ent_o'.2 (by simp), hn⟩, D _ _ _ _ (by grind) (by grind), by grind, by grind⟩
  · -- the first triangle is outside the quad
    have hr := hv.ent_pos hE hn
    have hin : ef ≠ NONE := by have := hE.lt; have := hv.len; omega
    by_cases ts1 : et = s
    · subst ts1
      rcases hf.ent_s.1 hr with ⟨rfl, rfl, rfl⟩ | ⟨_, _, rfl⟩ | ⟨rfl, rfl, rfl⟩
      · have e : (⟨n2, et, ⟨a, p⟩⟩ : EdgeData).upd n3 n1 et o = ⟨n2, et, ⟨a, p⟩⟩ := by grind [EdgeData.upd]
        rw [e]
        exact ⟨⟨(hf.ent_other hv hs ho).2 ⟨_, hE, by grind⟩, hn⟩, D _ _ _ _ (by grind) (by grind), by grind, by grind⟩
      · exact absurd rfl ho
      · have e : (⟨n1, et, ⟨p, b⟩⟩ : EdgeData).upd n3 n1 et o = ⟨n1, o, ⟨p, b⟩⟩ := by grind [EdgeData.upd]
        rw [e]
        exact ⟨⟨(hf.ent_other hv hs ho).2 ⟨_, hE, by grind⟩, by simp only; omega⟩, D _ _ _ _ (by grind) (by grind), by grind, by grind⟩
    by_cases ts2 : et = o
    · subst ts2
      rcases hf.ent_o.1 hr with ⟨_, _, rfl⟩ | ⟨rfl, rfl, rfl⟩ | ⟨rfl, rfl, rfl⟩
      · exact absurd rfl hs
      · have e : (⟨n3, et, ⟨c, a⟩⟩ : EdgeData).upd n3 n1 s et = ⟨n3, s, ⟨c, a⟩⟩ := by grind [EdgeData.upd]
        rw [e]
        exact ⟨⟨(hf.ent_other hv hs ho).2 ⟨_, hE, by grind⟩, by simp only; omega⟩, D _ _ _ _ (by grind) (by grind), by grind, by grind⟩
      · have e : (⟨n4, et, ⟨b, c⟩⟩ : EdgeData).upd n3 n1 s et = ⟨n4, et, ⟨b, c⟩⟩ := by grind [EdgeData.upd]
        rw [e]
        exact ⟨⟨(hf.ent_other hv hs ho).2 ⟨_, hE, by grind⟩, hn⟩, D _ _ _ _ (by grind) (by grind), by grind, by grind⟩
    · have e : (⟨ef, et, ⟨x, y⟩⟩ : EdgeData).upd n3 n1 s o = ⟨ef, et, ⟨x, y⟩⟩ := by grind [EdgeData.upd]
      rw [e]
      exact ⟨⟨(hf.ent_other hv hs ho).2 ⟨_, hE, by grind⟩, hn⟩, D _ _ _ _ (by grind) (by grind), by grind, by grind⟩

/-- Different edges stay different. -/
theorem FlipSpec.dis_upd (hf : FlipSpec ts ts' s o p a b c n1 n2 n3 n4) (hv : Valid ts) (hv' : Valid ts')
    (hpc : p ≠ c) {e e' : EdgeData} (he : EOk ts e) (hd : Dis ⟨s, o, ⟨a, b⟩⟩ e) (he' : EOk ts e')
    (hd' : Dis ⟨s, o, ⟨a, b⟩⟩ e') (h : Dis e e') : Dis (e.upd n3 n1 s o) (e'.upd n3 n1 s o) := by
  obtain ⟨k1, -, m1, r1⟩ := hf.eok_upd hv hpc he hd
  -- the same statement for parallel entries
  have key : ∀ e' : EdgeData, EOk ts e' → Dis ⟨s, o, ⟨a, b⟩⟩ e' → (e.upd n3 n1 s o).f = (e'.upd n3 n1 s o).f →
      (e.upd n3 n1 s o).t = (e'.upd n3 n1 s o).t → e.f = e'.f ∧ e.t = e'.t := by
    intro e' he' hd' h1 h2
    obtain ⟨k2, -, m2, r2⟩ := hf.eok_upd hv hpc he' hd'
    have hs := hf.s_ne_o hv
    have k1' := k1.1
    have k2' := k2.1
    rw [upd_fields] at k1' k2'
    rw [← h1, ← h2] at k2'
    obtain ⟨e1, e2⟩ := hv'.nb_unique k1' k2' k1.2
    have eq : e.edge = e'.edge := by
      cases hh : e.edge; cases hh' : e'.edge; rw [hh, hh'] at e1 e2; simp only at e1 e2; rw [e1, e2]
    have hff : e.f = e'.f := by
      obtain ⟨S, hS, hRS⟩ := hf.hs
      obtain ⟨U, hU, hRU⟩ := hf.ho
      have pa := (hv.pos _ _ hS).has_ne hRS.has1
      have ab := (hv.pos _ _ hS).has_ne hRS.has2
      have bp := (hv.pos _ _ hS).has_ne hRS.has3
      have ac := (hv.pos _ _ hU).has_ne hRU.has2
      have cb := (hv.pos _ _ hU).has_ne hRU.has3
      by_cases q1 : e.f = s
      · by_cases q2 : e'.f = s
        · rw [q1, q2]
        · exfalso
          by_cases q3 : e'.f = o
          · rcases m1.2.1 q1 with ⟨g, -⟩ | ⟨g, -⟩ <;> rcases m2.2.2 q3 with ⟨g', -⟩ | ⟨g', -⟩ <;>
              rw [eq, g'] at g <;> simp at g
            · exact pa g.1.symm
            · exact hpc g.1.symm
            · exact ab g.1
            · exact cb g.1
          · have := m2.1 ⟨q2, q3⟩
            rw [← h1] at this
            rcases m1.2.1 q1 with ⟨_, g⟩ | ⟨_, g⟩
            · exact q2 (this.symm.trans g)
            · exact q3 (this.symm.trans g)
      · by_cases q1' : e.f = o
        · by_cases q2 : e'.f = o
          · rw [q1', q2]
          · exfalso
            by_cases q3 : e'.f = s
            · rcases m2.2.1 q3 with ⟨g, -⟩ | ⟨g, -⟩ <;> rcases m1.2.2 q1' with ⟨g', -⟩ | ⟨g', -⟩ <;>
                rw [← eq, g'] at g <;> simp at g
              · exact pa g.1.symm
              · exact hpc g.1.symm
              · exact ab g.1
              · exact cb g.1
            · have := m2.1 ⟨q3, q2⟩
              rw [← h1] at this
              rcases m1.2.2 q1' with ⟨_, g⟩ | ⟨_, g⟩
              · exact q3 (this.symm.trans g)
              · exact q2 (this.symm.trans g)
        · have := m1.1 ⟨q1, q1'⟩
          by_cases q2 : e'.f = s
          · exfalso
            rcases m2.2.1 q2 with ⟨_, g⟩ | ⟨_, g⟩
            · exact q1 (this.symm.trans (h1.trans g))
            · exact q1' (this.symm.trans (h1.trans g))
          · by_cases q3 : e'.f = o
            · exfalso
              rcases m2.2.2 q3 with ⟨_, g⟩ | ⟨_, g⟩
              · exact q1 (this.symm.trans (h1.trans g))
              · exact q1' (this.symm.trans (h1.trans g))
            · rw [← this, h1, m2.1 ⟨q2, q3⟩]
    refine ⟨hff, ?_⟩
    have x1 := he.1
    have x2 := he'.1
    rw [← eq, ← hff] at x2
    exact hv.ent_nb x1 x2
  rintro (⟨h1, h2⟩ | ⟨h1, h2⟩)
  · exact h (.inl (key e' he' hd' h1 h2))
  · -- reversed entry
    let e2 : EdgeData := ⟨e'.t, e'.f, ⟨e'.edge.dst, e'.edge.src⟩⟩
    have ok2 : EOk ts e2 := ⟨hv.ent_pos he'.1 he'.2, by
      show e'.f ≠ NONE
      have := he'.1.lt; have := hv.len; omega⟩
    have d2 : Dis ⟨s, o, ⟨a, b⟩⟩ e2 := by
      rintro (⟨g1, g2⟩ | ⟨g1, g2⟩)
      · exact hd' (.inr ⟨g1, g2⟩)
      · exact hd' (.inl ⟨g1, g2⟩)
    have rev : (e2.upd n3 n1 s o).f = (e'.upd n3 n1 s o).t ∧ (e2.upd n3 n1 s o).t = (e'.upd n3 n1 s o).f := by
      simp only [e2]
      obtain ⟨⟨a1, a2, a3, a4⟩, ⟨b1, b2, b3, b4⟩, c12, c34, c13⟩ := hf.outer_ne hv hpc
      have hs := hf.s_ne_o hv
      clear * - a1 a2 a3 a4 b1 b2 b3 b4 c12 c34 c13 hs
      grind [EdgeData.upd]
    have := key e2 ok2 d2 (h1.trans rev.1.symm) (h2.trans rev.2.symm)
    exact h (.inr this)

/-- A swap of the head of the queue. -/
theorem queue_swap {P Q : List EdgeData} {d : EdgeData} (h : QInv ts P (d :: Q))
    (hf : FlipSpec ts ts' d.f d.t p a b c n1 n2 n3 n4) (hv : Valid ts) (hv' : Valid ts') (hpc : p ≠ c)
    (hd : d.edge = ⟨a, b⟩) :
    QInv ts' (P.map (·.upd n3 n1 d.f d.t)) (Q.map (·.upd n3 n1 d.f d.t) ++ [⟨d.f, d.t, ⟨c, p⟩⟩]) := by
  have dQ : ∀ e ∈ Q, Dis ⟨d.f, d.t, ⟨a, b⟩⟩ e := fun e he => (List.pairwise_cons.1 h.disQ).1 e he
  have dP : ∀ e ∈ P, Dis ⟨d.f, d.t, ⟨a, b⟩⟩ e := fun e he => h.disP e he d (by simp)
  have oQ : ∀ e ∈ Q, EOk ts e := fun e he => h.okQ e (by simp [he])
  refine ⟨?_, ?_, ?_, ?_⟩
  · intro e he
    obtain ⟨e0, h0, rfl⟩ := List.mem_map.1 he
    exact (hf.eok_upd hv hpc (h.okP _ h0) (dP _ h0)).1
  · intro e he
    rcases List.mem_append.1 he with he | he
    · obtain ⟨e0, h0, rfl⟩ := List.mem_map.1 he
      exact (hf.eok_upd hv hpc (oQ _ h0) (dQ _ h0)).1
    · simp at he; subst he
      refine ⟨hf.ent_s'.2 (by simp), (h.okQ d (by simp)).2⟩
  · rw [List.pairwise_append]
    refine ⟨?_, by simp, ?_⟩
    · rw [List.pairwise_map]
      refine List.Pairwise.imp_of_mem ?_ (List.pairwise_cons.1 h.disQ).2
      intro e e' he he' hd
      exact hf.dis_upd hv hv' hpc (oQ _ he) (dQ _ he) (oQ _ he') (dQ _ he') hd
    · intro e he e' he'
      simp at he'; subst he'
      obtain ⟨e0, h0, rfl⟩ := List.mem_map.1 he
      exact (hf.eok_upd hv hpc (oQ _ h0) (dQ _ h0)).2.1.symm
  · intro e he q hq
    obtain ⟨e0, h0, rfl⟩ := List.mem_map.1 he
    rcases List.mem_append.1 hq with hq | hq
    · obtain ⟨q0, hq0, rfl⟩ := List.mem_map.1 hq
      exact hf.dis_upd hv hv' hpc (oQ _ hq0) (dQ _ hq0) (h.okP _ h0) (dP _ h0) (h.disP _ h0 _ (by simp [hq0]))
    · simp at hq; subst hq
      exact (hf.eok_upd hv hpc (h.okP _ h0) (dP _ h0)).2.1

end Comb
end CDT

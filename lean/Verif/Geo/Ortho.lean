import Verif.Geo.Corner
import Verif.Props.Framed

/-! # Points with a vertex in each quadrant are not in unbounded triangles -/

set_option linter.unusedSectionVars false
set_option linter.unusedSimpArgs false
set_option linter.unusedVariables false

namespace CDT

section
variable {K : Type} [Field K] [LinearOrder K] [IsStrictOrderedRing K] [ExactParams K] [IdCfg]
variable {vs : List (Vtx K)} {ts : List Tri}

/-- Facts about a mesh without constraints. -/
structure ChainMesh (vs : List (Vtx K)) (ts : List Tri) : Prop where
  valid : Valid (hp vs) ts
  tiled : Tiled vs ts
  convex : Convexish vs ts
  inf : ∀ q, Occ ts q → ¬ q < INF0 → ∃ k : Fin 4, q = INF0 + k
  outer : ∀ k : Fin 4, ∃ i, Ent ts i (INF0 + k) (INF0 + (k + 1 : Fin 4)) NONE

/-- There is a vertex in the closed quadrant `k` of the point. -/
def QuadC (vs : List (Vtx K)) (ts : List Tri) (g : HP K) (k : Fin 4) : Prop :=
  ∃ w, Occ ts w ∧ w < INF0 ∧ (HP.dir k).out g ≤ (HP.dir k).out (hp vs w) ∧ (HP.dir (k + 1)).out g ≤ (HP.dir (k + 1)).out (hp vs w)

/-- There is a vertex in the open quadrant `k` of the point. -/
def QuadO (vs : List (Vtx K)) (ts : List Tri) (g : HP K) (k : Fin 4) : Prop :=
  ∃ w, Occ ts w ∧ w < INF0 ∧ (HP.dir k).out g < (HP.dir k).out (hp vs w) ∧ (HP.dir (k + 1)).out g < (HP.dir (k + 1)).out (hp vs w)

/-- Of a vertex before a place on a link, one that is at least as far out and not outside the link. -/
theorem link_before (hM : ChainMesh vs ts) {k : Fin 4} {b a w : Nat} {t : K} (hT : TriIn ts b a (INF0 + k)) (hb : b < INF0) (ha : a < INF0)
    (h1 : (HP.dir k).along (hp vs b) ≤ t) (h2 : t ≤ (HP.dir k).along (hp vs a)) (ow : Occ ts w) (fw : w < INF0)
    (hw : (HP.dir k).along (hp vs w) ≤ t) : ∃ p, p < INF0 ∧ (HP.dir k).along (hp vs p) ≤ t ∧ (HP.dir k).out (hp vs w) ≤ (HP.dir k).out (hp vs p) ∧
      HP.o (hp vs b) (hp vs a) (hp vs p) ≤ 0 := by
  obtain ⟨hv, ht, hC, hinf, hout⟩ := hM
  have ok := chain_ok hv ht (inf_ge k)
  obtain ⟨v, fv, c1⟩ := cone_get hv hout k
  obtain ⟨v', fv', c2⟩ := cone_get hv hout (k + 3)
  rw [fin_add31] at c2
  obtain ⟨a2, hN2⟩ := ok.next _ _ hT ha
  have ha0 := chain_end hv ht c2 hN2 ha
  have hb0 := chain_start hv ht c1 (show chN ts (INF0 + k) b a from hT) hb
  rcases le_or_gt ((HP.dir k).along (hp vs v)) ((HP.dir k).along (hp vs w)) with hc | hc
  · exact ⟨w, fw, hw, le_rfl, range_below hv ht hC hinf hT hb ha c1 c2 ow fw hc (by linarith)⟩
  · obtain ⟨d, hd⟩ := ok.next (INF0 + (k + 1 : Fin 4)) v c1.next.next fv
    refine ⟨v, fv, by linarith, ?_, link_below hC hT hb ha hd fv⟩
    by_contra hn
    have : w = v := cone_empty hv ht c1 ow fw (by linarith) (by rw [dir_along, dir_along] at hc; linarith)
    subst this
    exact lt_irrefl _ hc

/-- The same for a vertex after a place on a link. -/
theorem link_after (hM : ChainMesh vs ts) {k : Fin 4} {b a w : Nat} {t : K} (hT : TriIn ts b a (INF0 + k)) (hb : b < INF0) (ha : a < INF0)
    (h1 : (HP.dir k).along (hp vs b) ≤ t) (h2 : t ≤ (HP.dir k).along (hp vs a)) (ow : Occ ts w) (fw : w < INF0)
    (hw : t ≤ (HP.dir k).along (hp vs w)) : ∃ p, p < INF0 ∧ t ≤ (HP.dir k).along (hp vs p) ∧ (HP.dir k).out (hp vs w) ≤ (HP.dir k).out (hp vs p) ∧
      HP.o (hp vs b) (hp vs a) (hp vs p) ≤ 0 := by
  obtain ⟨hv, ht, hC, hinf, hout⟩ := hM
  have ok := chain_ok hv ht (inf_ge k)
  obtain ⟨v, fv, c1⟩ := cone_get hv hout k
  obtain ⟨v', fv', c2⟩ := cone_get hv hout (k + 3)
  have E2 := fun q oq fq => cone_empty (q := q) hv ht c2 oq fq
  rw [fin_add31] at c2 E2
  obtain ⟨a2, hN2⟩ := ok.next _ _ hT ha
  have ha0 := chain_end hv ht c2 hN2 ha
  have hb0 := chain_start hv ht c1 (show chN ts (INF0 + k) b a from hT) hb
  rcases le_or_gt ((HP.dir k).along (hp vs w)) ((HP.dir k).along (hp vs v')) with hc | hc
  · exact ⟨w, fw, hw, le_rfl, range_below hv ht hC hinf hT hb ha c1 c2 ow fw (by linarith) hc⟩
  · refine ⟨v', fv', by linarith, ?_, link_below hC hT hb ha (show chN ts (INF0 + k) v' _ from c2) fv'⟩
    by_contra hn
    have : w = v' := E2 w ow fw (by rw [← dir_along', ← dir_along']; exact hc.le) (by linarith)
    subst this
    exact lt_irrefl _ hc

/-- Where a point is in a triangle with one artificial vertex, no vertex is outside of the link: if for each quadrant the corner is
extreme, or a vertex is inside it, or the point is outside of the link and a vertex is in the closed quadrant. -/
theorem link_absurd (hM : ChainMesh vs ts) {g : HP K} (hg : g.w = 1) {k : Fin 4} {b a p : Nat} (hT : TriIn ts b a (INF0 + k))
    (hb : b < INF0) (ha : a < INF0) (h1 : 0 ≤ HP.o (hp vs b) (hp vs a) g)
    (h2 : 0 ≤ HP.o (hp vs a) (hp vs (INF0 + k)) g) (h3 : 0 ≤ HP.o (hp vs (INF0 + k)) (hp vs b) g)
    (hS : ∀ k, Extreme vs ts k ∨ QuadO vs ts g k ∨ (0 < HP.o (hp vs b) (hp vs a) g ∧ QuadC vs ts g k))
    (op : Occ ts p) (fp : p < INF0) : HP.o (hp vs b) (hp vs a) (hp vs p) ≤ 0 := by
  have hM' := hM
  obtain ⟨hv, ht, hC, hinf, hout⟩ := hM
  have zi := inf_ge k
  have zu := hp_unit vs zi
  have wz := hp_w_inf vs zi
  rw [hp_inf] at zu wz
  have ok := chain_ok hv ht zi
  obtain ⟨v, fv, c1⟩ := cone_get hv hout k
  obtain ⟨v', fv', c2⟩ := cone_get hv hout (k + 3)
  have E1 := fun q oq fq => cone_empty (q := q) hv ht c1 oq fq
  have E2 := fun q oq fq => cone_empty (q := q) hv ht c2 oq fq
  rw [fin_add31] at c2 E2
  have wb := hp_w_fin vs hb
  have wa := hp_w_fin vs ha
  have wp := hp_w_fin vs fp
  have hab := link_lt hv ht hT hb ha
  have tb : (HP.dir k).along (hp vs b) ≤ (HP.dir k).along g := by
    rw [hp_inf, HP.o_cyc' (hp vs b) g, HP.o_along wb hg wz] at h3; linarith
  have ta : (HP.dir k).along g ≤ (HP.dir k).along (hp vs a) := by
    rw [hp_inf, HP.o_cyc g (hp vs a), HP.o_along hg wa wz] at h2; linarith
  rcases lt_or_ge ((HP.dir k).along (hp vs p)) ((HP.dir k).along (hp vs v)) with l1 | l1
  · rcases hS k with hE | hS
    · exact hE.start hv ht hC hT hb ha op fp c1 l1
    -- a vertex before the point that is further out
    obtain ⟨q, fq, q1, q2, q3⟩ : ∃ q, q < INF0 ∧ (HP.dir k).along (hp vs q) ≤ (HP.dir k).along g ∧
        ((HP.dir k).out g < (HP.dir k).out (hp vs q) ∨ ((HP.dir k).out g ≤ (HP.dir k).out (hp vs q) ∧ 0 < HP.o (hp vs b) (hp vs a) g)) ∧
        HP.o (hp vs b) (hp vs a) (hp vs q) ≤ 0 := by
      rcases hS with ⟨w, ow, fw, w1, w2⟩ | ⟨hs, w, ow, fw, w1, w2⟩
      · obtain ⟨q, fq, q1, q2, q3⟩ := link_before hM' hT hb ha tb ta ow fw (by rw [dir_along, dir_along]; linarith)
        exact ⟨q, fq, q1, .inl (by linarith), q3⟩
      · obtain ⟨q, fq, q1, q2, q3⟩ := link_before hM' hT hb ha tb ta ow fw (by rw [dir_along, dir_along]; linarith)
        exact ⟨q, fq, q1, .inr ⟨by linarith, hs⟩, q3⟩
    have hsp : (HP.dir k).out (hp vs p) ≤ (HP.dir k).out (hp vs v) := by
      by_contra hn
      have : p = v := E1 p op fp (by linarith) (by rw [dir_along, dir_along] at l1; linarith)
      subst this
      exact lt_irrefl _ l1
    obtain ⟨d, hd⟩ := ok.next (INF0 + (k + 1 : Fin 4)) v c1.next.next fv
    have bv := link_below hC hT hb ha hd fv
    rw [HP.o_out wb wa (hp_w_fin vs fv) zu] at bv
    rw [HP.o_out wb wa (hp_w_fin vs fq) zu] at q3
    rw [HP.o_out wb wa hg zu] at h1 q2
    rw [HP.o_out wb wa wp zu]
    clear E1 E2 hS
    generalize (HP.dir k).along (hp vs b) = xb at *
    generalize (HP.dir k).along (hp vs a) = xa at *
    generalize (HP.dir k).along (hp vs p) = xp at *
    generalize (HP.dir k).along (hp vs q) = xq at *
    generalize (HP.dir k).along (hp vs v) = xv at *
    generalize (HP.dir k).along g = xg at *
    generalize (HP.dir k).out (hp vs b) = sb at *
    generalize (HP.dir k).out (hp vs a) = sa at *
    generalize (HP.dir k).out (hp vs p) = sp at *
    generalize (HP.dir k).out (hp vs q) = sq at *
    generalize (HP.dir k).out (hp vs v) = sv at *
    generalize (HP.dir k).out g = sg at *
    have hd := sub_pos.2 hab
    have hs : sa < sb := by
      by_contra hs
      have := mul_nonneg (sub_nonneg.2 (not_lt.1 hs)) (sub_nonneg.2 q1)
      rcases q2 with q2 | ⟨q2, hs'⟩
      · have := mul_pos (sub_pos.2 q2) hd
        nlinarith
      · have := mul_nonneg (sub_nonneg.2 q2) hd.le
        nlinarith
    have := mul_pos (sub_pos.2 hs) (sub_pos.2 l1)
    have := mul_nonneg (sub_nonneg.2 hsp) hd.le
    nlinarith
  · rcases lt_or_ge ((HP.dir k).along (hp vs v')) ((HP.dir k).along (hp vs p)) with l2 | l2
    · rcases hS (k + 3) with hE | hS
      · exact hE.end hv ht hC hT hb ha op fp c2 l2
      obtain ⟨q, fq, q1, q2, q3⟩ : ∃ q, q < INF0 ∧ (HP.dir k).along g ≤ (HP.dir k).along (hp vs q) ∧
          ((HP.dir k).out g < (HP.dir k).out (hp vs q) ∨ ((HP.dir k).out g ≤ (HP.dir k).out (hp vs q) ∧ 0 < HP.o (hp vs b) (hp vs a) g)) ∧
          HP.o (hp vs b) (hp vs a) (hp vs q) ≤ 0 := by
        rcases hS with ⟨w, ow, fw, w1, w2⟩ | ⟨hs, w, ow, fw, w1, w2⟩
        · rw [fin_add31] at w2
          obtain ⟨q, fq, q1, q2, q3⟩ := link_after hM' hT hb ha tb ta ow fw (by rw [dir_along', dir_along']; exact w1.le)
          exact ⟨q, fq, q1, .inl (by linarith), q3⟩
        · rw [fin_add31] at w2
          obtain ⟨q, fq, q1, q2, q3⟩ := link_after hM' hT hb ha tb ta ow fw (by rw [dir_along', dir_along']; exact w1)
          exact ⟨q, fq, q1, .inr ⟨by linarith, hs⟩, q3⟩
      have hsp : (HP.dir k).out (hp vs p) ≤ (HP.dir k).out (hp vs v') := by
        by_contra hn
        have : p = v' := E2 p op fp (by rw [← dir_along', ← dir_along']; exact l2.le) (by linarith)
        subst this
        exact lt_irrefl _ l2
      have bv := link_below hC hT hb ha (show chN ts (INF0 + k) v' _ from c2) fv'
      rw [HP.o_out wb wa (hp_w_fin vs fv') zu] at bv
      rw [HP.o_out wb wa (hp_w_fin vs fq) zu] at q3
      rw [HP.o_out wb wa hg zu] at h1 q2
      rw [HP.o_out wb wa wp zu]
      clear E1 E2 hS
      generalize (HP.dir k).along (hp vs b) = xb at *
      generalize (HP.dir k).along (hp vs a) = xa at *
      generalize (HP.dir k).along (hp vs p) = xp at *
      generalize (HP.dir k).along (hp vs q) = xq at *
      generalize (HP.dir k).along (hp vs v') = xv at *
      generalize (HP.dir k).along g = xg at *
      generalize (HP.dir k).out (hp vs b) = sb at *
      generalize (HP.dir k).out (hp vs a) = sa at *
      generalize (HP.dir k).out (hp vs p) = sp at *
      generalize (HP.dir k).out (hp vs q) = sq at *
      generalize (HP.dir k).out (hp vs v') = sv at *
      generalize (HP.dir k).out g = sg at *
      have hd := sub_pos.2 hab
      have hs : sb < sa := by
        by_contra hs
        have := mul_nonneg (sub_nonneg.2 (not_lt.1 hs)) (sub_nonneg.2 q1)
        rcases q2 with q2 | ⟨q2, hs'⟩
        · have := mul_pos (sub_pos.2 q2) hd
          nlinarith
        · have := mul_nonneg (sub_nonneg.2 q2) hd.le
          nlinarith
      have := mul_pos (sub_pos.2 hs) (sub_pos.2 l2)
      have := mul_nonneg (sub_nonneg.2 hsp) hd.le
      nlinarith
    · exact range_below hv ht hC hinf hT hb ha c1 c2 op fp l1 l2

/-- The place of a point in a triangle with two artificial vertices. -/
theorem cone_in (hv : Valid (hp vs) ts) {g : HP K} (hg : g.w = 1) {k : Fin 4} {v : Nat} (fv : v < INF0)
    (h1 : 0 ≤ HP.o (hp vs v) (hp vs (INF0 + k)) g) (h3 : 0 ≤ HP.o (hp vs (INF0 + (k + 1 : Fin 4))) (hp vs v) g) :
    (HP.dir k).out (hp vs v) ≤ (HP.dir k).out g ∧ (HP.dir (k + 1)).out (hp vs v) ≤ (HP.dir (k + 1)).out g := by
  have wv := hp_w_fin vs fv
  rw [hp_inf] at h1 h3
  constructor
  · fin_cases k <;> simp [HP.o, HP.dir, HP.out, wv, hg] at h3 ⊢ <;> linarith
  · fin_cases k <;> simp [HP.o, HP.dir, HP.out, wv, hg] at h1 ⊢ <;> linarith

/-- A point strictly inside the convex hull, with a vertex inside each quadrant whose corners are not extreme, is only in triangles
without an artificial vertex. -/
theorem ChainMesh.finite (hM : ChainMesh vs ts) {g : HP K} (hg : g.w = 1)
    (hull : ∀ P Q : HP K, (∃ X : HP K, 0 < HP.o P Q X) → (∀ q, Occ ts q → q < INF0 → HP.o P Q (hp vs q) ≤ 0) → HP.o P Q g < 0)
    (hS : ∀ k, Extreme vs ts k ∨ QuadO vs ts g k) {a b c : Nat} (hT : TriIn ts a b c)
    (h1 : 0 ≤ HP.o (hp vs a) (hp vs b) g) (h2 : 0 ≤ HP.o (hp vs b) (hp vs c) g) (h3 : 0 ≤ HP.o (hp vs c) (hp vs a) g) :
    a < INF0 ∧ b < INF0 ∧ c < INF0 := by
  have cone : ∀ {k l : Fin 4} {v : Nat}, TriIn ts v (INF0 + k) (INF0 + l) → 0 ≤ HP.o (hp vs v) (hp vs (INF0 + k)) g →
      0 ≤ HP.o (hp vs (INF0 + l)) (hp vs v) g → False := by
    intro k l v hT h1 h3
    obtain ⟨fv, rfl⟩ := cone_dir hM.valid hT
    obtain ⟨e1, e2⟩ := cone_in hM.valid hg fv h1 h3
    have wv := hp_w_fin vs fv
    rcases hS k with hE | ⟨w, ow, fw, l1, l2⟩
    · rcases hE v hT.occ fv fun q oq fq => cone_empty hM.valid hM.tiled hT oq fq with h | h
      · have := hull (hp vs (INF0 + (k + 1 : Fin 4))) (hp vs v) ⟨_, (hT.next.next).pos hM.valid⟩ fun q oq fq => by
          have wq := hp_w_fin vs fq
          have := h q oq fq
          rw [hp_inf]
          fin_cases k <;> simp [HP.o, HP.dir, HP.out, wv, wq] at this ⊢ <;> linarith
        linarith
      · have := hull (hp vs v) (hp vs (INF0 + k)) ⟨_, hT.pos hM.valid⟩ fun q oq fq => by
          have wq := hp_w_fin vs fq
          have := h q oq fq
          rw [hp_inf]
          fin_cases k <;> simp [HP.o, HP.dir, HP.out, wv, wq] at this ⊢ <;> linarith
        linarith
    · have := cone_empty hM.valid hM.tiled hT ow fw (by linarith) (by linarith)
      subst this
      linarith
  have key : ∀ {a b c : Nat}, TriIn ts a b c → 0 ≤ HP.o (hp vs a) (hp vs b) g → 0 ≤ HP.o (hp vs b) (hp vs c) g →
      0 ≤ HP.o (hp vs c) (hp vs a) g → c < INF0 := by
    intro a b c hT h1 h2 h3
    by_contra fc
    obtain ⟨k, rfl⟩ := hM.inf c hT.next.next.occ fc
    by_cases fb : b < INF0
    · by_cases fa : a < INF0
      · have := hull (hp vs a) (hp vs b) ⟨_, hT.pos hM.valid⟩ fun q oq fq =>
          link_absurd hM hg hT fa fb h1 h2 h3 (fun k => (hS k).imp id .inl) oq fq
        linarith
      · obtain ⟨l, rfl⟩ := hM.inf a hT.occ fa
        exact cone hT.next h2 h1
    · obtain ⟨l, rfl⟩ := hM.inf b hT.next.occ fb
      exact cone hT h1 h3
  exact ⟨key hT.next h2 h3 h1, key hT.next.next h3 h1 h2, key hT h1 h2 h3⟩

/-- A segment between vertices does not cross an unbounded edge if for its points there is a vertex in each closed quadrant whose corners
are not extreme. -/
theorem ChainMesh.no_cross (hM : ChainMesh vs ts) {x y z a b : Nat} (fx : x < INF0) (hy : ¬ y < INF0) (hT : TriIn ts x y z ∨ TriIn ts y x z)
    (oa : Occ ts a) (fa : a < INF0) (ob : Occ ts b) (fb : b < INF0)
    (hS : ∀ g : HP K, g.w = 1 → (∃ r : K, 0 < r ∧ r < 1 ∧ g.x = (hp vs a).x + r * ((hp vs b).x - (hp vs a).x) ∧
      g.y = (hp vs a).y + r * ((hp vs b).y - (hp vs a).y)) → ∀ k, Extreme vs ts k ∨ QuadC vs ts g k)
    (hc : HP.Cross (hp vs a) (hp vs b) (hp vs x) (hp vs y)) : False := by
  have wa := hp_w_fin vs fa
  have wb := hp_w_fin vs fb
  have wx := hp_w_fin vs fx
  have w0 := hp_w_inf vs hy
  obtain ⟨s, r, hs, r0, r1, e1, e2⟩ := cross_point wa wb wx w0 hc
  have hne : HP.o (hp vs a) (hp vs b) (hp vs x) ≠ 0 := by
    intro e; have := hc.1; rw [e] at this; simp at this
  obtain ⟨l, rfl⟩ := hM.inf y (by rcases hT with h | h; exacts [h.next.occ, h.occ]) hy
  let g : HP K := ⟨(hp vs x).x + s * (hp vs (INF0 + l)).x, (hp vs x).y + s * (hp vs (INF0 + l)).y, 1⟩
  have hg : g.w = 1 := rfl
  have hSg := hS g rfl ⟨r, r0, r1, e1, e2⟩
  have cmb : ∀ P Q : HP K, HP.o P Q g = (1 - r) * HP.o P Q (hp vs a) + r * HP.o P Q (hp vs b) := by
    intro P Q
    simp only [g, HP.o, e1, e2, wa, wb]; ring
  have mv : ∀ P Q : HP K, HP.o P Q g = HP.o P Q (hp vs x) + s * HP.o P Q (hp vs (INF0 + l)) := by
    intro P Q
    simp only [g, HP.o, wx, w0]; ring
  have line : ∀ P Q Z : HP K, 0 < HP.o P Q Z → HP.o P Q (hp vs x) = 0 → HP.o P Q (hp vs a) ≤ 0 → HP.o P Q (hp vs b) ≤ 0 →
      0 ≤ HP.o P Q g → False := by
    intro P Q Z hZ hx ha hb hgg
    rw [cmb] at hgg
    have m1 := mul_nonpos_of_nonneg_of_nonpos (sub_nonneg.2 r1.le) ha
    have m2 := mul_nonpos_of_nonneg_of_nonpos r0.le hb
    have za : HP.o P Q (hp vs a) = 0 := (mul_eq_zero.1 (by linarith : (1 - r) * HP.o P Q (hp vs a) = 0)).resolve_left (by linarith)
    have zb : HP.o P Q (hp vs b) = 0 := (mul_eq_zero.1 (by linarith : r * HP.o P Q (hp vs b) = 0)).resolve_left r0.ne'
    have e : HP.o (hp vs a) (hp vs b) (hp vs x) * HP.o P Q Z = HP.o (hp vs b) (hp vs x) Z * HP.o P Q (hp vs a) +
        HP.o (hp vs x) (hp vs a) Z * HP.o P Q (hp vs b) + HP.o (hp vs a) (hp vs b) Z * HP.o P Q (hp vs x) := by
      simp only [HP.o]; ring
    rw [za, zb, hx] at e
    simp only [mul_zero, add_zero] at e
    exact (mul_ne_zero hne hZ.ne') e
  have cone : ∀ {k m : Fin 4}, TriIn ts x (INF0 + k) (INF0 + m) → (l = k ∨ l = m) → False := by
    intro k m hT hl
    obtain ⟨-, rfl⟩ := cone_dir hM.valid hT
    have pos := hT.pos hM.valid
    have pos' := hT.next.next.pos hM.valid
    have q1 : 0 ≤ HP.o (hp vs x) (hp vs (INF0 + k)) g := by
      rw [mv, HP.o_same'']
      rcases hl with rfl | rfl
      · rw [HP.o_same']; simp
      · have := mul_pos hs pos
        linarith
    have q3 : 0 ≤ HP.o (hp vs (INF0 + (k + 1 : Fin 4))) (hp vs x) g := by
      rw [mv, HP.o_same']
      rcases hl with rfl | rfl
      · have := mul_pos hs pos'
        linarith
      · rw [HP.o_same'']; simp
    obtain ⟨i1, i2⟩ := cone_in hM.valid hg fx q1 q3
    rcases hSg k with hE | ⟨w, ow, fw, l1, l2⟩
    · rcases hE x hT.occ fx fun q oq fq => cone_empty hM.valid hM.tiled hT oq fq with h | h
      · refine line (hp vs (INF0 + (k + 1 : Fin 4))) (hp vs x) _ pos' (HP.o_same' _ _) ?_ ?_ q3
        · have := h a oa fa
          rw [hp_inf]
          fin_cases k <;> simp [HP.o, HP.dir, HP.out, wx, wa] at this ⊢ <;> linarith
        · have := h b ob fb
          rw [hp_inf]
          fin_cases k <;> simp [HP.o, HP.dir, HP.out, wx, wb] at this ⊢ <;> linarith
      · refine line (hp vs x) (hp vs (INF0 + k)) _ pos (HP.o_same'' _ _) ?_ ?_ q1
        · have := h a oa fa
          rw [hp_inf]
          fin_cases k <;> simp [HP.o, HP.dir, HP.out, wx, wa] at this ⊢ <;> linarith
        · have := h b ob fb
          rw [hp_inf]
          fin_cases k <;> simp [HP.o, HP.dir, HP.out, wx, wb] at this ⊢ <;> linarith
    · have := cone_empty hM.valid hM.tiled hT ow fw (by linarith) (by linarith)
      subst this
      have : (HP.dir l).out g = (HP.dir l).out (hp vs w) + s := by
        simp only [g, HP.out]
        rw [hp_inf]
        fin_cases l <;> simp [HP.dir] <;> ring
      rcases hl with rfl | rfl <;> linarith
  have link : ∀ {b' a' : Nat}, TriIn ts b' a' (INF0 + l) → b' < INF0 → a' < INF0 → (x = b' ∨ x = a') → False := by
    intro b' a' hT hb' ha' hxx
    have pos := hT.pos hM.valid
    have hlt : 0 < HP.o (hp vs b') (hp vs a') g := by
      have := mul_pos hs pos
      rw [mv]
      rcases hxx with rfl | rfl
      · rw [HP.o_same'']; linarith
      · rw [HP.o_same']; linarith
    have h2 : 0 ≤ HP.o (hp vs a') (hp vs (INF0 + l)) g := by
      rw [mv, HP.o_same' (hp vs a') (hp vs (INF0 + l))]
      rcases hxx with rfl | rfl
      · have := hT.next.pos hM.valid
        linarith
      · rw [HP.o_same'']; simp
    have h3 : 0 ≤ HP.o (hp vs (INF0 + l)) (hp vs b') g := by
      rw [mv, HP.o_same'' (hp vs (INF0 + l)) (hp vs b')]
      rcases hxx with rfl | rfl
      · rw [HP.o_same']; simp
      · have := hT.next.next.pos hM.valid
        linarith
    have key := fun p op fp => link_absurd (p := p) hM hg hT hb' ha' hlt.le h2 h3 (fun k => (hSg k).imp id fun h => .inr ⟨hlt, h⟩) op fp
    have k1 := mul_nonpos_of_nonneg_of_nonpos (sub_nonneg.2 r1.le) (key a oa fa)
    have k2 := mul_nonpos_of_nonneg_of_nonpos r0.le (key b ob fb)
    rw [cmb] at hlt
    linarith
  rcases hT with hT | hT
  · by_cases fz : z < INF0
    · exact link hT.next.next fz fx (.inr rfl)
    · obtain ⟨m, rfl⟩ := hM.inf z hT.next.next.occ fz
      exact cone hT (.inl rfl)
  · by_cases fz : z < INF0
    · exact link hT.next fx fz (.inl rfl)
    · obtain ⟨m, rfl⟩ := hM.inf z hT.next.next.occ fz
      exact cone hT.next (.inr rfl)

end

end CDT

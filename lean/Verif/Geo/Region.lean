import Mathlib.Algebra.BigOperators.Fin
import Mathlib.Algebra.Order.BigOperators.Group.Finset
import Verif.Geo.Winding
import Verif.Geo.Frame
import Verif.Geo.Cross
import Verif.Spec.Domain

/-! # Winding numbers of mesh triangles -/

set_option linter.unusedSectionVars false
set_option linter.unusedVariables false

namespace CDT
open Plane

variable {K : Type} [Field K] [LinearOrder K] [IsStrictOrderedRing K] [ExactParams K] [IdCfg]

/-- Move the point `p` by the amount `e` towards the point or direction `v`. -/
def HP.mix (p v : HP K) (e : K) : HP K :=
  ⟨(p.x + e * v.x) / (p.w + e * v.w), (p.y + e * v.y) / (p.w + e * v.w), 1⟩

theorem o_mix (a b p v : HP K) {e : K} (h : 0 < p.w + e * v.w) :
    HP.o a b (p.mix v e) = (HP.o a b p + e * HP.o a b v) / (p.w + e * v.w) := by
  rw [eq_div_iff h.ne']
  simp only [HP.o, HP.mix]
  field_simp
  ring

theorem mix_pos {a b p v : HP K} (pw : p.w = 1) (vw : 0 ≤ v.w) (h : 0 < HP.o a b p ∨ (0 ≤ HP.o a b p ∧ 0 < HP.o a b v)) :
    ∃ d, 0 < d ∧ ∀ e, 0 < e → e < d → 0 < HP.o a b (p.mix v e) := by
  have hw : ∀ e : K, 0 < e → 0 < p.w + e * v.w := fun e he => by
    rw [pw]; have := mul_nonneg he.le vw; linarith
  rcases h with h | ⟨h1, h2⟩
  · obtain ⟨d, hd, hh⟩ := quad_pos_near h (HP.o a b v) 0
    refine ⟨d, hd, fun e he hed => ?_⟩
    rw [o_mix _ _ _ _ (hw e he)]
    have := hh e he hed
    exact div_pos (by linarith) (hw e he)
  · refine ⟨1, one_pos, fun e he _ => ?_⟩
    rw [o_mix _ _ _ _ (hw e he)]
    have := mul_pos he h2
    exact div_pos (by linarith) (hw e he)

theorem mix_in3 {a b c p v : HP K} (pw : p.w = 1) (vw : 0 ≤ v.w) (h1 : 0 < HP.o a b p ∨ (0 ≤ HP.o a b p ∧ 0 < HP.o a b v))
    (h2 : 0 < HP.o b c p ∨ (0 ≤ HP.o b c p ∧ 0 < HP.o b c v)) (h3 : 0 < HP.o c a p ∨ (0 ≤ HP.o c a p ∧ 0 < HP.o c a v)) :
    ∃ d, 0 < d ∧ ∀ e, 0 < e → e < d → In3 a b c (p.mix v e) := by
  obtain ⟨d1, p1, n1⟩ := mix_pos pw vw h1
  obtain ⟨d2, p2, n2⟩ := mix_pos pw vw h2
  obtain ⟨d3, p3, n3⟩ := mix_pos pw vw h3
  refine ⟨min d1 (min d2 d3), by positivity, fun e he hd => ?_⟩
  simp only [lt_min_iff] at hd
  exact ⟨n1 e he hd.1, n2 e he hd.2.1, n3 e he hd.2.2⟩

/-- Position of a real vertex. -/
def pt (vs : List (Vtx K)) (i : Nat) : Vtx K := ⟨(hp vs i).x, (hp vs i).y⟩

theorem ofVtx_pt (vs : List (Vtx K)) {i : Nat} (h : i < INF0) : HP.ofVtx (pt vs i) = hp vs i := by
  have := hp_w_fin vs h
  ext <;> simp [HP.ofVtx, pt, this]

theorem o_onSegment {a b p : Vtx K} (h : OnSegment a b p) : ∃ s, 0 ≤ s ∧ s ≤ 1 ∧ ∀ x y : HP K,
    HP.o x y (HP.ofVtx p) = (1 - s) * HP.o x y (HP.ofVtx a) + s * HP.o x y (HP.ofVtx b) := by
  obtain ⟨s, h0, h1, hx, hy⟩ := h
  refine ⟨s, h0, h1, fun x y => ?_⟩
  simp only [HP.o, HP.ofVtx, hx, hy]; ring

/-- Weighted sum of three points. -/
def HP.comb (α β γ : K) (a b c : HP K) : HP K :=
  ⟨α * a.x + β * b.x + γ * c.x, α * a.y + β * b.y + γ * c.y, α * a.w + β * b.w + γ * c.w⟩

theorem o_comb (x y : HP K) (α β γ : K) (a b c : HP K) :
    HP.o x y (HP.comb α β γ a b c) = α * HP.o x y a + β * HP.o x y b + γ * HP.o x y c := by
  simp only [HP.o, HP.comb]; ring

variable {vs : List (Vtx K)} {ts : List Tri}

/-- Points near a point of an edge, in the triangle owning it. -/
theorem edge_near (hv : Valid (hp vs) ts) {k x y l : Nat} (hx : x < INF0) (hy : y < INF0) (he : Ent ts k x y l) {p : Vtx K}
    (hps : OnSegment (pt vs x) (pt vs y) p) : ∃ z, 0 < HP.o (hp vs x) (hp vs y) (hp vs z) ∧
      ∀ α β γ : K, 0 < α → 0 < β → 0 < γ → 0 ≤ (HP.comb α β γ (hp vs x) (hp vs y) (hp vs z)).w ∧
      ∃ d : K, 0 < d ∧ ∀ e, 0 < e → e < d → InAt (hp vs) ts ((HP.ofVtx p).mix (HP.comb α β γ (hp vs x) (hp vs y) (hp vs z)) e) k := by
  obtain ⟨T, hT, hh⟩ := he
  obtain ⟨z, j2, j3, hR⟩ := hh.rot
  have hpos := hR.pos_iff.1 (hv.pos _ _ hT)
  obtain ⟨s, s0, s1, ho⟩ := o_onSegment hps
  rw [ofVtx_pt vs hx, ofVtx_pt vs hy] at ho
  have c1 := HP.o_cyc (hp vs x) (hp vs y) (hp vs z)
  have c2 := HP.o_cyc' (hp vs x) (hp vs y) (hp vs z)
  have f1 := HP.o_same'' (hp vs x) (hp vs y)
  have f2 := HP.o_same' (hp vs x) (hp vs y)
  have f3 := HP.o_same'' (hp vs y) (hp vs z)
  have f4 := HP.o_same' (hp vs y) (hp vs z)
  have f5 := HP.o_same'' (hp vs z) (hp vs x)
  have f6 := HP.o_same' (hp vs z) (hp vs x)
  refine ⟨z, hpos, fun α β γ ha hb hc => ?_⟩
  have hw : 0 ≤ (HP.comb α β γ (hp vs x) (hp vs y) (hp vs z)).w := by
    have := mul_nonneg ha.le (hp_w_nonneg vs x)
    have := mul_nonneg hb.le (hp_w_nonneg vs y)
    have := mul_nonneg hc.le (hp_w_nonneg vs z)
    simp only [HP.comb]; linarith
  refine ⟨hw, ?_⟩
  obtain ⟨d, hd, hn⟩ := mix_in3 (a := hp vs x) (b := hp vs y) (c := hp vs z) (p := HP.ofVtx p) rfl hw
    (.inr ⟨by rw [ho, f1, f2]; simp, by rw [o_comb, f1, f2]; have := mul_pos hc hpos; linarith⟩)
    (.inr ⟨by rw [ho, f3, c1]; have := mul_nonneg (sub_nonneg.2 s1) hpos.le; linarith,
      by rw [o_comb, c1, f3, f4]; have := mul_pos ha hpos; linarith⟩)
    (.inr ⟨by rw [ho, f6, c2]; have := mul_nonneg s0 hpos.le; linarith,
      by rw [o_comb, c2, f5, f6]; have := mul_pos hb hpos; linarith⟩)
  exact ⟨d, hd, fun e he hed => (inAt_rot hT hR).2 (hn e he hed)⟩

/-- Edges avoid the interior of triangles. -/
theorem inAt_off (hv : Valid (hp vs) ts) (hT : Tiled vs ts) {i k x y l : Nat} {p : Vtx K} (hi : InAt (hp vs) ts (HP.ofVtx p) i)
    (hx : x < INF0) (hy : y < INF0) (he : Ent ts k x y l) : ¬ OnSegment (pt vs x) (pt vs y) p := by
  intro hs
  obtain ⟨z, hpos, hz⟩ := edge_near hv hx hy he hs
  obtain ⟨hw, d, hd, hn⟩ := hz 1 1 1 one_pos one_pos one_pos
  obtain ⟨T, hTi, hin⟩ := hi
  obtain ⟨d', hd', hn'⟩ := mix_in3 (p := HP.ofVtx p) rfl hw (.inl hin.1) (.inl hin.2.1) (.inl hin.2.2)
  obtain ⟨e, he0, hed⟩ := exists_between (lt_min hd hd')
  rw [lt_min_iff] at hed
  have := hT.disjoint (g := (HP.ofVtx p).mix _ e) rfl (hn e he0 hed.1) ⟨T, hTi, hn' e he0 hed.2⟩
  subst this
  obtain ⟨U, hU, hh⟩ := he
  rw [hTi] at hU; simp at hU; subst hU
  obtain ⟨s, s0, s1, ho⟩ := o_onSegment hs
  rw [ofVtx_pt vs hx, ofVtx_pt vs hy] at ho
  have h0 : HP.o (hp vs x) (hp vs y) (HP.ofVtx p) = 0 := by rw [ho, HP.o_same'', HP.o_same']; simp
  obtain ⟨c, j2, j3, hR⟩ := hh.rot
  have := ((inAt_rot (g := HP.ofVtx p) (H := hp vs) hTi hR).1 ⟨T, hTi, hin⟩).1
  rw [h0] at this
  exact lt_irrefl _ this

/-- A point inside an edge is on no other edge. -/
theorem edge_isolated (hv : Valid (hp vs) ts) (hT : Tiled vs ts) {i j a b k x y l : Nat} (ha : a < INF0) (hb : b < INF0) {m : Vtx K}
    (hab : Ent ts i a b j) (h0 : HP.o (hp vs a) (hp vs b) (HP.ofVtx m) = 0)
    (hi : ∀ c j2 j3 T, ts[i]? = some T → Rot T a b c j j2 j3 → 0 < HP.o (hp vs b) (hp vs c) (HP.ofVtx m) ∧ 0 < HP.o (hp vs c) (hp vs a) (HP.ofVtx m))
    (hj : ∀ c j2 j3 T, ts[j]? = some T → Rot T b a c i j2 j3 → 0 < HP.o (hp vs a) (hp vs c) (HP.ofVtx m) ∧ 0 < HP.o (hp vs c) (hp vs b) (HP.ofVtx m))
    (hx : x < INF0) (hy : y < INF0) (he : Ent ts k x y l) (hs : OnSegment (pt vs x) (pt vs y) m) :
    (x = a ∧ y = b) ∨ (x = b ∧ y = a) := by
  obtain ⟨z, hpos, hz⟩ := edge_near hv hx hy he hs
  have hjn : j ≠ NONE := by
    rcases hv.adj _ _ _ _ hab with h | h
    · exact absurd ha h.2.1
    · exact h.1
  have hba := hv.ent_pos hab hjn
  obtain ⟨T, hTi, hh⟩ := hab
  obtain ⟨c, j2, j3, hR⟩ := hh.rot
  obtain ⟨U, hU, hh'⟩ := hba
  obtain ⟨c', j2', j3', hR'⟩ := hh'.rot
  have h1 := hi _ _ _ _ hTi hR
  have h2 := hj _ _ _ _ hU hR'
  obtain ⟨s, s0, s1, ho⟩ := o_onSegment hs
  rw [ofVtx_pt vs hx, ofVtx_pt vs hy] at ho
  have hxy : HP.o (hp vs x) (hp vs y) (HP.ofVtx m) = 0 := by rw [ho, HP.o_same'', HP.o_same']; simp
  -- a direction into the triangle, off the line
  have key : ∀ α β γ : K, 0 < α → 0 < β → 0 < γ → HP.o (hp vs a) (hp vs b) (HP.comb α β γ (hp vs x) (hp vs y) (hp vs z)) ≠ 0 →
      (x = a ∧ y = b) ∨ (x = b ∧ y = a) := by
    intro α β γ hα hβ hγ hne
    obtain ⟨hw, d, hd, hn⟩ := hz α β γ hα hβ hγ
    rcases lt_or_gt_of_ne hne with hl | hl
    · obtain ⟨d', hd', hn'⟩ := mix_in3 (a := hp vs b) (b := hp vs a) (c := hp vs c') (p := HP.ofVtx m) rfl hw
        (.inr ⟨by rw [HP.o_swap, h0]; simp, by rw [HP.o_swap]; linarith⟩) (.inl h2.1) (.inl h2.2)
      obtain ⟨e, he0, hed⟩ := exists_between (lt_min hd hd')
      rw [lt_min_iff] at hed
      have := hT.disjoint (g := (HP.ofVtx m).mix _ e) rfl (hn e he0 hed.1) ((inAt_rot hU hR').2 (hn' e he0 hed.2))
      subst this
      obtain ⟨V, hV, hhV⟩ := he
      rw [hU] at hV; simp at hV; subst hV
      rcases hR'.has_iff.1 hhV with ⟨rfl, rfl, -⟩ | ⟨rfl, rfl, -⟩ | ⟨rfl, rfl, -⟩
      · exact .inr ⟨rfl, rfl⟩
      · exact absurd hxy h2.1.ne'
      · exact absurd hxy h2.2.ne'
    · obtain ⟨d', hd', hn'⟩ := mix_in3 (a := hp vs a) (b := hp vs b) (c := hp vs c) (p := HP.ofVtx m) rfl hw
        (.inr ⟨h0.ge, hl⟩) (.inl h1.1) (.inl h1.2)
      obtain ⟨e, he0, hed⟩ := exists_between (lt_min hd hd')
      rw [lt_min_iff] at hed
      have := hT.disjoint (g := (HP.ofVtx m).mix _ e) rfl (hn e he0 hed.1) ((inAt_rot hTi hR).2 (hn' e he0 hed.2))
      subst this
      obtain ⟨V, hV, hhV⟩ := he
      rw [hTi] at hV; simp at hV; subst hV
      rcases hR.has_iff.1 hhV with ⟨rfl, rfl, -⟩ | ⟨rfl, rfl, -⟩ | ⟨rfl, rfl, -⟩
      · exact .inl ⟨rfl, rfl⟩
      · exact absurd hxy h1.1.ne'
      · exact absurd hxy h1.2.ne'
  by_contra hcon
  have k0 : ∀ α β γ : K, 0 < α → 0 < β → 0 < γ →
      α * HP.o (hp vs a) (hp vs b) (hp vs x) + β * HP.o (hp vs a) (hp vs b) (hp vs y) + γ * HP.o (hp vs a) (hp vs b) (hp vs z) = 0 := by
    intro α β γ h1 h2 h3
    rw [← o_comb]
    by_contra h
    exact hcon (key α β γ h1 h2 h3 h)
  have e1 := k0 1 1 1 one_pos one_pos one_pos
  have e2 := k0 2 1 1 two_pos one_pos one_pos
  have e3 := k0 1 2 1 one_pos two_pos one_pos
  have zx : HP.o (hp vs a) (hp vs b) (hp vs x) = 0 := by linarith
  have zy : HP.o (hp vs a) (hp vs b) (hp vs y) = 0 := by linarith
  have zz : HP.o (hp vs a) (hp vs b) (hp vs z) = 0 := by linarith
  have hb' := HP.bary_o (hp vs x) (hp vs y) (hp vs z) (hp vs c) (hp vs a) (hp vs b)
  rw [zx, zy, zz] at hb'
  have := mul_pos hpos (hR.pos_iff.1 (hv.pos _ _ hTi))
  linarith

/-- The constrained edges as segments. -/
def segs (vs : List (Vtx K)) (S : List Edge) : List (Vtx K × Vtx K) := S.map fun e => (pt vs e.src, pt vs e.dst)

theorem mem_segs {S : List Edge} {e : Vtx K × Vtx K} (h : e ∈ segs vs S) : ∃ a b, (⟨a, b⟩ : Edge) ∈ S ∧ e = (pt vs a, pt vs b) := by
  simp only [segs, List.mem_map] at h
  obtain ⟨⟨a, b⟩, h, rfl⟩ := h
  exact ⟨a, b, h, rfl⟩

/-- The constrained edges are edges of the mesh and bound a region. -/
structure Bordered (vs : List (Vtx K)) (ts : List Tri) (S : List Edge) : Prop where
  fin : ∀ a b : Nat, (⟨a, b⟩ : Edge) ∈ S → a < INF0 ∧ b < INF0
  edge : ∀ a b : Nat, (⟨a, b⟩ : Edge) ∈ S → ∃ i j, Ent ts i a b j
  nodup : (segs vs S).Nodup
  norev : ∀ a b : Nat, (⟨a, b⟩ : Edge) ∈ S → (⟨b, a⟩ : Edge) ∉ S
  bal : Balanced (segs vs S)
  win : ∀ q, OffEdges (segs vs S) q → winding (segs vs S) q = 0 ∨ winding (segs vs S) q = 1

variable {S : List Edge}

theorem Bordered.off (hB : Bordered vs ts S) (hv : Valid (hp vs) ts) (hT : Tiled vs ts) {i : Nat} {p : Vtx K}
    (hi : InAt (hp vs) ts (HP.ofVtx p) i) : OffEdges (segs vs S) p := by
  intro e he
  obtain ⟨a, b, h, rfl⟩ := mem_segs he
  obtain ⟨ha, hb⟩ := hB.fin a b h
  obtain ⟨k, l, hk⟩ := hB.edge a b h
  exact inAt_off hv hT hi ha hb hk

/-- In a closed triangle. -/
def ClosedAt (H : Nat → HP K) (ts : List Tri) (g : HP K) (i : Nat) : Prop := ∃ T : Tri, ts[i]? = some T ∧
  0 ≤ HP.o (H T.v1) (H T.v2) g ∧ 0 ≤ HP.o (H T.v2) (H T.v3) g ∧ 0 ≤ HP.o (H T.v3) (H T.v1) g

theorem InAt.closed {H : Nat → HP K} {g : HP K} {i : Nat} (h : InAt H ts g i) : ClosedAt H ts g i := by
  obtain ⟨T, hT, h⟩ := h
  exact ⟨T, hT, h.1.le, h.2.1.le, h.2.2.le⟩

theorem Bordered.const_aux (hB : Bordered vs ts S) (hv : Valid (hp vs) ts) (hT : Tiled vs ts) {i : Nat} {p q : Vtx K}
    (hi : InAt (hp vs) ts (HP.ofVtx p) i) (hq : ClosedAt (hp vs) ts (HP.ofVtx q) i) (ho : OffEdges (segs vs S) q) (hy : q.y ≠ p.y) :
    winding (segs vs S) q = winding (segs vs S) p := by
  refine winding_const hB.bal hy fun e he hm => ?_
  obtain ⟨m, hm, hme⟩ := hm
  have hm' := hm
  obtain ⟨s, s0, s1, hx, hyy⟩ := hm'
  rcases s0.eq_or_lt with rfl | s0'
  · have : m = q := by
      obtain ⟨mx, my⟩ := m
      obtain ⟨qx, qy⟩ := q
      simp at hx hyy; rw [hx, hyy]
    rw [this] at hme
    exact ho e he hme
  · have : InAt (hp vs) ts (HP.ofVtx m) i := by
      obtain ⟨T, hTi, hin⟩ := hi
      obtain ⟨T', hTi', hc⟩ := hq
      rw [hTi] at hTi'; simp at hTi'; subst hTi'
      have ho : ∀ x y : HP K, HP.o x y (HP.ofVtx m) = (1 - s) * HP.o x y (HP.ofVtx q) + s * HP.o x y (HP.ofVtx p) := by
        intro x y; simp only [HP.o, HP.ofVtx, hx, hyy]; ring
      have key : ∀ x y : HP K, 0 ≤ HP.o x y (HP.ofVtx q) → 0 < HP.o x y (HP.ofVtx p) → 0 < HP.o x y (HP.ofVtx m) := by
        intro x y h1 h2
        rw [ho]
        have := mul_pos s0' h2
        have := mul_nonneg (sub_nonneg.2 s1) h1
        linarith
      exact ⟨T, hTi, key _ _ hc.1 hin.1, key _ _ hc.2.1 hin.2.1, key _ _ hc.2.2 hin.2.2⟩
    exact hB.off hv hT this e he hme

/-- The winding number is constant on a triangle. -/
theorem Bordered.const (hB : Bordered vs ts S) (hv : Valid (hp vs) ts) (hT : Tiled vs ts) {i : Nat} {p q : Vtx K}
    (hi : InAt (hp vs) ts (HP.ofVtx p) i) (hq : ClosedAt (hp vs) ts (HP.ofVtx q) i) (ho : OffEdges (segs vs S) q) :
    winding (segs vs S) q = winding (segs vs S) p := by
  by_cases hy : q.y = p.y
  · obtain ⟨T, hTi, hin⟩ := hi
    obtain ⟨d, hd, hn⟩ := hin.near
    obtain ⟨e, he0, hed⟩ := exists_between hd
    let r : Vtx K := ⟨p.x + e, p.y + e ^ 2⟩
    have hr : InAt (hp vs) ts (HP.ofVtx r) i := ⟨T, hTi, hn e he0 hed⟩
    have hry : p.y ≠ r.y := by
      have : 0 < e ^ 2 := by positivity
      simp only [r]; intro h; linarith
    rw [hB.const_aux hv hT hr hq ho (by rw [hy]; exact hry)]
    exact (hB.const_aux hv hT hr (InAt.closed ⟨T, hTi, hin⟩) (hB.off hv hT ⟨T, hTi, hin⟩) hry).symm
  · exact hB.const_aux hv hT hi hq ho hy

theorem exists_bound (l : List K) : ∃ M : K, ∀ x ∈ l, -M < x ∧ x < M := by
  induction l with
  | nil => exact ⟨0, by simp⟩
  | cons x l ih =>
    obtain ⟨M, hM⟩ := ih
    refine ⟨max M (|x| + 1), fun y hy => ?_⟩
    rcases List.mem_cons.1 hy with rfl | hy
    · have h1 := le_max_right M (|y| + 1)
      have h2 := le_abs_self y
      have h3 := neg_abs_le y
      constructor <;> linarith
    · have h1 := le_max_left M (|x| + 1)
      obtain ⟨h2, h3⟩ := hM y hy
      constructor <;> linarith

theorem far_aux (l : List (Vtx K × Vtx K)) (hb : Balanced l) (p : Vtx K) {d : HP K}
    (hd : d = ⟨-1, 0, 0⟩ ∨ d = ⟨0, 1, 0⟩ ∨ d = ⟨1, 0, 0⟩ ∨ d = ⟨0, -1, 0⟩) :
    ∃ t : K, 0 ≤ t ∧ winding l ⟨p.x + t * d.x, p.y + t * d.y⟩ = 0 := by
  obtain ⟨M, hM⟩ := exists_bound (l.flatMap fun e => [e.1.x, e.2.x, e.1.y, e.2.y])
  have hM' : ∀ e ∈ l, (-M < e.1.x ∧ e.1.x < M) ∧ (-M < e.2.x ∧ e.2.x < M) ∧ (-M < e.1.y ∧ e.1.y < M) ∧ (-M < e.2.y ∧ e.2.y < M) := by
    intro e he
    refine ⟨hM _ ?_, hM _ ?_, hM _ ?_, hM _ ?_⟩ <;> exact List.mem_flatMap.2 ⟨e, he, by simp⟩
  have ax := abs_nonneg p.x
  have ay := abs_nonneg p.y
  have lx := le_abs_self p.x
  have lx' := neg_abs_le p.x
  have ly := le_abs_self p.y
  have ly' := neg_abs_le p.y
  have aM := abs_nonneg M
  have lM := le_abs_self M
  refine ⟨|M| + |p.x| + |p.y|, by linarith, winding_far hb ?_⟩
  rcases hd with rfl | rfl | rfl | rfl
  · refine .inl fun e he => ?_
    obtain ⟨h1, h2, h3, h4⟩ := hM' e he
    constructor <;> simp only <;> linarith [h1.1, h2.1]
  · refine .inr (.inr (.inr fun e he => ?_))
    obtain ⟨h1, h2, h3, h4⟩ := hM' e he
    constructor <;> simp only <;> linarith [h3.2, h4.2]
  · refine .inr (.inl fun e he => ?_)
    obtain ⟨h1, h2, h3, h4⟩ := hM' e he
    constructor <;> simp only <;> linarith [h1.2, h2.2]
  · refine .inr (.inr (.inl fun e he => ?_))
    obtain ⟨h1, h2, h3, h4⟩ := hM' e he
    constructor <;> simp only <;> linarith [h3.1, h4.1]

theorem hp_inf_dir (vs : List (Vtx K)) {i : Nat} (h : ¬ i < INF0) :
    hp vs i = ⟨-1, 0, 0⟩ ∨ hp vs i = ⟨0, 1, 0⟩ ∨ hp vs i = ⟨1, 0, 0⟩ ∨ hp vs i = ⟨0, -1, 0⟩ := by
  unfold hp
  rw [if_neg h]
  split
  · exact .inl rfl
  split
  · exact .inr (.inl rfl)
  split
  · exact .inr (.inr (.inl rfl))
  · exact .inr (.inr (.inr rfl))

/-- Unbounded triangles are not surrounded. -/
theorem Bordered.far (hB : Bordered vs ts S) (hv : Valid (hp vs) ts) (hT : Tiled vs ts) {i a b j : Nat} {p : Vtx K}
    (hi : InAt (hp vs) ts (HP.ofVtx p) i) (he : Ent ts i a b j) (ha : ¬ a < INF0) : winding (segs vs S) p = 0 := by
  obtain ⟨T, hTi, hh⟩ := he
  obtain ⟨c, j2, j3, hR⟩ := hh.rot
  have hin := (inAt_rot (H := hp vs) (g := HP.ofVtx p) hTi hR).1 hi
  have hpos := hR.pos_iff.1 (hv.pos _ _ hTi)
  obtain ⟨t, t0, hw⟩ := far_aux (segs vs S) hB.bal p (hp_inf_dir vs ha)
  have aw := hp_w_inf vs ha
  have ho : ∀ x y : HP K, HP.o x y (HP.ofVtx ⟨p.x + t * (hp vs a).x, p.y + t * (hp vs a).y⟩) = HP.o x y (HP.ofVtx p) + t * HP.o x y (hp vs a) := by
    intro x y; simp only [HP.o, HP.ofVtx, aw]; ring
  have hq : InAt (hp vs) ts (HP.ofVtx ⟨p.x + t * (hp vs a).x, p.y + t * (hp vs a).y⟩) i := by
    refine (inAt_rot hTi hR).2 ⟨?_, ?_, ?_⟩
    · rw [ho, HP.o_same'']; linarith [hin.1]
    · rw [ho, HP.o_cyc (hp vs a) (hp vs b) (hp vs c)]; have := mul_nonneg t0 hpos.le; linarith [hin.2.1]
    · rw [ho, HP.o_same']; linarith [hin.2.2]
  rw [← hB.const hv hT hi hq.closed (hB.off hv hT hq), hw]

/-- Every triangle has inner points. -/
theorem exists_inAt (hv : Valid (hp vs) ts) {i : Nat} {T : Tri} (hTi : ts[i]? = some T) : ∃ p : Vtx K, InAt (hp vs) ts (HP.ofVtx p) i := by
  have hpos : 0 < HP.o (hp vs T.v1) (hp vs T.v2) (hp vs T.v3) := hv.pos _ _ hTi
  set A := hp vs T.v1 with hA
  set B := hp vs T.v2 with hB
  set C := hp vs T.v3 with hC
  have aw : 0 ≤ A.w := hp_w_nonneg vs _
  have bw : 0 ≤ B.w := hp_w_nonneg vs _
  have cw : 0 ≤ C.w := hp_w_nonneg vs _
  have hw : 0 < A.w + B.w + C.w := by
    by_contra hn
    rw [HP.o_inf3 (by linarith) (by linarith) (by linarith)] at hpos
    exact lt_irrefl _ hpos
  refine ⟨⟨(A.x + B.x + C.x) / (A.w + B.w + C.w), (A.y + B.y + C.y) / (A.w + B.w + C.w)⟩, T, hTi, ?_⟩
  have ho : ∀ x y : HP K, HP.o x y (HP.ofVtx ⟨(A.x + B.x + C.x) / (A.w + B.w + C.w), (A.y + B.y + C.y) / (A.w + B.w + C.w)⟩) =
      (HP.o x y A + HP.o x y B + HP.o x y C) / (A.w + B.w + C.w) := by
    intro x y
    rw [eq_div_iff hw.ne']
    simp only [HP.o, HP.ofVtx]
    field_simp
    ring
  rw [← hA, ← hB, ← hC]
  refine ⟨?_, ?_, ?_⟩ <;> rw [ho] <;> refine div_pos ?_ hw
  · rw [HP.o_same'', HP.o_same']; linarith
  · rw [HP.o_same'', HP.o_same', HP.o_cyc]; linarith
  · rw [HP.o_same'', HP.o_same', HP.o_cyc']; linarith

/-- Two points on both sides of a bounded edge, joined by a segment that crosses nothing else. -/
theorem Bordered.across (hB : Bordered vs ts S) (hv : Valid (hp vs) ts) (hT : Tiled vs ts) {i a b j : Nat} (ha : a < INF0) (hb : b < INF0)
    (he : Ent ts i a b j) : ∃ p q : Vtx K, InAt (hp vs) ts (HP.ofVtx p) i ∧ InAt (hp vs) ts (HP.ofVtx q) j ∧ p.y ≠ q.y ∧
      area2 (pt vs a) (pt vs b) p < 0 ∧ 0 < area2 (pt vs a) (pt vs b) q ∧ 0 < area2 p q (pt vs a) ∧ area2 p q (pt vs b) < 0 ∧
      ∀ x y : Nat, (⟨x, y⟩ : Edge) ∈ S → Meet p q (pt vs x) (pt vs y) → (x = a ∧ y = b) ∨ (x = b ∧ y = a) := by
  have hjn : j ≠ NONE := by
    rcases hv.adj _ _ _ _ he with h | h
    · exact absurd ha h.2.1
    · exact h.1
  have hba := hv.ent_pos he hjn
  have he0 := he
  obtain ⟨T, hTi, hh⟩ := he
  obtain ⟨c, j2, j3, hR⟩ := hh.rot
  obtain ⟨U, hU, hh'⟩ := hba
  obtain ⟨c', j2', j3', hR'⟩ := hh'.rot
  have p1 := hR.pos_iff.1 (hv.pos _ _ hTi)
  have p2 := hR'.pos_iff.1 (hv.pos _ _ hU)
  have eA := ofVtx_pt vs ha
  have eB := ofVtx_pt vs hb
  set A := pt vs a with hA
  set B := pt vs b with hBB
  let m : Vtx K := ⟨A.x + 1 / 2 * (B.x - A.x), A.y + 1 / 2 * (B.y - A.y)⟩
  have hm : OnSegment A B m := ⟨1 / 2, by norm_num, by norm_num, rfl, rfl⟩
  have ho : ∀ x y : HP K, HP.o x y (HP.ofVtx m) = 1 / 2 * HP.o x y (HP.ofVtx A) + 1 / 2 * HP.o x y (HP.ofVtx B) := by
    intro x y; simp only [HP.o, HP.ofVtx, m]; ring
  rw [← eA, ← eB] at p1 p2
  have m0 : HP.o (HP.ofVtx A) (HP.ofVtx B) (HP.ofVtx m) = 0 := by rw [ho, HP.o_same'', HP.o_same']; simp
  have side : ∀ {c : Nat}, 0 < HP.o (HP.ofVtx A) (HP.ofVtx B) (hp vs c) →
      0 < HP.o (HP.ofVtx B) (hp vs c) (HP.ofVtx m) ∧ 0 < HP.o (hp vs c) (HP.ofVtx A) (HP.ofVtx m) := by
    intro c hc
    constructor
    · rw [ho, HP.o_same'', HP.o_cyc]; linarith
    · rw [ho, HP.o_same', HP.o_cyc']; linarith
  have side' : ∀ {c : Nat}, 0 < HP.o (HP.ofVtx B) (HP.ofVtx A) (hp vs c) →
      0 < HP.o (HP.ofVtx A) (hp vs c) (HP.ofVtx m) ∧ 0 < HP.o (hp vs c) (HP.ofVtx B) (HP.ofVtx m) := by
    intro c hc
    constructor
    · rw [ho, HP.o_same'', HP.o_cyc]; linarith
    · rw [ho, HP.o_same', HP.o_cyc']; linarith
  -- a transversal direction that is not horizontal
  obtain ⟨u, v, hv0, huv⟩ : ∃ u v : K, v ≠ 0 ∧ 0 < HP.o (HP.ofVtx A) (HP.ofVtx B) ⟨u, v, 0⟩ := by
    have hAB : A.x ≠ B.x ∨ A.y ≠ B.y := by
      by_contra hn
      push Not at hn
      have : A = B := by
        rcases A with ⟨ax, ay⟩; rcases B with ⟨bx, by'⟩
        simp at hn; simp [hn]
      rw [this, HP.o_same] at p1
      exact lt_irrefl _ p1
    have ev : ∀ u v : K, HP.o (HP.ofVtx A) (HP.ofVtx B) ⟨u, v, 0⟩ = -((B.x - A.x) * v - (B.y - A.y) * u) := by
      intro u v; simp only [HP.o, HP.ofVtx]; ring
    by_cases hx : A.x = B.x
    · have hy : A.y ≠ B.y := by rcases hAB with h | h <;> [exact absurd hx h; exact h]
      rcases lt_or_gt_of_ne hy with h | h
      · exact ⟨1, 1, one_ne_zero, by rw [ev, hx]; simp; linarith⟩
      · exact ⟨-1, 1, one_ne_zero, by rw [ev, hx]; simp; linarith⟩
    · rcases lt_or_gt_of_ne hx with h | h
      · exact ⟨0, -1, by simp, by rw [ev]; linarith⟩
      · exact ⟨0, 1, one_ne_zero, by rw [ev]; linarith⟩
  have s1 := side p1
  have s2 := side' p2
  obtain ⟨d1, hd1, n1⟩ := mix_in3 (a := HP.ofVtx A) (b := HP.ofVtx B) (c := hp vs c) (p := HP.ofVtx m) (v := ⟨u, v, 0⟩) rfl le_rfl
    (.inr ⟨m0.ge, huv⟩) (.inl s1.1) (.inl s1.2)
  have huv' : 0 < HP.o (HP.ofVtx B) (HP.ofVtx A) (⟨-u, -v, 0⟩ : HP K) := by
    have e : HP.o (HP.ofVtx B) (HP.ofVtx A) (⟨-u, -v, 0⟩ : HP K) = HP.o (HP.ofVtx A) (HP.ofVtx B) ⟨u, v, 0⟩ := by
      simp only [HP.o, HP.ofVtx]; ring
    rw [e]; exact huv
  obtain ⟨d2, hd2, n2⟩ := mix_in3 (a := HP.ofVtx B) (b := HP.ofVtx A) (c := hp vs c') (p := HP.ofVtx m) (v := ⟨-u, -v, 0⟩) rfl le_rfl
    (.inr ⟨by rw [HP.o_swap, m0]; simp, huv'⟩) (.inl s2.1) (.inl s2.2)
  obtain ⟨e, he1, he2⟩ := exists_between (lt_min hd1 hd2)
  rw [lt_min_iff] at he2
  -- points of the crossing segment
  have hmix : ∀ (u v t : K), (HP.ofVtx m).mix ⟨u, v, 0⟩ t = HP.ofVtx ⟨m.x + t * u, m.y + t * v⟩ := by
    intro u v t; simp [HP.mix, HP.ofVtx]
  have I1 : ∀ t, 0 < t → t ≤ e → InAt (hp vs) ts (HP.ofVtx ⟨m.x + t * u, m.y + t * v⟩) i := by
    intro t t0 t1
    rw [← hmix]
    refine (inAt_rot hTi hR).2 ?_
    rw [← eA, ← eB]
    exact n1 t t0 (by linarith [he2.1])
  have I2 : ∀ t, 0 < t → t ≤ e → InAt (hp vs) ts (HP.ofVtx ⟨m.x + t * -u, m.y + t * -v⟩) j := by
    intro t t0 t1
    rw [← hmix]
    refine (inAt_rot hU hR').2 ?_
    rw [← eA, ← eB]
    exact n2 t t0 (by linarith [he2.2])
  have q1 := n1 e he1 he2.1
  have q2 := n2 e he1 he2.2
  rw [hmix] at q1 q2
  have huv2 : (B.x - A.x) * v - (B.y - A.y) * u < 0 := by
    have : HP.o (HP.ofVtx A) (HP.ofVtx B) ⟨u, v, 0⟩ = -((B.x - A.x) * v - (B.y - A.y) * u) := by
      simp only [HP.o, HP.ofVtx]; ring
    linarith
  refine ⟨⟨m.x + e * u, m.y + e * v⟩, ⟨m.x + e * -u, m.y + e * -v⟩, I1 e he1 le_rfl, I2 e he1 le_rfl, ?_, ?_, ?_, ?_, ?_, ?_⟩
  · simp only
    intro h
    have : e * v = 0 := by linarith
    rcases mul_eq_zero.1 this with h | h
    · exact he1.ne' h
    · exact hv0 h
  · rw [area2_o]; linarith [q1.1]
  · have := q2.1
    rw [area2_o]; rw [HP.o_swap] at this; linarith
  · have : area2 (⟨m.x + e * u, m.y + e * v⟩ : Vtx K) ⟨m.x + e * -u, m.y + e * -v⟩ A = -(e * ((B.x - A.x) * v - (B.y - A.y) * u)) := by
      simp only [area2, m]; ring
    rw [this]; have := mul_pos he1 (neg_pos.2 huv2); linarith
  · have : area2 (⟨m.x + e * u, m.y + e * v⟩ : Vtx K) ⟨m.x + e * -u, m.y + e * -v⟩ B = e * ((B.x - A.x) * v - (B.y - A.y) * u) := by
      simp only [area2, m]; ring
    rw [this]; have := mul_pos he1 (neg_pos.2 huv2); linarith
  · intro x y hxy hmeet
    obtain ⟨fx, fy⟩ := hB.fin x y hxy
    obtain ⟨k, l, hk⟩ := hB.edge x y hxy
    obtain ⟨r, ⟨s, s0, s1', rx, ry⟩, hr⟩ := hmeet
    rcases lt_trichotomy s (1 / 2) with h | h | h
    · have := I1 (e * (1 - 2 * s)) (mul_pos he1 (by linarith)) (by
        have := mul_nonneg he1.le s0; linarith)
      refine absurd ?_ (inAt_off hv hT this fx fy hk)
      have er : r = ⟨m.x + e * (1 - 2 * s) * u, m.y + e * (1 - 2 * s) * v⟩ := by
        obtain ⟨r1, r2⟩ := r
        simp only at rx ry
        rw [rx, ry]; simp only [Vtx.mk.injEq]; constructor <;> ring
      rw [← er]; exact hr
    · have er : r = m := by
        obtain ⟨r1, r2⟩ := r
        simp only at rx ry
        rw [rx, ry, h]
        have : m = ⟨m.x, m.y⟩ := rfl
        rw [this]; simp only [Vtx.mk.injEq]; constructor <;> ring
      rw [er] at hr
      refine edge_isolated hv hT ha hb he0 (by rw [← eA, ← eB]; exact m0) ?_ ?_ fx fy hk hr
      · intro c j2 j3 T' hT' hR2
        have := hR2.pos_iff.1 (hv.pos _ _ hT')
        rw [← eA, ← eB] at this ⊢
        exact side this
      · intro c j2 j3 T' hT' hR2
        have := hR2.pos_iff.1 (hv.pos _ _ hT')
        rw [← eA, ← eB] at this ⊢
        exact side' this
    · have := I2 (e * (2 * s - 1)) (mul_pos he1 (by linarith)) (by
        have := mul_nonneg he1.le (sub_nonneg.2 s1'); linarith)
      refine absurd ?_ (inAt_off hv hT this fx fy hk)
      have er : r = ⟨m.x + e * (2 * s - 1) * -u, m.y + e * (2 * s - 1) * -v⟩ := by
        obtain ⟨r1, r2⟩ := r
        simp only at rx ry
        rw [rx, ry]; simp only [Vtx.mk.injEq]; constructor <;> ring
      rw [← er]; exact hr

/-- The winding number of triangle `i`. -/
def Wind (vs : List (Vtx K)) (ts : List Tri) (S : List Edge) (i : Nat) (n : ℤ) : Prop :=
  ∀ p : Vtx K, InAt (hp vs) ts (HP.ofVtx p) i → winding (segs vs S) p = n

theorem Bordered.wind (hB : Bordered vs ts S) (hv : Valid (hp vs) ts) (hT : Tiled vs ts) {i : Nat} {p : Vtx K}
    (hi : InAt (hp vs) ts (HP.ofVtx p) i) : Wind vs ts S i (winding (segs vs S) p) := fun q hq =>
  hB.const hv hT hi hq.closed (hB.off hv hT hq)

/-- Crossing a constrained edge. -/
theorem Bordered.jump (hB : Bordered vs ts S) (hv : Valid (hp vs) ts) (hT : Tiled vs ts) {i a b j : Nat}
    (he : Ent ts i a b j) (hS : (⟨a, b⟩ : Edge) ∈ S) : Wind vs ts S i 1 ∧ Wind vs ts S j 0 := by
  obtain ⟨ha, hb⟩ := hB.fin a b hS
  obtain ⟨p, q, hp, hq, hy, h1, h2, h3, h4, hm⟩ := hB.across hv hT ha hb he
  have := winding_jump hB.bal hB.nodup hy (a := pt vs a) (b := pt vs b) (List.mem_map.2 ⟨⟨a, b⟩, hS, rfl⟩) (fun e he hne hmeet => by
    obtain ⟨x, y, hxy, rfl⟩ := mem_segs he
    rcases hm x y hxy hmeet with ⟨rfl, rfl⟩ | ⟨rfl, rfl⟩
    · exact hne rfl
    · exact hB.norev _ _ hS hxy) h1 h2 h3 h4
  have w1 := hB.win p (hB.off hv hT hp)
  have w2 := hB.win q (hB.off hv hT hq)
  have e1 : winding (segs vs S) p = 1 := by omega
  have e2 : winding (segs vs S) q = 0 := by omega
  exact ⟨e1 ▸ hB.wind hv hT hp, e2 ▸ hB.wind hv hT hq⟩

/-- Crossing another edge. -/
theorem Bordered.cont (hB : Bordered vs ts S) (hv : Valid (hp vs) ts) (hT : Tiled vs ts) {i a b j : Nat}
    (he : Ent ts i a b j) (hj : j ≠ NONE) (h1 : (⟨a, b⟩ : Edge) ∉ S) (h2 : (⟨b, a⟩ : Edge) ∉ S) {n : ℤ} (hw : Wind vs ts S i n) : Wind vs ts S j n := by
  have hba := hv.ent_pos he hj
  by_cases hf : a < INF0 ∧ b < INF0
  · obtain ⟨p, q, hp, hq, hy, -, -, -, -, hm⟩ := hB.across hv hT hf.1 hf.2 he
    have := winding_const hB.bal hy (fun e he hmeet => by
      obtain ⟨x, y, hxy, rfl⟩ := mem_segs he
      rcases hm x y hxy hmeet with ⟨rfl, rfl⟩ | ⟨rfl, rfl⟩
      · exact h1 hxy
      · exact h2 hxy)
    have k := hB.wind hv hT hq
    rw [← this, hw p hp] at k
    exact k
  · have far : ∀ {i j : Nat} {a b : Nat}, Ent ts i a b j → ¬ (a < INF0 ∧ b < INF0) → Wind vs ts S i 0 := by
      intro i j a b he hf q hq
      by_cases ha : a < INF0
      · obtain ⟨T, hTi, hh⟩ := he
        obtain ⟨c, j2, j3, hR⟩ := hh.rot
        exact hB.far hv hT hq ⟨T, hTi, hR.has2⟩ fun hb => hf ⟨ha, hb⟩
      · exact hB.far hv hT hq he ha
    have k1 := far he hf
    have k2 := far hba fun h => hf ⟨h.2, h.1⟩
    obtain ⟨T, hTi, _⟩ := he
    obtain ⟨p, hp⟩ := exists_inAt hv hTi
    have : n = 0 := by rw [← hw p hp, ← k1 p hp]
    rw [this]; exact k2

/-- Sum of an antisymmetric function of the directed edges over a set of triangles: only the border counts. -/
theorem border_sum (hv : Valid (hp vs) ts) (hT : Tiled vs ts) (J : Finset Nat) (L : Finset (Nat × Nat)) (cr : Nat × Nat → K)
    (hanti : ∀ e, cr e.swap = - cr e) (g : Nat → Tri) (hJ : ∀ i ∈ J, ts[i]? = some (g i))
    (hL : ∀ e ∈ L, ∃ i ∈ J, ∃ j, Ent ts i e.1 e.2 j)
    (hcl : ∀ i ∈ J, ∀ a b j, Ent ts i a b j → (a, b) ∉ L → j ∈ J ∧ (b, a) ∉ L ∧ j ≠ NONE) :
    ∑ i ∈ J, (cr ((g i).v1, (g i).v2) + cr ((g i).v2, (g i).v3) + cr ((g i).v3, (g i).v1)) = ∑ e ∈ L, cr e := by
  classical
  let ed : Nat × Fin 3 → Nat × Nat := fun x => ((g x.1).v x.2, (g x.1).v (x.2 + 1))
  have hent : ∀ x ∈ J ×ˢ (Finset.univ : Finset (Fin 3)), Ent ts x.1 (ed x).1 (ed x).2 ((g x.1).n x.2) := by
    intro x hx
    exact ⟨_, hJ _ (Finset.mem_product.1 hx).1, has_k _ _⟩
  have hsum : ∑ i ∈ J, (cr ((g i).v1, (g i).v2) + cr ((g i).v2, (g i).v3) + cr ((g i).v3, (g i).v1)) =
      ∑ x ∈ J ×ˢ (Finset.univ : Finset (Fin 3)), cr (ed x) := by
    rw [Finset.sum_product]
    refine Finset.sum_congr rfl fun i _ => ?_
    rw [Fin.sum_univ_three]
    rfl
  have hinj : Set.InjOn ed (J ×ˢ (Finset.univ : Finset (Fin 3)) : Finset _) := by
    rintro ⟨i, k⟩ hx ⟨i', k'⟩ hy he
    have e1 := hent _ hx
    have e2 := hent _ hy
    rw [← he] at e2
    have := hT.edge hv e1 e2
    simp only at this
    subst this
    have hgi := hJ _ (Finset.mem_product.1 hx).1
    obtain ⟨n1, n2, n3⟩ := (hv.pos _ _ hgi).ne
    have hk : (g i).v k = (g i).v k' := congrArg Prod.fst he
    refine Prod.ext rfl ?_
    clear e1 e2 he hx hy hgi
    fin_cases k <;> fin_cases k' <;> first
      | rfl
      | exact absurd hk n1
      | exact absurd hk n2
      | exact absurd hk n3
      | exact absurd hk.symm n1
      | exact absurd hk.symm n2
      | exact absurd hk.symm n3
  have himg : ∀ i ∈ J, ∀ a b j, Ent ts i a b j → (a, b) ∈ (J ×ˢ (Finset.univ : Finset (Fin 3))).image ed := by
    rintro i hi a b j ⟨U, hU, hh⟩
    obtain ⟨k, h1, h2, h3⟩ := hh.k
    refine Finset.mem_image.2 ⟨(i, k), Finset.mem_product.2 ⟨hi, Finset.mem_univ _⟩, ?_⟩
    have := hJ i hi
    rw [hU] at this; simp at this
    simp only [ed]
    rw [← this, h1, h2]
  rw [hsum, ← Finset.sum_image (f := cr) hinj]
  set E := (J ×ˢ (Finset.univ : Finset (Fin 3))).image ed with hE
  have hsub : L ⊆ E := by
    intro e he
    obtain ⟨i, hi, j, hj⟩ := hL e he
    exact himg i hi _ _ _ hj
  have hswap : ∀ e ∈ E \ L, e.swap ∈ E \ L := by
    intro e he
    rw [Finset.mem_sdiff] at he ⊢
    obtain ⟨x, hx, rfl⟩ := Finset.mem_image.1 he.1
    have hE := hent x hx
    obtain ⟨h1, h2, h3⟩ := hcl _ (Finset.mem_product.1 hx).1 _ _ _ hE he.2
    exact ⟨himg _ h1 _ _ _ (hv.ent_pos hE h3), h2⟩
  have hneg : ∑ e ∈ E \ L, cr e = ∑ e ∈ E \ L, -cr e :=
    Finset.sum_equiv (Equiv.prodComm _ _) (fun e => ⟨fun h => hswap e h, fun h => by
      have := hswap _ h; rwa [Equiv.prodComm_apply, Prod.swap_swap] at this⟩) fun e _ => by
      rw [Equiv.prodComm_apply, hanti, neg_neg]
  have hneg := hneg.trans (Finset.sum_neg_distrib (f := cr))
  rw [← Finset.sum_sdiff hsub]
  linarith

/-- A set of bounded triangles cannot be closed under neighbors. -/
theorem no_closed (hv : Valid (hp vs) ts) (hT : Tiled vs ts) (C : Nat → Prop)
    (hfin : ∀ i a b j, C i → Ent ts i a b j → a < INF0) (hcl : ∀ i a b j, C i → Ent ts i a b j → C j) {i : Nat} (hi : C i)
    {T : Tri} (hTi : ts[i]? = some T) : False := by
  classical
  let g : Nat → Tri := fun i => ts[i]?.getD ⟨0, 0, 0, 0, 0, 0⟩
  have hg : ∀ {i T}, ts[i]? = some T → g i = T := fun h => by simp [g, h]
  let J : Finset Nat := (Finset.range ts.length).filter C
  have hJ : ∀ i ∈ J, C i ∧ ts[i]? = some (g i) := by
    intro i hi
    simp only [J, Finset.mem_filter, Finset.mem_range] at hi
    refine ⟨hi.2, ?_⟩
    have : ts[i]? = some ts[i] := List.getElem?_eq_getElem hi.1
    rw [hg this]; exact this
  let cr : Nat × Nat → K := fun e => -((hp vs e.1).x * (hp vs e.2).y - (hp vs e.1).y * (hp vs e.2).x)
  have key := border_sum hv hT J ∅ cr (fun e => by simp only [cr, Prod.fst_swap, Prod.snd_swap]; ring) g (fun i hi => (hJ i hi).2)
    (by simp) (fun i hi a b j he _ => by
      have hC := (hJ i hi).1
      have hn : j ≠ NONE := by
        rcases hv.adj _ _ _ _ he with h | h
        · exact absurd (hfin _ _ _ _ hC he) h.2.1
        · exact h.1
      refine ⟨?_, by simp, hn⟩
      obtain ⟨U, hU, _⟩ := hv.ent_pos he hn
      simp only [J, Finset.mem_filter, Finset.mem_range]
      exact ⟨lt_of_getElem? hU, hcl _ _ _ _ hC he⟩)
  rw [Finset.sum_empty] at key
  refine absurd key (Finset.sum_pos (fun i hi => ?_) ⟨i, by
    simp only [J, Finset.mem_filter, Finset.mem_range]; exact ⟨lt_of_getElem? hTi, hi⟩⟩).ne'
  obtain ⟨hC, hgi⟩ := hJ i hi
  have f1 := hp_w_fin vs (hfin i _ _ _ hC ⟨_, hgi, has_0 _⟩)
  have f2 := hp_w_fin vs (hfin i _ _ _ hC ⟨_, hgi, has_1 _⟩)
  have f3 := hp_w_fin vs (hfin i _ _ _ hC ⟨_, hgi, has_2 _⟩)
  have hpos : 0 < HP.o (hp vs (g i).v1) (hp vs (g i).v2) (hp vs (g i).v3) := hv.pos _ _ hgi
  have e : HP.o (hp vs (g i).v1) (hp vs (g i).v2) (hp vs (g i).v3) =
      cr ((g i).v1, (g i).v2) + cr ((g i).v2, (g i).v3) + cr ((g i).v3, (g i).v1) := by
    simp only [cr, HP.o, f1, f2, f3]; ring
  rw [← e]; exact hpos

/-! ## The flood fill finds the region -/

theorem sides_ent {T : Tri} {i : Nat} (hTi : ts[i]? = some T) {e : Edge} {j : Nat} : (e, j) ∈ Spec.sides T ↔ Ent ts i e.src e.dst j := by
  obtain ⟨a, b⟩ := e
  constructor
  · intro h
    refine ⟨T, hTi, ?_⟩
    simp only [Spec.sides, List.mem_cons, Prod.mk.injEq, Edge.mk.injEq, List.not_mem_nil, or_false] at h
    rcases h with ⟨⟨rfl, rfl⟩, rfl⟩ | ⟨⟨rfl, rfl⟩, rfl⟩ | ⟨⟨rfl, rfl⟩, rfl⟩
    · exact has_0 T
    · exact has_1 T
    · exact has_2 T
  · rintro ⟨T', hT', h⟩
    rw [hTi] at hT'; simp at hT'; subst hT'
    simp only [Spec.sides, List.mem_cons, Prod.mk.injEq, Edge.mk.injEq, List.not_mem_nil, or_false]
    rcases h with ⟨rfl, rfl, rfl⟩ | ⟨rfl, rfl, rfl⟩ | ⟨rfl, rfl, rfl⟩ <;> simp

theorem Wind.unique (hv : Valid (hp vs) ts) {i : Nat} {T : Tri} (hTi : ts[i]? = some T) {m n : ℤ} (h1 : Wind vs ts S i m) (h2 : Wind vs ts S i n) :
    m = n := by
  obtain ⟨p, hpi⟩ := exists_inAt hv hTi
  rw [← h1 p hpi, h2 p hpi]

/-- A constrained edge ends at the other side too. -/
theorem Bordered.rev (hB : Bordered vs ts S) (hv : Valid (hp vs) ts) {i a b j : Nat} (he : Ent ts i a b j) (hS : (⟨b, a⟩ : Edge) ∈ S) :
    j ≠ NONE ∧ Ent ts j b a i := by
  rcases hv.adj _ _ _ _ he with h | h
  · exact absurd (hB.fin _ _ hS).2 h.2.1
  · exact h

theorem Bordered.domain_wind (hB : Bordered vs ts S) (hv : Valid (hp vs) ts) (hT : Tiled vs ts) {i : Nat} (h : Spec.InDomain S ts i) :
    Wind vs ts S i 1 := by
  obtain ⟨s, ⟨T, hTs, e, j, he, hS⟩, hr⟩ := h
  have h1 := (hB.jump hv hT ((sides_ent hTs).1 he) hS).1
  induction hr with
  | refl => exact h1
  | tail _ hst ih =>
    obtain ⟨U, hU, e, he, heS, hne⟩ := hst
    have hE := (sides_ent hU).1 he
    by_cases hrev : (⟨e.dst, e.src⟩ : Edge) ∈ S
    · have := (hB.jump hv hT (hB.rev hv hE hrev).2 hrev).2
      exact absurd (Wind.unique hv hU ih this) one_ne_zero
    · exact hB.cont hv hT hE hne heS hrev ih

theorem Bordered.wind_domain (hB : Bordered vs ts S) (hv : Valid (hp vs) ts) (hT : Tiled vs ts) {i : Nat} {T : Tri} (hTi : ts[i]? = some T)
    (hw : Wind vs ts S i 1) : Spec.InDomain S ts i ∧ Spec.FiniteAt ts i := by
  have finite : ∀ {i : Nat} {T : Tri}, ts[i]? = some T → Wind vs ts S i 1 → ∀ a b j, Ent ts i a b j → a < INF0 := by
    intro i T hTi hw a b j he
    by_contra ha
    obtain ⟨p, hpi⟩ := exists_inAt hv hTi
    have := hB.far hv hT hpi he ha
    rw [hw p hpi] at this
    exact one_ne_zero this
  refine ⟨?_, T, hTi, finite hTi hw _ _ _ ⟨T, hTi, has_0 T⟩, finite hTi hw _ _ _ ⟨T, hTi, has_1 T⟩, finite hTi hw _ _ _ ⟨T, hTi, has_2 T⟩⟩
  by_contra hno
  -- the triangles reached without crossing a constrained edge in either direction
  let C : Nat → Prop := fun j => (∃ U, ts[j]? = some U) ∧ Wind vs ts S j 1 ∧ Relation.ReflTransGen (Spec.Step S ts) j i
  have cl : ∀ j a b k, C j → Ent ts j a b k → C k := by
    rintro j a b k ⟨⟨U, hU⟩, hwj, hji⟩ he
    have h1 : (⟨a, b⟩ : Edge) ∉ S := fun h => hno ⟨j, ⟨U, hU, _, _, (sides_ent hU).2 he, h⟩, hji⟩
    have h2 : (⟨b, a⟩ : Edge) ∉ S := fun h => by
      have := (hB.jump hv hT (hB.rev hv he h).2 h).2
      exact absurd (Wind.unique hv hU hwj this) one_ne_zero
    have hk : k ≠ NONE := by
      rcases hv.adj _ _ _ _ he with h | h
      · exact absurd (finite hU hwj _ _ _ he) h.2.1
      · exact h.1
    have hr := hv.ent_pos he hk
    obtain ⟨V, hV, hh⟩ := hr
    have hjn : j ≠ NONE := by
      have := lt_of_getElem? hU; have := hv.len; omega
    refine ⟨⟨V, hV⟩, hB.cont hv hT he hk h1 h2 hwj, Relation.ReflTransGen.head ?_ hji⟩
    exact ⟨V, hV, ⟨b, a⟩, (sides_ent hV).2 ⟨V, hV, hh⟩, h2, hjn⟩
  exact no_closed hv hT C (fun j a b k hC he => by
    obtain ⟨⟨U, hU⟩, hwj, -⟩ := hC
    exact finite hU hwj _ _ _ he) cl ⟨⟨T, hTi⟩, hw, Relation.ReflTransGen.refl⟩ hTi

/-- The domain triangles are the triangles with winding number one. -/
theorem Bordered.domain_iff (hB : Bordered vs ts S) (hv : Valid (hp vs) ts) (hT : Tiled vs ts) {q : Vtx K} (ho : OffEdges (segs vs S) q) :
    (∃ i, Spec.InDomain S ts i ∧ Spec.FiniteAt ts i ∧ ClosedAt (hp vs) ts (HP.ofVtx q) i) ↔ winding (segs vs S) q = 1 := by
  constructor
  · rintro ⟨i, hi, -, hc⟩
    obtain ⟨T, hTi, -⟩ := id hc
    obtain ⟨p, hpi⟩ := exists_inAt hv hTi
    rw [hB.const hv hT hpi hc ho]
    exact hB.domain_wind hv hT hi p hpi
  · intro hw
    obtain ⟨i, T, hTi, hc⟩ := hT.closed (g := HP.ofVtx q) rfl
    have hc : ClosedAt (hp vs) ts (HP.ofVtx q) i := ⟨T, hTi, hc⟩
    obtain ⟨p, hpi⟩ := exists_inAt hv hTi
    have k := hB.wind hv hT hpi
    rw [← hB.const hv hT hpi hc ho, hw] at k
    obtain ⟨h1, h2⟩ := hB.wind_domain hv hT hTi k
    exact ⟨i, h1, h2, hc⟩

/-- Sum over the domain of an antisymmetric function of the directed edges. -/
theorem Bordered.sum (hB : Bordered vs ts S) (hv : Valid (hp vs) ts) (hT : Tiled vs ts) (hnd : S.Nodup) (cr : Nat × Nat → K)
    (hanti : ∀ e, cr e.swap = - cr e) {ids : List Nat} (h1 : ids.Nodup) (h2 : ∀ i, i ∈ ids ↔ Spec.InDomain S ts i ∧ Spec.FiniteAt ts i) :
    (ids.map fun i => cr ((Spec.vertsAt ts i).1, (Spec.vertsAt ts i).2.1) + cr ((Spec.vertsAt ts i).2.1, (Spec.vertsAt ts i).2.2) +
      cr ((Spec.vertsAt ts i).2.2, (Spec.vertsAt ts i).1)).sum = (S.map fun e => cr (e.src, e.dst)).sum := by
  classical
  let g : Nat → Tri := fun i => ts[i]?.getD ⟨0, 0, 0, 0, 0, 0⟩
  have hg : ∀ {i T}, ts[i]? = some T → g i = T := fun h => by simp [g, h]
  let P : List (Nat × Nat) := S.map fun e => (e.src, e.dst)
  have hP : P.Nodup := List.Nodup.map (by
    rintro ⟨a, b⟩ ⟨c, d⟩ h; simp only [Prod.mk.injEq] at h; rw [h.1, h.2]) hnd
  have memP : ∀ {a b : Nat}, (a, b) ∈ P.toFinset ↔ (⟨a, b⟩ : Edge) ∈ S := by
    intro a b
    rw [List.mem_toFinset, List.mem_map]
    constructor
    · rintro ⟨⟨c, d⟩, h, e⟩
      simp only [Prod.mk.injEq] at e; rw [← e.1, ← e.2]; exact h
    · intro h; exact ⟨_, h, rfl⟩
  have e2 : (S.map fun e => cr (e.src, e.dst)).sum = ∑ e ∈ P.toFinset, cr e := by
    rw [List.sum_toFinset _ hP, List.map_map]; rfl
  rw [e2, ← List.sum_toFinset _ h1]
  have hget : ∀ i ∈ ids.toFinset, ts[i]? = some (g i) := by
    intro i hi
    rw [List.mem_toFinset] at hi
    obtain ⟨T, hTi, -⟩ := ((h2 i).1 hi).2
    rw [hTi, hg hTi]
  rw [← border_sum hv hT ids.toFinset P.toFinset cr hanti g hget]
  · refine Finset.sum_congr rfl fun i hi => ?_
    simp only [Spec.vertsAt, hget i hi]
  · rintro ⟨a, b⟩ he
    have hS := memP.1 he
    obtain ⟨i, j, hE⟩ := hB.edge a b hS
    refine ⟨i, ?_, j, hE⟩
    rw [List.mem_toFinset, h2]
    obtain ⟨T, hTi, hh⟩ := hE
    exact hB.wind_domain hv hT hTi (hB.jump hv hT ⟨T, hTi, hh⟩ hS).1
  · intro i hi a b j hE hn
    rw [memP] at hn
    rw [List.mem_toFinset, h2] at hi
    obtain ⟨T, hTi, -⟩ := id hi.2
    have hw := hB.domain_wind hv hT hi.1
    have hrev : (⟨b, a⟩ : Edge) ∉ S := fun h =>
      absurd (Wind.unique hv hTi hw (hB.jump hv hT (hB.rev hv hE h).2 h).2) one_ne_zero
    have hj : j ≠ NONE := by
      rcases hv.adj _ _ _ _ hE with h | h
      · exfalso
        obtain ⟨p, hpi⟩ := exists_inAt hv hTi
        have := hB.far hv hT hpi hE h.2.1
        rw [hw p hpi] at this
        exact one_ne_zero this
      · exact h.1
    refine ⟨?_, by rw [memP]; exact hrev, hj⟩
    obtain ⟨U, hU, _⟩ := hv.ent_pos hE hj
    rw [List.mem_toFinset, h2]
    exact hB.wind_domain hv hT hU (hB.cont hv hT hE hj hn hrev hw)

end CDT

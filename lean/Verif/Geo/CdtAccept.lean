import Verif.Geo.Wedge
import Verif.Geo.CdtRun
import Verif.Props.Flood
import Verif.Props.Simple

/-! # Constraint insertion succeeds -/

set_option linter.unusedSectionVars false
set_option linter.unusedSimpArgs false
set_option linter.unusedVariables false

namespace CDT

section
variable {K : Type} [Field K] [LinearOrder K] [IsStrictOrderedRing K] [ExactParams K] [IdCfg]

/-- `p + e q`. -/
def HP.lin (p q : HP K) (e : K) : HP K := ⟨p.x + e * q.x, p.y + e * q.y, p.w + e * q.w⟩

theorem o_lin (x y p q : HP K) (e : K) : HP.o x y (p.lin q e) = HP.o x y p + e * HP.o x y q := by
  simp only [HP.o, HP.lin]; ring

theorem o_lin2 (x y p q : HP K) (e : K) : HP.o x (p.lin q e) y = HP.o x p y + e * HP.o x q y := by
  simp only [HP.o, HP.lin]; ring

theorem In3.lin {a b c g : HP K} (h : In3 a b c g) (q : HP K) :
    ∃ d, 0 < d ∧ ∀ e, 0 < e → e < d → In3 a b c (g.lin q e) := by
  obtain ⟨d1, p1, h1⟩ := quad_pos_near h.1 (HP.o a b q) 0
  obtain ⟨d2, p2, h2⟩ := quad_pos_near h.2.1 (HP.o b c q) 0
  obtain ⟨d3, p3, h3⟩ := quad_pos_near h.2.2 (HP.o c a q) 0
  refine ⟨min d1 (min d2 d3), by positivity, fun e he hd => ?_⟩
  simp only [lt_min_iff] at hd
  unfold In3
  rw [o_lin, o_lin, o_lin]
  have k1 := h1 e he hd.1
  have k2 := h2 e he hd.2.1
  have k3 := h3 e he hd.2.2
  refine ⟨?_, ?_, ?_⟩ <;> linarith

/-- The point with weight one. -/
def HP.nrm (z : HP K) : HP K := ⟨z.x / z.w, z.y / z.w, 1⟩

theorem o_nrm (x y : HP K) {z : HP K} (hz : 0 < z.w) : HP.o x y z.nrm = HP.o x y z / z.w := by
  rw [eq_div_iff hz.ne']
  simp only [HP.o, HP.nrm]
  field_simp

theorem In3.nrm {a b c z : HP K} (h : In3 a b c z) (hz : 0 < z.w) : In3 a b c z.nrm := by
  unfold In3
  rw [o_nrm _ _ hz, o_nrm _ _ hz, o_nrm _ _ hz]
  exact ⟨div_pos h.1 hz, div_pos h.2.1 hz, div_pos h.2.2 hz⟩

theorem in3_w {P Q R G : HP K} (hp : 0 ≤ P.w) (hq : 0 ≤ Q.w) (hr : 0 ≤ R.w) (hD : 0 < HP.o P Q R) (h : In3 P Q R G) : 0 < G.w := by
  have e := HP.bary_w P Q R G
  obtain ⟨h1, h2, h3⟩ := h
  have m1 := mul_nonneg h2.le hp
  have m2 := mul_nonneg h3.le hq
  have m3 := mul_nonneg h1.le hr
  have hs : 0 < HP.o P Q R * G.w := by
    rw [e]
    by_contra hc
    have z1 : HP.o Q R G * P.w = 0 := by linarith
    have z2 : HP.o R P G * Q.w = 0 := by linarith
    have z3 : HP.o P Q G * R.w = 0 := by linarith
    have p0 := (mul_eq_zero.1 z1).resolve_left h2.ne'
    have q0 := (mul_eq_zero.1 z2).resolve_left h3.ne'
    have r0 := (mul_eq_zero.1 z3).resolve_left h1.ne'
    rw [HP.o_inf3 p0 q0 r0] at hD
    exact lt_irrefl _ hD
  exact (pos_iff_pos_of_mul_pos hs).1 hD

/-- An inner point of the triangle in a proper direction from `B`. -/
theorem exists_inner {P Q R B : HP K} (hD : 0 < HP.o P Q R) (hp : 0 ≤ P.w) (hq : 0 ≤ Q.w) (hr : 0 ≤ R.w) (hB : 0 < B.w) :
    ∃ G y, In3 P Q R G ∧ HP.o B G y ≠ 0 := by
  have d2 : 0 < HP.o Q R P := by rwa [HP.o_cyc]
  have d3 : 0 < HP.o R P Q := by rwa [HP.o_cyc']
  let G : HP K := (P.lin Q 1).lin R 1
  have hG : In3 P Q R G := by
    refine ⟨?_, ?_, ?_⟩ <;> simp only [G, o_lin, HP.o_same', HP.o_same''] <;> linarith
  have hGw := in3_w hp hq hr hD hG
  by_cases h1 : HP.o B G P = 0
  swap; · exact ⟨G, P, hG, h1⟩
  by_cases h2 : HP.o B G Q = 0
  swap; · exact ⟨G, Q, hG, h2⟩
  refine ⟨G.lin P 1, Q, ?_, ?_⟩
  · refine ⟨?_, ?_, ?_⟩ <;> simp only [G, o_lin, HP.o_same', HP.o_same''] <;> linarith
  · rw [o_lin2, h2]
    have e := HP.bary_w P Q G B
    have e1 : HP.o Q G B = 0 := by rw [HP.o_swap'', h2, neg_zero]
    have e2 : HP.o G P B = 0 := by rw [← HP.o_cyc' G P B]; exact h1
    rw [e1, e2, zero_mul, zero_mul, zero_add, zero_add] at e
    have hpos : 0 < HP.o P Q B * G.w := by rw [← e]; exact mul_pos hG.1 hB
    have := (pos_iff_pos_of_mul_pos hpos).2 hGw
    have e3 := HP.o_cyc' P Q B
    intro hc
    linarith

end

section
variable {K : Type} [Field K] [LinearOrder K] [IsStrictOrderedRing K] [ExactParams K] [IdCfg]
variable {vs : List (Vtx K)} {ts : List Tri} {a b : Nat}
open Plane

/-- A real vertex of the mesh in a closed triangle is a vertex of this triangle. -/
theorem vert_of_in (hv : Valid (hp vs) ts) (ht : Tiled vs ts) (hb : b < INF0) (hocc : Occ ts b) {i : Nat} {T : Tri}
    {p q r j1 j2 j3 : Nat} (hT : ts[i]? = some T) (hR : Rot T p q r j1 j2 j3) (h1 : 0 ≤ HP.o (hp vs p) (hp vs q) (hp vs b))
    (h2 : 0 ≤ HP.o (hp vs q) (hp vs r) (hp vs b)) (h3 : 0 ≤ HP.o (hp vs r) (hp vs p) (hp vs b)) : T.hasVert b = true := by
  obtain ⟨s, S, hS, hSb⟩ := hocc
  have hs : Star ts b s := ⟨S, hS, hSb⟩
  have hw := fun i => hp_w_nonneg vs i
  have wb := hp_w_fin vs hb
  have hD := hR.pos_iff.1 (hv.pos _ _ hT)
  obtain ⟨G, y, hG, hy⟩ := exists_inner hD (hw p) (hw q) (hw r) (B := hp vs b) (by rw [wb]; exact one_pos)
  obtain ⟨m, _, _, _, hwedge⟩ := hs.wedge hv hb
  obtain ⟨k, _, T', u, v, l1, l2, l3, hT', hR', hf1, hf2⟩ := hwedge G y hy
  have hD' := hR'.pos_iff.1 (hv.pos _ _ hT')
  obtain ⟨d1, pd1, hd1⟩ := hG.lin (hp vs v)
  obtain ⟨e, he⟩ := exists_between pd1
  have hG' := hd1 e he.1 he.2
  set G' := G.lin (hp vs v) e
  have g1 : 0 < HP.o (hp vs b) (hp vs u) G' := by
    rw [o_lin]; have := mul_pos he.1 hD'; linarith
  have g2 : HP.o (hp vs b) (hp vs v) G' < 0 := by
    rw [o_lin, HP.o_same', mul_zero, add_zero]; exact hf2
  have hGw := in3_w (hw p) (hw q) (hw r) hD hG'
  have hD'' : 0 < HP.o (hp vs u) (hp vs v) (hp vs b) := by rw [HP.o_cyc]; exact hD'
  obtain ⟨d2, pd2, hd2⟩ := quad_pos_near hD'' (HP.o (hp vs u) (hp vs v) G') 0
  obtain ⟨f, hf⟩ := exists_between pd2
  have k2 := hd2 f hf.1 hf.2
  have hz : 0 < ((hp vs b).lin G' f).w := by
    show 0 < (hp vs b).w + f * G'.w
    rw [wb]; have := mul_pos hf.1 hGw; linarith
  have in1 : In3 (hp vs p) (hp vs q) (hp vs r) ((hp vs b).lin G' f) := by
    refine ⟨?_, ?_, ?_⟩ <;> rw [o_lin]
    · have := mul_pos hf.1 hG'.1; linarith
    · have := mul_pos hf.1 hG'.2.1; linarith
    · have := mul_pos hf.1 hG'.2.2; linarith
  have in2 : In3 (hp vs b) (hp vs u) (hp vs v) ((hp vs b).lin G' f) := by
    refine ⟨?_, ?_, ?_⟩ <;> rw [o_lin]
    · rw [HP.o_same'', zero_add]; exact mul_pos hf.1 g1
    · linarith
    · rw [HP.o_same', zero_add, HP.o_swap]
      have := mul_neg_of_pos_of_neg hf.1 g2; linarith
  have := ht.disjoint (g := ((hp vs b).lin G' f).nrm) rfl ((inAt_rot hT hR).2 (in1.nrm hz)) ((inAt_rot hT' hR').2 (in2.nrm hz))
  rw [← this, hT] at hT'
  simp at hT'; subst hT'
  exact hR'.hasVert.2 (by simp)

/-- `w` is strictly between `a` and `b`. -/
def Btw (a b w : HP K) : Prop := ∃ s t, 0 < s ∧ 0 < t ∧ w.x = s * a.x + t * b.x ∧ w.y = s * a.y + t * b.y ∧ w.w = s * a.w + t * b.w

/-- No vertex of the mesh is strictly between `a` and `b`. -/
def NoBtw (vs : List (Vtx K)) (ts : List Tri) (a b : Nat) : Prop := ∀ w, Occ ts w → ¬ Btw (hp vs a) (hp vs b) (hp vs w)

/-- A crossed edge has triangles on both sides. -/
theorem Ed.nb (hv : Valid (hp vs) ts) (ha : a < INF0) (hb : b < INF0) {i u v j : Nat} (h : Ent ts i u v j) (he : Ed (hp vs) a b u v) :
    j ≠ NONE := by
  rintro rfl
  rcases hv.adj _ _ _ _ h with h | h
  · have := HP.o_inf2 (hp_w_inf vs h.2.1) (hp_w_inf vs h.2.2) (hp_w_fin vs ha) (hp_w_fin vs hb)
    have := he.sa; have := he.sb; linarith
  · exact h.1 rfl

/-- In the triangle at `a` in the direction of `b`, the opposite edge is crossed. -/
theorem first_edge (hv : Valid (hp vs) ts) (ht : Tiled vs ts) (hb : b < INF0) (hocc : Occ ts b) (hno : NoBtw vs ts a b)
    {i : Nat} {T : Tri} {u v j1 j2 j3 : Nat} (hT : ts[i]? = some T) (hR : Rot T a u v j1 j2 j3)
    (h1 : 0 ≤ HP.o (hp vs a) (hp vs u) (hp vs b)) (h2 : HP.o (hp vs a) (hp vs v) (hp vs b) < 0) :
    T.hasVert b = true ∨ Ed (hp vs) a b u v := by
  have hD := hR.pos_iff.1 (hv.pos _ _ hT)
  have h3 : 0 < HP.o (hp vs v) (hp vs a) (hp vs b) := by rw [HP.o_swap]; linarith
  by_cases h4 : 0 ≤ HP.o (hp vs u) (hp vs v) (hp vs b)
  · exact .inl (vert_of_in hv ht hb hocc hT hR h1 h4 h3.le)
  push Not at h4
  rcases h1.lt_or_eq with h1 | h1
  · right
    refine ⟨by rw [HP.o_swap']; linarith, by rw [HP.o_swap']; linarith, by rw [HP.o_cyc]; exact hD, h4⟩
  · exfalso
    have ex := HP.bary_x (hp vs a) (hp vs u) (hp vs v) (hp vs b)
    have ey := HP.bary_y (hp vs a) (hp vs u) (hp vs v) (hp vs b)
    have ew := HP.bary_w (hp vs a) (hp vs u) (hp vs v) (hp vs b)
    rw [← h1] at ex ey ew
    refine hno u (occ_rot hT hR).2.1 ⟨-HP.o (hp vs u) (hp vs v) (hp vs b) / HP.o (hp vs v) (hp vs a) (hp vs b),
      HP.o (hp vs a) (hp vs u) (hp vs v) / HP.o (hp vs v) (hp vs a) (hp vs b), div_pos (by linarith) h3, div_pos hD h3, ?_, ?_, ?_⟩
    all_goals
      rw [div_mul_eq_mul_div, div_mul_eq_mul_div, ← add_div, eq_div_iff h3.ne']
      linarith

/-- The triangle behind a crossed edge has the other end or another crossed edge. -/
theorem next_edge (hv : Valid (hp vs) ts) (ht : Tiled vs ts) (ha : a < INF0) (hb : b < INF0) (hocc : Occ ts b) (hno : NoBtw vs ts a b)
    {i : Nat} {T : Tri} {u v w j1 j2 j3 : Nat} (hT : ts[i]? = some T) (hR : Rot T v u w j1 j2 j3) (he : Ed (hp vs) a b u v) :
    T.hasVert b = true ∨ Ed (hp vs) a b u w ∨ Ed (hp vs) a b w v := by
  have hD := hR.pos_iff.1 (hv.pos _ _ hT)
  obtain ⟨su, sv, sa, sb⟩ := he
  have l3 : 0 < HP.o (hp vs v) (hp vs u) (hp vs b) := by rw [HP.o_swap]; linarith
  have m3 : HP.o (hp vs v) (hp vs u) (hp vs a) < 0 := by rw [HP.o_swap]; linarith
  have wa := hp_w_fin vs ha
  have wb := hp_w_fin vs hb
  have hw := fun i => hp_w_nonneg vs i
  have eb := HP.bary_o (hp vs v) (hp vs u) (hp vs w) (hp vs b) (hp vs a) (hp vs b)
  have ea := HP.bary_o (hp vs v) (hp vs u) (hp vs w) (hp vs a) (hp vs a) (hp vs b)
  have ew := HP.bary_w (hp vs v) (hp vs u) (hp vs w) (hp vs a)
  rw [HP.o_same', mul_zero] at eb
  rw [HP.o_same'', mul_zero] at ea
  rw [wa, mul_one] at ew
  by_cases hB : T.hasVert b = true
  · exact .inl hB
  right
  have vl : ¬ (0 ≤ HP.o (hp vs u) (hp vs w) (hp vs b) ∧ 0 ≤ HP.o (hp vs w) (hp vs v) (hp vs b)) := fun h =>
    hB (vert_of_in hv ht hb hocc hT hR l3.le h.1 h.2)
  set D := HP.o (hp vs v) (hp vs u) (hp vs w)
  set L1 := HP.o (hp vs u) (hp vs w) (hp vs b) with hL1
  set L2 := HP.o (hp vs w) (hp vs v) (hp vs b) with hL2
  set L3 := HP.o (hp vs v) (hp vs u) (hp vs b)
  set M1 := HP.o (hp vs u) (hp vs w) (hp vs a) with hM1
  set M2 := HP.o (hp vs w) (hp vs v) (hp vs a) with hM2
  set M3 := HP.o (hp vs v) (hp vs u) (hp vs a)
  set Su := HP.o (hp vs a) (hp vs b) (hp vs u)
  set Sv := HP.o (hp vs a) (hp vs b) (hp vs v)
  set Sw := HP.o (hp vs a) (hp vs b) (hp vs w)
  have nwM : ¬ (M1 ≤ 0 ∧ M2 ≤ 0) := by
    rintro ⟨h1, h2⟩
    have := mul_nonpos_of_nonpos_of_nonneg h1 (hw v)
    have := mul_nonpos_of_nonpos_of_nonneg h2 (hw u)
    have := mul_nonpos_of_nonpos_of_nonneg m3.le (hw w)
    linarith
  rcases lt_trichotomy Sw 0 with hS | hS | hS
  · right
    refine ⟨hS, sv, ?_, ?_⟩
    · show 0 < M2
      by_contra hc
      push Not at hc
      refine nwM ⟨?_, hc⟩
      by_contra hc1
      push Not at hc1
      have := mul_pos hc1 sv
      have := mul_nonneg_of_nonpos_of_nonpos hc su.le
      have := mul_pos_of_neg_of_neg m3 hS
      linarith
    · show L2 < 0
      by_contra hc
      push Not at hc
      refine vl ⟨?_, hc⟩
      by_contra hc1
      push Not at hc1
      have := mul_neg_of_neg_of_pos hc1 sv
      have := mul_nonpos_of_nonneg_of_nonpos hc su.le
      have := mul_neg_of_pos_of_neg l3 hS
      linarith
  · exfalso
    rw [hS, mul_zero, add_zero] at ea eb
    have hl1 : L1 < 0 := by
      by_contra hc
      push Not at hc
      refine vl ⟨hc, ?_⟩
      by_contra hc2
      push Not at hc2
      have := mul_nonneg hc sv.le
      have := mul_pos_of_neg_of_neg hc2 su
      linarith
    have hm1 : 0 < M1 := by
      by_contra hc
      push Not at hc
      refine nwM ⟨hc, ?_⟩
      by_contra hc2
      push Not at hc2
      have := mul_nonpos_of_nonpos_of_nonneg hc sv.le
      have := mul_neg_of_pos_of_neg hc2 su
      linarith
    have hlm : L1 * M2 = L2 * M1 := by
      have : (L1 * M2 - L2 * M1) * Su = 0 := by
        have e1 : L2 * Su = - (L1 * Sv) := by linarith
        have e2 : M2 * Su = - (M1 * Sv) := by linarith
        calc (L1 * M2 - L2 * M1) * Su = L1 * (M2 * Su) - M1 * (L2 * Su) := by ring
          _ = 0 := by rw [e1, e2]; ring
      have := (mul_eq_zero.1 this).resolve_right su.ne
      linarith
    have bx := HP.bary_x (hp vs v) (hp vs u) (hp vs w) (hp vs b)
    have by' := HP.bary_y (hp vs v) (hp vs u) (hp vs w) (hp vs b)
    have bw := HP.bary_w (hp vs v) (hp vs u) (hp vs w) (hp vs b)
    have ax := HP.bary_x (hp vs v) (hp vs u) (hp vs w) (hp vs a)
    have ay := HP.bary_y (hp vs v) (hp vs u) (hp vs w) (hp vs a)
    have aw := HP.bary_w (hp vs v) (hp vs u) (hp vs w) (hp vs a)
    set k := L3 * M1 - L1 * M3 with hk
    have comb : ∀ {X Y Z P Q : K}, D * P = L1 * X + L2 * Y + L3 * Z → D * Q = M1 * X + M2 * Y + M3 * Z →
        k * Z = D * M1 * P + -(L1 * D) * Q := by
      intro X Y Z P Q h1 h2
      have e1 : D * M1 * P = M1 * (L1 * X + L2 * Y + L3 * Z) := by rw [← h1]; ring
      have e2 : -(L1 * D) * Q = -L1 * (M1 * X + M2 * Y + M3 * Z) := by rw [← h2]; ring
      rw [e1, e2, hk]
      have : L1 * M2 * Y = L2 * M1 * Y := by rw [hlm]
      linarith
    have kx := comb bx ax
    have ky := comb by' ay
    have kw := comb bw aw
    have hk0 : 0 < k := by
      rw [wa, wb] at kw
      have h1 := mul_pos hD hm1
      have h2 := mul_neg_of_neg_of_pos hl1 hD
      have : 0 < k * (hp vs w).w := by rw [kw]; linarith
      exact pos_of_mul_pos_left this (hw w)
    refine hno w (occ_rot hT hR).2.2 ⟨-(L1 * D) / k, D * M1 / k, div_pos (by have := mul_neg_of_neg_of_pos hl1 hD; linarith) hk0,
      div_pos (mul_pos hD hm1) hk0, ?_, ?_, ?_⟩
    all_goals
      rw [div_mul_eq_mul_div, div_mul_eq_mul_div, ← add_div, eq_div_iff hk0.ne']
      linarith
  · left
    refine ⟨su, hS, ?_, ?_⟩
    · show 0 < M1
      by_contra hc
      push Not at hc
      refine nwM ⟨hc, ?_⟩
      by_contra hc2
      push Not at hc2
      have := mul_nonpos_of_nonpos_of_nonneg hc sv.le
      have := mul_neg_of_pos_of_neg hc2 su
      have := mul_neg_of_neg_of_pos m3 hS
      linarith
    · show L1 < 0
      by_contra hc
      push Not at hc
      refine vl ⟨hc, ?_⟩
      by_contra hc2
      push Not at hc2
      have := mul_nonneg hc sv.le
      have := mul_pos_of_neg_of_neg hc2 su
      have := mul_pos l3 hS
      linarith

/-! ## Registration -/

variable {ce : Edge} {A B : Vtx K}

theorem loopAround_found (hu : ∀ v ∈ vs, InUnit v) (hn : vs.length ≤ INF0) (hv : Valid (hp vs) ts)
    (hok : VertsIn (VOk vs.length) ts) (ha : vs[ce.src]? = some A) (hb : vs[ce.dst]? = some B) {s m k : Nat}
    (hs : Star ts ce.src s) (hmin : ∀ k, 0 < k → k < m → (nx ts ce.src)^[k] s ≠ s) (hk : k < m)
    (hgood : ∃ T u v j1 j2 j3, ts[(nx ts ce.src)^[k] s]? = some T ∧ Rot T ce.src u v j1 j2 j3 ∧
      (T.hasVert ce.dst = true ∨ Ed (hp vs) ce.src ce.dst u v)) (n i : Nat) (hi : i ≤ k) (hkn : k < i + n) :
    ∃ r, loopAround vs ts s ce (A, B) outerCwEdge n i ((nx ts ce.src)^[i] s) = .ok r ∧ r ≠ .notFound := by
  have la := lt_of_getElem? ha
  have lb := lt_of_getElem? hb
  have la' : ce.src < INF0 := by omega
  have lb' : ce.dst < INF0 := by omega
  have wa := hp_w_fin vs la'
  have wb := hp_w_fin vs lb'
  induction n generalizing i with
  | zero => omega
  | succ n ih =>
    simp only [loopAround]
    rw [if_neg (by rintro ⟨h0, h1⟩; exact hmin i h0 (by omega) h1)]
    obtain ⟨T, hT, hTa⟩ := hs.iter hv la' i
    obtain ⟨u, v, j1, j2, j3, hR, e1, e2, e3, e4⟩ := vertexIndex_rot4 hTa (hv.pos _ _ hT)
    simp only [getI_of hT, Res.ok_bind]
    by_cases hB : T.hasVert ce.dst = true
    · rw [if_pos hB]; exact ⟨_, rfl, by simp⟩
    rw [if_neg hB, e1, e2]
    have hE : Ent ts _ u v j2 := ⟨T, hT, hR.has2⟩
    have hvk := Ent.vok hok hE
    obtain ⟨x, x1, x2⟩ := edgeIsect_spec (e := ⟨u, v⟩) hu hn hvk.1 hvk.2 ha hb
    simp only at x2
    rw [x1, Res.ok_bind]
    by_cases hx : x = .crossing
    · rw [if_pos hx]
      have hEd : Ed (hp vs) ce.src ce.dst u v := .of_cross wa wb (hp_w_nonneg vs _) (hp_w_nonneg vs _) (x2.1 hx) (.inl (by
        rw [HP.o_cyc]; exact hR.pos_iff.1 (hv.pos _ _ hT)))
      rw [if_neg (hEd.nb hv la' lb' hE)]
      exact ⟨_, rfl, by simp⟩
    rw [if_neg hx]
    have hik : i ≠ k := by
      rintro rfl
      obtain ⟨T', u', v', _, _, _, hT', hR', h | h⟩ := hgood
      · rw [hT] at hT'; simp at hT'; subst hT'; exact hB h
      · rw [hT] at hT'; simp at hT'; subst hT'
        have n1 := (hv.pos _ _ hT).has_ne hR.has1
        have n3 := (hv.pos _ _ hT).has_ne hR.has3
        rcases hR.has_iff.1 hR'.has1 with ⟨_, h2, _⟩ | ⟨h1, _, _⟩ | ⟨h1, _, _⟩
        · subst h2
          rcases hR.has_iff.1 hR'.has2 with ⟨h1, _, _⟩ | ⟨_, h2, _⟩ | ⟨h1, _, _⟩
          · exact n1 h1
          · subst h2; exact hx (x2.2 h.cross)
          · exact (hv.pos _ _ hT).has_ne hR.has2 h1.symm
        · exact n1 h1.symm
        · exact n3 h1
    obtain ⟨_, _, _, _, _, _, hN, _⟩ := (hs.iter hv la' i).next hv la'
    have en : T.n (outerCwEdge (T.vertexIndex ce.src)) = nx ts ce.src ((nx ts ce.src)^[i] s) := by
      simp only [nx, hT]
    rw [en, if_neg hN, ← Function.iterate_succ_apply' (nx ts ce.src) i s]
    exact ih (i + 1) (by omega) (by omega)

theorem nextIsect_some (hu : ∀ v ∈ vs, InUnit v) (hn : vs.length ≤ INF0) (hok : VertsIn (VOk vs.length) ts) {a b : Nat}
    (ha : vs[a]? = some A) (hb : vs[b]? = some B) {tid : Nat} {t : Tri} (ht : ts[tid]? = some t) (e : Edge) :
    ∃ o, nextIsect vs (A, B) t tid e = .ok o ∧
      (o = none → ∀ k, (t.edge k).undirEq e = false → HP.Cross (hp vs a) (hp vs b) (hp vs (t.v k)) (hp vs (t.v (k + 1))) →
        t.n k = NONE) := by
  have cand : ∀ k, ∃ c, nextCandidate vs (A, B) t e k = .ok c ∧ (c = false → (t.edge k).undirEq e = false →
      HP.Cross (hp vs a) (hp vs b) (hp vs (t.v k)) (hp vs (t.v (k + 1))) → t.n k = NONE) := by
    intro k
    unfold nextCandidate
    by_cases h : (t.edge k).undirEq e = true
    · rw [if_pos h]; exact ⟨_, rfl, fun _ h' => by rw [h] at h'; simp at h'⟩
    · rw [if_neg h]
      have hE : Ent ts tid (t.v k) (t.v (k + 1)) (t.n k) := ⟨t, ht, has_k t k⟩
      have ek : t.edge k = ⟨t.v k, t.v (k + 1)⟩ := by fin_cases k <;> rfl
      have hvk := Ent.vok hok hE
      obtain ⟨x, x1, x2⟩ := edgeIsect_spec (e := ⟨t.v k, t.v (k + 1)⟩) hu hn hvk.1 hvk.2 ha hb
      rw [ek, x1, Res.ok_bind]
      refine ⟨_, rfl, fun h1 _ h2 => ?_⟩
      have := x2.2 h2
      simpa [this] using h1
  obtain ⟨c0, g0, h0⟩ := cand 0
  obtain ⟨c1, g1, h1⟩ := cand 1
  obtain ⟨c2, g2, h2⟩ := cand 2
  unfold nextIsect
  rw [g0, Res.ok_bind]
  cases c0 with
  | true => exact ⟨_, rfl, by simp⟩
  | false =>
    simp only [Bool.false_eq_true, if_false]
    rw [g1, Res.ok_bind]
    cases c1 with
    | true => exact ⟨_, rfl, by simp⟩
    | false =>
      simp only [Bool.false_eq_true, if_false]
      rw [g2, Res.ok_bind]
      cases c2 with
      | true => exact ⟨_, rfl, by simp⟩
      | false =>
        refine ⟨_, rfl, fun _ k => ?_⟩
        fin_cases k
        · exact h0 rfl
        · exact h1 rfl
        · exact h2 rfl

theorem registerLoop_total (hu : ∀ v ∈ vs, InUnit v) (hn : vs.length ≤ INF0) (hv : Valid (hp vs) ts)
    (hok : VertsIn (VOk vs.length) ts) (ha : vs[ce.src]? = some A) (hb : vs[ce.dst]? = some B) (n : Nat) {d : EdgeData}
    (hd : EOk ts d) (he : Ed (hp vs) ce.src ce.dst d.edge.src d.edge.dst) :
    (∃ l, registerLoop vs ts ce (A, B) n d = .ok l) ∨ (registerLoop vs ts ce (A, B) n d = .err .nextIntersectionNotFound ∧
      ¬ (Tiled vs ts ∧ Occ ts ce.dst ∧ NoBtw vs ts ce.src ce.dst)) := by
  have la := lt_of_getElem? ha
  have lb := lt_of_getElem? hb
  have la' : ce.src < INF0 := by omega
  have lb' : ce.dst < INF0 := by omega
  have wa := hp_w_fin vs la'
  have wb := hp_w_fin vs lb'
  induction n generalizing d with
  | zero => exact .inl ⟨_, rfl⟩
  | succ n ih =>
    simp only [registerLoop]
    obtain ⟨t, ht, hh⟩ := hv.ent_pos hd.1 hd.2
    obtain ⟨w, j2, j3, hR⟩ := hh.rot
    rw [getI_of ht, Res.ok_bind]
    by_cases hB : t.hasVert ce.dst = true
    · rw [if_pos hB]; exact .inl ⟨_, rfl⟩
    rw [if_neg hB]
    obtain ⟨o, ho, hnone⟩ := nextIsect_some hu hn hok ha hb ht d.edge
    rw [ho, Res.ok_bind]
    cases o with
    | none =>
      refine .inr ⟨rfl, ?_⟩
      rintro ⟨hti, hocc, hno⟩
      have hne := (hv.pos _ _ ht)
      have key : ∀ x y j, Has t x y j → (⟨x, y⟩ : Edge).undirEq d.edge = false → Ed (hp vs) ce.src ce.dst x y → False := by
        intro x y j hxy hund hEd
        obtain ⟨k, rfl, rfl, rfl⟩ := hxy.k
        have ek : t.edge k = ⟨t.v k, t.v (k + 1)⟩ := by fin_cases k <;> rfl
        have := hnone rfl k (by rw [ek]; exact hund) hEd.cross
        exact hEd.nb hv la' lb' ⟨t, ht, has_k t k⟩ this
      have n2 := hne.has_ne hR.has2
      have n3 := hne.has_ne hR.has3
      have n1 := hne.has_ne hR.has1
      rcases next_edge hv hti la' lb' hocc hno ht hR he with h | h | h
      · exact hB h
      · refine key _ _ _ hR.has2 ?_ h
        rw [Bool.eq_false_iff]
        intro hc
        rw [undirEq_iff] at hc
        rcases hc with hc | ⟨hc, _⟩
        · have := congrArg Edge.dst hc; exact n3 this
        · exact n1 hc.symm
      · refine key _ _ _ hR.has3 ?_ h
        rw [Bool.eq_false_iff]
        intro hc
        rw [undirEq_iff] at hc
        rcases hc with hc | ⟨hc, _⟩
        · have := congrArg Edge.src hc; exact n2 this.symm
        · exact n3 hc
    | some d' =>
      obtain ⟨k, rfl, hne, hx, hnn⟩ := nextIsect_ok ho
      have hE : Ent ts d.t (t.v k) (t.v (k + 1)) (t.n k) := ⟨t, ht, has_k t k⟩
      have ek : t.edge k = ⟨t.v k, t.v (k + 1)⟩ := by fin_cases k <;> rfl
      have hvk := Ent.vok hok hE
      rw [ek] at hx hne
      obtain ⟨r, hr1, hr2⟩ := edgeIsect_spec (e := ⟨t.v k, t.v (k + 1)⟩) hu hn hvk.1 hvk.2 ha hb
      rw [hx] at hr1; simp at hr1; subst hr1
      have hcr := hr2.1 rfl
      simp only at hcr
      have hw := fun i => hp_w_nonneg vs i
      have hEd : Ed (hp vs) ce.src ce.dst (t.v k) (t.v (k + 1)) := by
        refine .of_cross wa wb (hw _) (hw _) hcr ?_
        rcases hR.has_iff.1 (has_k t k) with ⟨h1, h2, h3⟩ | ⟨h1, h2, h3⟩ | ⟨h1, h2, h3⟩
        · exfalso
          rw [← h1, ← h2] at hne
          have := (undirEq_iff ⟨d.edge.dst, d.edge.src⟩ d.edge).2 (.inr ⟨rfl, rfl⟩)
          rw [hne] at this; simp at this
        · right; left; rw [← h1]; exact he.su
        · right; right; rw [← h2]; exact he.sv
      rcases ih (d := ⟨d.t, t.n k, t.edge k⟩) ⟨by rw [ek]; exact hE, hnn⟩ (by rw [ek]; exact hEd) with ⟨l, hl⟩ | ⟨hl, hno⟩
      · simp only [hl, Res.ok_bind]; exact .inl ⟨_, rfl⟩
      · simp only [hl]; exact .inr ⟨rfl, hno⟩

/-- The search around a vertex never panics. -/
theorem loopAround_total (hu : ∀ v ∈ vs, InUnit v) (hn : vs.length ≤ INF0) (hv : Valid (hp vs) ts)
    (hok : VertsIn (VOk vs.length) ts) (ha : vs[ce.src]? = some A) (hb : vs[ce.dst]? = some B)
    {next : Fin 3 → Fin 3} (hnext : next = outerCwEdge ∨ next = outerCcwEdge) {start n i tid : Nat} {T : Tri}
    (hT : ts[tid]? = some T) (hTa : T.hasVert ce.src = true) :
    (∃ r, loopAround vs ts start ce (A, B) next n i tid = .ok r) ∨ ∃ e, loopAround vs ts start ce (A, B) next n i tid = .err e := by
  induction n generalizing i tid T with
  | zero => exact .inl ⟨_, rfl⟩
  | succ n ih =>
    simp only [loopAround]
    split
    · exact .inr ⟨_, rfl⟩
    simp only [getI_of hT, Res.ok_bind]
    split
    · exact .inl ⟨_, rfl⟩
    obtain ⟨u, v, j1, j2, j3, hR, e1, e2, e3, e4⟩ := vertexIndex_rot4 hTa (hv.pos _ _ hT)
    rw [e1, e2]
    have hE : Ent ts tid u v j2 := ⟨T, hT, hR.has2⟩
    have hvk := Ent.vok hok hE
    obtain ⟨x, x1, x2⟩ := edgeIsect_spec (e := ⟨u, v⟩) hu hn hvk.1 hvk.2 ha hb
    rw [x1, Res.ok_bind]
    split
    · split
      · exact .inr ⟨_, rfl⟩
      · exact .inl ⟨_, rfl⟩
    split
    · exact .inl ⟨_, rfl⟩
    rename_i hN
    rcases hnext with rfl | rfl
    · rw [e3] at hN ⊢
      obtain ⟨T', hT', hh⟩ := hv.ent_pos (i := tid) ⟨T, hT, hR.has3⟩ hN
      obtain ⟨_, _, _, hR'⟩ := hh.rot
      exact ih hT' (hR'.hasVert.2 (by simp))
    · rw [e4] at hN ⊢
      obtain ⟨T', hT', hh⟩ := hv.ent_pos (i := tid) ⟨T, hT, hR.has1⟩ hN
      obtain ⟨_, _, _, hR'⟩ := hh.rot
      exact ih hT' (hR'.hasVert.2 (by simp))

/-- Registration returns the strip, or an error; not an error if no vertex is on the constraint. -/
theorem registerEdges_total (hu : ∀ v ∈ vs, InUnit v) (hn : vs.length ≤ INF0) {v2t : List Nat} (hm : MInv vs ts v2t)
    (ha : vs[ce.src]? = some A) (hb : vs[ce.dst]? = some B) (hocc : Occ ts ce.src) :
    (∃ l, registerEdges vs ts ce (A, B) v2t = .ok l) ∨ ((∃ e, registerEdges vs ts ce (A, B) v2t = .err e) ∧
      ¬ (Tiled vs ts ∧ Occ ts ce.dst ∧ NoBtw vs ts ce.src ce.dst ∧ A ≠ B)) := by
  have la := lt_of_getElem? ha
  have lb := lt_of_getElem? hb
  have la' : ce.src < INF0 := by omega
  have lb' : ce.dst < INF0 := by omega
  obtain ⟨k, T, hk, hT, hTa⟩ := hm.v2t.2 _ la hocc
  have hs : Star ts ce.src k := ⟨T, hT, hTa⟩
  unfold registerEdges
  rw [getI_of hk, Res.ok_bind]
  have first : (∃ r, searchFirst vs ts ce (A, B) k = .ok r ∧ (r = .notFound → ¬ (Tiled vs ts ∧ Occ ts ce.dst ∧
      NoBtw vs ts ce.src ce.dst ∧ A ≠ B))) ∨ ((∃ e, searchFirst vs ts ce (A, B) k = .err e) ∧
      ¬ (Tiled vs ts ∧ Occ ts ce.dst ∧ NoBtw vs ts ce.src ce.dst ∧ A ≠ B)) := by
    by_cases hg : Tiled vs ts ∧ Occ ts ce.dst ∧ NoBtw vs ts ce.src ce.dst ∧ A ≠ B
    · left
      obtain ⟨hti, ho, hno, hne⟩ := hg
      obtain ⟨m, m1, m2, m3, m4⟩ := hs.wedge hm.valid la'
      have hy : ∃ y, HP.o (hp vs ce.src) (hp vs ce.dst) y ≠ 0 := by
        by_contra hc
        push Not at hc
        refine line_not_zero (vs := vs) (.inl la') ?_ ⟨hc _, hc _⟩
        rw [hp_fin la' ha, hp_fin lb' hb]
        intro h
        apply hne
        have hx := congrArg HP.x h
        have hy := congrArg HP.y h
        simp only [HP.ofVtx] at hx hy
        cases A; cases B; simp_all
      obtain ⟨y, hy⟩ := hy
      obtain ⟨i, hi, T', u, v, j1, j2, j3, hT', hR', h1, h2⟩ := m4 _ _ hy
      have hgood := first_edge hm.valid hti lb' ho hno hT' hR' h1 h2
      obtain ⟨r, hr, hr2⟩ := loopAround_found hu hn hm.valid hm.ok ha hb hs m3 hi ⟨T', u, v, j1, j2, j3, hT', hR', hgood⟩
        ts.length 0 (by omega) (by omega)
      simp only [Function.iterate_zero, id] at hr
      unfold searchFirst
      rw [hr, Res.ok_bind]
      cases r with
      | already => exact ⟨_, rfl, by simp⟩
      | isect d => exact ⟨_, rfl, by simp⟩
      | notFound => exact absurd rfl hr2
    · unfold searchFirst
      rcases loopAround_total (start := k) (n := ts.length) (i := 0) hu hn hm.valid hm.ok ha hb (.inl rfl) hT hTa with ⟨r, hr⟩ | ⟨e, he⟩
      · rw [hr, Res.ok_bind]
        cases r with
        | already => exact .inl ⟨_, rfl, by simp⟩
        | isect d => exact .inl ⟨_, rfl, by simp⟩
        | notFound =>
          simp only [getI_of hT, Res.ok_bind]
          obtain ⟨u, v, j1, j2, j3, hR, e1, e2, e3, e4⟩ := vertexIndex_rot4 hTa (hm.valid.pos _ _ hT)
          rw [e4]
          have hE : Ent ts k ce.src u j1 := ⟨T, hT, hR.has1⟩
          have hN : j1 ≠ NONE := by
            intro hN
            rcases hm.valid.adj _ _ _ _ hE with h | h
            · omega
            · exact h.1 hN
          obtain ⟨T', hT', hh⟩ := hm.valid.ent_pos hE hN
          obtain ⟨_, _, _, hR'⟩ := hh.rot
          rcases loopAround_total (start := j1) (n := ts.length) (i := 0) hu hn hm.valid hm.ok ha hb (.inr rfl) hT'
            (hR'.hasVert.2 (by simp)) with ⟨r, hr⟩ | ⟨e, he⟩
          · exact .inl ⟨r, hr, fun _ => hg⟩
          · exact .inr ⟨⟨e, he⟩, hg⟩
      · rw [he]; exact .inr ⟨⟨e, rfl⟩, hg⟩
  rcases first with ⟨r, hr, hr2⟩ | ⟨⟨e, he⟩, hno⟩
  swap
  · rw [he]; exact .inr ⟨⟨e, rfl⟩, hno⟩
  rw [hr, Res.ok_bind]
  cases r with
  | already => exact .inl ⟨_, rfl⟩
  | notFound => exact .inr ⟨⟨_, rfl⟩, hr2 rfl⟩
  | isect d =>
    have hF : FirstAt vs ts ce.src ce.dst d := by
      unfold searchFirst at hr
      rw [Res.bind_eq_ok] at hr
      obtain ⟨r1, hr1, hr⟩ := hr
      have g1 := loopAround_geo hu hn hm.valid hm.ok ha hb (.inl rfl) hT hTa hr1
      cases r1 with
      | already => simp at hr
      | isect d' => simp at hr; subst hr; exact g1.1 _ rfl
      | notFound =>
        simp only [getI_of hT, Res.ok_bind] at hr
        obtain ⟨u, v, j1, j2, j3, hR, e1, e2, e3, e4⟩ := vertexIndex_rot4 hTa (hm.valid.pos _ _ hT)
        rw [e4] at hr
        have hE : Ent ts k ce.src u j1 := ⟨T, hT, hR.has1⟩
        have hN : j1 ≠ NONE := by
          intro hN
          rcases hm.valid.adj _ _ _ _ hE with h | h
          · omega
          · exact h.1 hN
        obtain ⟨T', hT', hh⟩ := hm.valid.ent_pos hE hN
        obtain ⟨_, _, _, hR'⟩ := hh.rot
        exact (loopAround_geo hu hn hm.valid hm.ok ha hb (.inr rfl) hT' (hR'.hasVert.2 (by simp)) hr).1 _ rfl
    rcases registerLoop_total hu hn hm.valid hm.ok ha hb ts.length hF.ok hF.ed with ⟨l, hl⟩ | ⟨hl, hno⟩
    · simp only [hl, Res.ok_bind]; exact .inl ⟨_, rfl⟩
    · simp only [hl]; exact .inr ⟨⟨_, rfl⟩, fun h => hno ⟨h.1, h.2.1, h.2.2.1⟩⟩

/-! ## Insertion -/

/-- No edge with an artificial vertex is crossed. -/
def FinCross (vs : List (Vtx K)) (ts : List Tri) (a b : Nat) : Prop :=
  ∀ i x y j, Ent ts i x y j → Ed (hp vs) a b x y → x < INF0 ∧ y < INF0

/-- One insertion into a valid mesh, with enough fuel. -/
theorem insertEdge_total (hu : ∀ v ∈ vs, InUnit v) (hn : vs.length ≤ INF0) {ts0 : List Tri} {s : AC} (h : AInv vs ts0 s)
    (ha : vs[ce.src]? = some A) (hb : vs[ce.dst]? = some B) (hab : ce.src ≠ ce.dst) (hocc : Occ s.ts ce.src) {fuel : Nat}
    (hf : s.ts.length + s.ts.length * s.ts.length ≤ fuel) :
    ((∃ e, insertEdge vs fuel ce s = .err e) ∧ ¬ (Tiled vs s.ts ∧ Occ s.ts ce.dst ∧ NoBtw vs s.ts ce.src ce.dst ∧ A ≠ B)) ∨
    (insertEdge vs fuel ce s = .panic ∧ ¬ FinCross vs s.ts ce.src ce.dst) ∨
    ∃ s', insertEdge vs fuel ce s = .ok s' ∧ HasEdge s'.ts ce.src ce.dst ∧
      (FinCross vs s.ts ce.src ce.dst → ∀ U, Unb U s.ts → Unb U s'.ts) := by
  have la := lt_of_getElem? ha
  have lb := lt_of_getElem? hb
  have la' : ce.src < INF0 := by omega
  have lb' : ce.dst < INF0 := by omega
  unfold insertEdge
  rw [getI_of ha, Res.ok_bind, getI_of hb, Res.ok_bind]
  rcases registerEdges_total hu hn h.m ha hb hocc with ⟨l, hl⟩ | ⟨⟨e, he⟩, hno⟩
  swap
  · rw [he]; exact .inl ⟨⟨e, rfl⟩, hno⟩
  rw [hl, Res.ok_bind]
  rcases registerEdges_geo hu hn h.m ha hb hocc hl with ⟨rfl, i, T, hT, hTa, hTb⟩ | ⟨d, rest, rfl, hF, hall, hdis, hlen, hlink, hlast⟩
  · refine .inr (.inr ⟨s, rfl, ?_, fun _ _ h => h⟩)
    obtain ⟨u, v, j1, j2, j3, hR, -⟩ := vertexIndex_rot4 hTa (h.m.valid.pos _ _ hT)
    rcases hR.hasVert.1 hTb with e | e | e
    · exact absurd e hab
    · exact ⟨i, j1, T, hT, by rw [← e]; exact hR.has1⟩
    · exact HasEdge.symm h.m.valid (.inl lb') ⟨i, j3, T, hT, by rw [← e]; exact hR.has3⟩
  · right
    set l := d :: rest with hld
    have hch : Chain (hp vs) s.ts ce.src ce.dst l := by
      refine ⟨fun e he => (hall e he).1, fun e he => (hall e he).2, hlink, ?_, hlast⟩
      intro e he
      simp [hld] at he; subst he
      obtain ⟨T, j1, j3, hT, hR⟩ := hF.tri
      exact ⟨T, hT, hR.hasVert.2 (by simp)⟩
    have hcan : l.map (can (hp vs) ce.src ce.dst) = l := by
      refine (List.map_congr_left fun e he => ?_).trans (List.map_id l)
      exact if_pos (hall e he).2.su
    let U : Nat → Nat → Prop := fun x y => HasEdge s.ts x y
    have hX : XInv vs ce.src ce.dst U l.length (FinCross vs s.ts ce.src ce.dst) ⟨s.ts, s.v2t, l, [], 0⟩ (l.length ^ 2) := by
      refine ⟨h.m, ⟨[], l, by simpa using hcan, by simpa using hch, ?_, .inr ⟨⟨d, rest, rfl, hch.seen_first⟩, ?_⟩⟩,
        ⟨l, [], by simp, rfl, by simp⟩, .inl (by simp [hld]), ?_, by simp⟩
      · intro hFC e he
        exact hFC _ _ _ _ (hall e (by simpa using he)).1.1 (hall e (by simpa using he)).2
      · have := sq_sub l.length (by simp [hld])
        simp only [List.nil_append]; omega
      · intro _ i x y j hE _; exact ⟨i, j, hE⟩
    have hl2 : l.length ^ 2 ≤ s.ts.length * s.ts.length := by
      rw [pow_two]; exact Nat.mul_le_mul hlen hlen
    show ((do let rc ← removeCrossed vs (A, B) fuel ⟨s.ts, s.v2t, l, [], 0⟩
              let rs ← restoreC vs ce fuel ⟨rc.ts, rc.v2t, rc.diags, []⟩
              Res.ok (⟨rs.ts, rs.v2t, s.S⟩ : AC)) = _ ∧ _) ∨ ∃ s', (do
              let rc ← removeCrossed vs (A, B) fuel ⟨s.ts, s.v2t, l, [], 0⟩
              let rs ← restoreC vs ce fuel ⟨rc.ts, rc.v2t, rc.diags, []⟩
              Res.ok (⟨rs.ts, rs.v2t, s.S⟩ : AC)) = .ok s' ∧ _
    rcases hX.run hu hn ha hb (fuel := fuel) (by omega) with ⟨hnF, hp⟩ | ⟨rc, hrc, hdiag, hunb, hcnt⟩
    · left; rw [hp]; exact ⟨rfl, hnF⟩
    right
    simp only [hrc, Res.ok_bind]
    have hI := (removeCrossed_inv (s := ⟨s.ts, s.v2t, l, [], 0⟩) (ts0 := ts0) (E := []) hu hn ha hb
      ⟨h.m, h.steps, h.occ, [], rfl, by simp, by simpa using fun e he => (hall e he).1, by simpa using hdis, by simp⟩ hrc).1
    have hlen2 : rc.ts.length = s.ts.length := by
      refine (removeCrossed_in (Q := fun _ => True) hrc ⟨fun _ _ _ => trivial, fun _ _ => ⟨trivial, trivial⟩, fun _ _ => ⟨trivial, trivial⟩⟩).2.1
    have hnd := C26_restoration_terminates vs ce fuel ⟨rc.ts, rc.v2t, rc.diags, []⟩ rfl (by
      show rc.diags.length + rc.ts.length * rc.ts.length ≤ fuel
      rw [hcnt, hlen2]; omega)
    have hI' : CInv vs ts0 (⟨rc.ts, rc.v2t, rc.diags, []⟩ : RS).ts rc.v2t [] rc.diags := hI
    obtain ⟨rs, hrs, -⟩ := restoreC_total (U := U) hn hI' hnd
    obtain ⟨E', -, hI2, e, he, hee⟩ := restoreC_keep hn (s := ⟨rc.ts, rc.v2t, rc.diags, []⟩) hI (.inl hdiag) hrs
    rw [hrs, Res.ok_bind]
    refine ⟨_, rfl, ?_, fun hFC U' hU' => ?_⟩
    · obtain ⟨i, j, hij⟩ := hI2.edge he
      rw [undirEq_iff] at hee
      rcases hee with rfl | ⟨h1, h2⟩
      · exact ⟨i, j, hij⟩
      · rw [h1, h2] at hij
        exact HasEdge.symm hI2.m.valid (.inl lb') ⟨i, j, hij⟩
    · obtain ⟨rs', hrs', hU2⟩ := restoreC_total (U := U') hn hI' hnd
      rw [hrs] at hrs'; simp at hrs'; subst hrs'
      refine hU2 fun i x y j hE hxy => ?_
      obtain ⟨i', j', hE'⟩ := hunb hFC i x y j hE hxy
      exact hU' _ _ _ _ hE' hxy

/-! ## All constraints -/

variable {ts0 : List Tri} {merge : List Nat} {fuel : Nat}

theorem AInv.len {s : AC} (h : AInv vs ts0 s) {ce : Edge} {s' : AC} (hs : insertEdge vs fuel ce s = .ok s') :
    s'.ts.length = s.ts.length := (insertEdge_in (Q := fun _ => True) hs (fun _ _ _ => trivial)).2.1

theorem AInv.noBtw {s : AC} (h : AInv vs ts0 s) {a b : Nat} (hb : NoBtw vs ts0 a b) : NoBtw vs s.ts a b := by
  rintro w ⟨i, t, ht, hw⟩
  refine hb w ?_
  have := h.occ.get ht
  rw [hasVert_iff] at hw
  rcases hw with rfl | rfl | rfl
  · exact this 0
  · exact this 1
  · exact this 2

/-- What the loop needs of the merge table. -/
def MergeIn (vs : List (Vtx K)) (ts : List Tri) (merge : List Nat) : Prop :=
  ∀ (v x : Nat), merge[v]? = some x → Occ ts x ∧ x < vs.length

variable (hu : ∀ v ∈ vs, InUnit v) (hn : vs.length ≤ INF0) (hv0 : Valid (hp vs) ts0) (hmo : MergeIn vs ts0 merge)
include hu hn hv0 hmo

/-- One constraint of the loop. -/
theorem applyOne_total {s : AC} (h : AInv vs ts0 s) (hf : s.ts.length + s.ts.length * s.ts.length ≤ fuel) (e : Edge) :
    (applyOne vs fuel merge e s = .panic ∧ (merge.length ≤ e.src ∨ merge.length ≤ e.dst)) ∨
    ∃ a b, merge[e.src]? = some a ∧ merge[e.dst]? = some b ∧
      ((applyOne vs fuel merge e s = .ok s ∧ (a = b ∨ (⟨a, b⟩ : Edge) ∈ s.S)) ∨
       (a ≠ b ∧
        (((∃ er, applyOne vs fuel merge e s = .err er) ∧ ¬ (Tiled vs ts0 ∧ NoBtw vs ts0 a b ∧ vs[a]? ≠ vs[b]?)) ∨
         (applyOne vs fuel merge e s = .panic ∧ ¬ FinCross vs s.ts a b) ∨
         ∃ s', applyOne vs fuel merge e s = .ok s' ∧ AInv vs ts0 s' ∧ s'.ts.length = s.ts.length ∧ s'.S = ⟨a, b⟩ :: s.S ∧
           HasEdge s'.ts a b ∧ (FinCross vs s.ts a b → ∀ U, Unb U s.ts → Unb U s'.ts) ∧
           ∀ x y, (x < INF0 ∨ y < INF0) → HasEdge s.ts x y →
             ¬ HP.Cross (hp vs a) (hp vs b) (hp vs x) (hp vs y) → HasEdge s'.ts x y))) := by
  unfold applyOne
  cases ha : merge[e.src]? with
  | none =>
    left
    have : merge.length ≤ e.src := by simpa using ha
    exact ⟨by simp [getI, ha], .inl this⟩
  | some a =>
    cases hb : merge[e.dst]? with
    | none =>
      left
      have : merge.length ≤ e.dst := by simpa using hb
      exact ⟨by simp [getI, ha, hb], .inr this⟩
    | some b =>
      right
      refine ⟨a, b, rfl, rfl, ?_⟩
      rw [getI_of ha, Res.ok_bind, getI_of hb, Res.ok_bind]
      by_cases hab : a = b
      · rw [if_pos hab]; exact .inl ⟨rfl, .inl hab⟩
      rw [if_neg hab]
      by_cases hS : (⟨a, b⟩ : Edge) ∈ s.S
      · rw [if_pos hS]; exact .inl ⟨rfl, .inr hS⟩
      rw [if_neg hS]
      refine .inr ⟨hab, ?_⟩
      obtain ⟨oa, la⟩ := hmo _ _ ha
      obtain ⟨ob, lb⟩ := hmo _ _ hb
      obtain ⟨A, gA, -⟩ := getI_lt la
      obtain ⟨B, gB, -⟩ := getI_lt lb
      have h' : AInv vs ts0 { s with S := ⟨a, b⟩ :: s.S } := ⟨h.m, h.steps, h.occ⟩
      have oa' := steps_occ h.steps oa
      have ob' := steps_occ h.steps ob
      rcases insertEdge_total (ce := ⟨a, b⟩) (fuel := fuel) hu hn h' gA gB hab oa' hf with ⟨he, hno⟩ | hp | ⟨s', hs', hE, hU⟩
      · refine .inl ⟨he, ?_⟩
        rintro ⟨hti, hnb, hne⟩
        refine hno ⟨?_, ob', h.noBtw hnb, ?_⟩
        · exact tiled_steps h.steps hv0 hti
        · rintro rfl; exact hne (gA.trans gB.symm)
      · exact .inr (.inl hp)
      · obtain ⟨i1, i2⟩ := insertEdge_inv hu hn h' oa' hs'
        have := insertEdge_in (Q := fun _ => True) hs' (fun _ _ _ => trivial)
        exact .inr (.inr ⟨s', hs', i1, this.2.1, this.2.2.2, hE, hU, i2⟩)

theorem applyLoop_no_diverge {es : List Edge} {s : AC} (h : AInv vs ts0 s)
    (hf : s.ts.length + s.ts.length * s.ts.length ≤ fuel) : applyLoop vs fuel merge es s ≠ .diverge := by
  induction es generalizing s with
  | nil => simp [applyLoop]
  | cons e es ih =>
    simp only [applyLoop]
    rcases applyOne_total hu hn hv0 hmo h hf e with ⟨h1, -⟩ | ⟨a, b, -, -, ⟨h1, -⟩ | ⟨-, ⟨⟨er, h1⟩, -⟩ | ⟨h1, -⟩ | ⟨s', h1, hA, hl, -⟩⟩⟩
    · rw [h1]; simp
    · rw [h1, Res.ok_bind]; exact ih h hf
    · rw [h1]; simp
    · rw [h1]; simp
    · rw [h1, Res.ok_bind]; exact ih hA (by rw [hl]; exact hf)

theorem Unb.finCross {U : Nat → Nat → Prop} {ts : List Tri} (h : Unb U ts) {a b : Nat}
    (hc : ∀ x y, U x y → ¬ (x < INF0 ∧ y < INF0) → ¬ HP.Cross (hp vs a) (hp vs b) (hp vs x) (hp vs y)) :
    FinCross vs ts a b := by
  intro i x y j hE hEd
  by_contra hxy
  exact hc x y (h i x y j hE hxy) hxy hEd.cross

theorem applyLoop_no_panic {U : Nat → Nat → Prop} {es : List Edge} {s : AC} (h : AInv vs ts0 s)
    (hf : s.ts.length + s.ts.length * s.ts.length ≤ fuel) (hU : Unb U s.ts)
    (hr : ∀ e ∈ es, e.src < merge.length ∧ e.dst < merge.length)
    (hc : ∀ e ∈ es, ∀ a b, merge[e.src]? = some a → merge[e.dst]? = some b → ∀ x y, U x y → ¬ (x < INF0 ∧ y < INF0) →
      ¬ HP.Cross (hp vs a) (hp vs b) (hp vs x) (hp vs y)) : applyLoop vs fuel merge es s ≠ .panic := by
  induction es generalizing s with
  | nil => simp [applyLoop]
  | cons e es ih =>
    simp only [applyLoop]
    have hr' := fun e' he' => hr e' (List.mem_cons_of_mem _ he')
    have hc' := fun e' he' => hc e' (List.mem_cons_of_mem _ he')
    have hre := hr e (by simp)
    rcases applyOne_total hu hn hv0 hmo h hf e with ⟨-, h1⟩ | ⟨a, b, ha, hb, ⟨h1, -⟩ | ⟨-, ⟨⟨er, h1⟩, -⟩ | ⟨h1, h2⟩ | ⟨s', h1, hA, hl, -, -, hU', -⟩⟩⟩
    · omega
    · rw [h1, Res.ok_bind]; exact ih h hf hU hr' hc'
    · rw [h1]; simp
    · exact absurd (Unb.finCross hu hn hv0 hmo hU (hc e (by simp) a b ha hb)) h2
    · rw [h1, Res.ok_bind]
      exact ih hA (by rw [hl]; exact hf) (hU' (Unb.finCross hu hn hv0 hmo hU (hc e (by simp) a b ha hb)) U hU) hr' hc'

theorem applyLoop_no_err {es : List Edge} {s : AC} (h : AInv vs ts0 s)
    (hf : s.ts.length + s.ts.length * s.ts.length ≤ fuel) (hT : Tiled vs ts0)
    (hc : ∀ e ∈ es, ∀ a b, merge[e.src]? = some a → merge[e.dst]? = some b → a ≠ b → NoBtw vs ts0 a b ∧ vs[a]? ≠ vs[b]?)
    (er : Err) : applyLoop vs fuel merge es s ≠ .err er := by
  induction es generalizing s with
  | nil => simp [applyLoop]
  | cons e es ih =>
    simp only [applyLoop]
    have hc' := fun e' he' => hc e' (List.mem_cons_of_mem _ he')
    rcases applyOne_total hu hn hv0 hmo h hf e with ⟨h1, -⟩ | ⟨a, b, ha, hb, ⟨h1, -⟩ | ⟨hab, ⟨⟨er, h1⟩, h2⟩ | ⟨h1, h2⟩ | ⟨s', h1, hA, hl, -⟩⟩⟩
    · rw [h1]; simp
    · rw [h1, Res.ok_bind]; exact ih h hf hc'
    · exact absurd ⟨hT, hc e (by simp) a b ha hb hab⟩ h2
    · rw [h1]; simp
    · rw [h1, Res.ok_bind]; exact ih hA (by rw [hl]; exact hf) hc'

theorem applyLoop_edges {es : List Edge} {s s' : AC} (h : AInv vs ts0 s)
    (hf : s.ts.length + s.ts.length * s.ts.length ≤ fuel) (hs : applyLoop vs fuel merge es s = .ok s') {a b : Nat}
    (hab : a ≠ b) (ha : a < INF0)
    (hc : ∀ e ∈ es, ∀ a' b', merge[e.src]? = some a' → merge[e.dst]? = some b' →
      ¬ HP.Cross (hp vs a') (hp vs b') (hp vs a) (hp vs b))
    (hin : (⟨a, b⟩ : Edge) ∈ s.S → HasEdge s.ts a b)
    (he : HasEdge s.ts a b ∨ ∃ e ∈ es, merge[e.src]? = some a ∧ merge[e.dst]? = some b) :
    HasEdge s'.ts a b := by
  induction es generalizing s with
  | nil => 
    simp [applyLoop] at hs; subst hs
    rcases he with he | ⟨e, he, -⟩
    · exact he
    · simp at he
  | cons e es ih =>
    simp only [applyLoop, Res.bind_eq_ok] at hs
    obtain ⟨s1, h1, hs⟩ := hs
    have hc' := fun e' he' => hc e' (List.mem_cons_of_mem _ he')
    rcases applyOne_total hu hn hv0 hmo h hf e with ⟨h2, -⟩ | ⟨a', b', ha', hb', ⟨h2, h3⟩ | ⟨hab', ⟨⟨er, h2⟩, -⟩ | ⟨h2, -⟩ | ⟨s2, h2, hA, hl, hS, hE, -, hkeep⟩⟩⟩
    · rw [h1] at h2; simp at h2
    · rw [h1] at h2; simp at h2; subst h2
      refine ih h hf hs hc' hin ?_
      rcases he with he | ⟨e', he', h4, h5⟩
      · exact .inl he
      · rcases List.mem_cons.1 he' with rfl | he'
        · rw [ha'] at h4; rw [hb'] at h5; simp at h4 h5; subst h4; subst h5
          rcases h3 with h3 | h3
          · exact absurd h3 hab
          · exact .inl (hin h3)
        · exact .inr ⟨e', he', h4, h5⟩
    · rw [h1] at h2; simp at h2
    · rw [h1] at h2; simp at h2
    · rw [h1] at h2; simp at h2; subst h2
      have hk : HasEdge s.ts a b → HasEdge s1.ts a b := fun h => hkeep a b (.inl ha) h (hc e (by simp) a' b' ha' hb')
      refine ih hA (by rw [hl]; exact hf) hs hc' ?_ ?_
      · intro hin'
        rw [hS] at hin'
        rcases List.mem_cons.1 hin' with he | he
        · cases he; exact hE
        · exact hk (hin he)
      · rcases he with he | ⟨e', he', h4, h5⟩
        · exact .inl (hk he)
        · rcases List.mem_cons.1 he' with rfl | he'
          · rw [ha'] at h4; rw [hb'] at h5; simp at h4 h5; subst h4; subst h5
            exact .inl hE
          · exact .inr ⟨e', he', h4, h5⟩

end

end CDT

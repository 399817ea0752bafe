import Verif.Geo.Splits

/-! # Diagonal swaps: what the code does on a valid mesh, and the geometry of the swap tests -/

set_option linter.unusedSectionVars false
set_option linter.unusedSimpArgs false
set_option linter.unusedVariables false

namespace CDT

section
variable {K : Type} [Field K] [LinearOrder K] [IsStrictOrderedRing K] [IdCfg]
variable {H : Nat → HP K} {ts ts' : List Tri}
variable {s o p a b c n1 n2 n3 n4 : Nat}

theorem flip_of_get (hv : Valid H ts) {S U S' U' : Tri} (hS : ts[s]? = some S) (hRS : Rot S p a b n2 o n1)
    (hU : ts[o]? = some U) (hRU : Rot U b a c s n3 n4) (hRS' : Rot S' p a c n2 n3 o)
    (hRU' : Rot U' p c b s n4 n1) (hpc : p ≠ c) (hl : ts'.length = ts.length)
    (hget : ∀ i, ts'[i]? = if n1 ≠ NONE ∧ i = n1 then ((ts.set s S').set o U')[i]?.map (·.updN s o)
      else if n3 ≠ NONE ∧ i = n3 then ((ts.set s S').set o U')[i]?.map (·.updN o s)
      else ((ts.set s S').set o U')[i]?) : FlipSpec ts ts' s o p a b c n1 n2 n3 n4 := by
  have hls := lt_of_getElem? hS
  have hlo := lt_of_getElem? hU
  have hN := hv.len
  have pS := hv.pos _ _ hS
  have pU := hv.pos _ _ hU
  have E1 : Ent ts s b p n1 := ⟨S, hS, hRS.has3⟩
  have E0 : Ent ts s a b o := ⟨S, hS, hRS.has2⟩
  have F0 : Ent ts o b a s := ⟨U, hU, hRU.has1⟩
  have E3 : Ent ts o a c n3 := ⟨U, hU, hRU.has2⟩
  have hso := hv.ne_self E0
  have hab := pS.has_ne hRS.has2
  have hbp := pS.has_ne hRS.has3
  have hac := pU.has_ne hRU.has2
  have n1s := hv.ne_self E1
  have n3o := hv.ne_self E3
  have n1o : n1 ≠ o := by
    rintro rfl; exact hab (hv.nb_unique E0 E1 (by omega)).1
  have n3s : n3 ≠ s := by
    rintro rfl; exact hab (hv.nb_unique F0 E3 (by omega)).1.symm
  have base : ∀ i, ((ts.set s S').set o U')[i]? = if i = o then some U' else if i = s then some S' else ts[i]? := by
    intro i
    by_cases hi : i = o
    · subst hi; rw [List.getElem?_set_self (by simpa using hlo), if_pos rfl]
    · rw [List.getElem?_set_ne (Ne.symm hi), if_neg hi]
      by_cases hi : i = s
      · subst hi; rw [List.getElem?_set_self (by simpa using hls), if_pos rfl]
      · rw [List.getElem?_set_ne (Ne.symm hi), if_neg hi]
  refine ⟨⟨S, hS, hRS⟩, ⟨U, hU, hRU⟩, ⟨S', ?_, hRS'⟩, ⟨U', ?_, hRU'⟩, hl, ?_⟩
  · rw [hget, if_neg (fun h => n1s h.2.symm), if_neg (fun h => n3s h.2.symm), base, if_neg hso.symm, if_pos rfl]
  · rw [hget, if_neg (fun h => n1o h.2.symm), if_neg (fun h => n3o h.2.symm), base, if_pos rfl]
  · intro i his hio
    rw [hget, base, if_neg hio, if_neg his]

/-- The updates done by `check_and_swap_quad_diagonal` succeed and swap the diagonal. -/
theorem flip_total (hv : Valid H ts) {S U S' U' : Tri} (hS : ts[s]? = some S) (hRS : Rot S p a b n2 o n1)
    (hU : ts[o]? = some U) (hRU : Rot U b a c s n3 n4) (hRS' : Rot S' p a c n2 n3 o)
    (hRU' : Rot U' p c b s n4 n1) (hpc : p ≠ c) :
    ∃ ts1 ts', updNb ((ts.set s S').set o U') n1 s o = .ok ts1 ∧ updNb ts1 n3 o s = .ok ts' ∧
      FlipSpec ts ts' s o p a b c n1 n2 n3 n4 := by
  have c13 := flip_n1_ne_n3 hv hS hRS hU hRU hpc
  have r1 := hv.nb_range ⟨S, hS, hRS.has3⟩
  have r3 := hv.nb_range ⟨U, hU, hRU.has2⟩
  obtain ⟨ts1, u1, l1, g1⟩ := updNb_total ((ts.set s S').set o U') (n := n1) (old := s) (new := o) (by simpa using r1)
  obtain ⟨ts2, u2, l2, g2⟩ := updNb_total ts1 (n := n3) (old := o) (new := s) (by rw [l1]; simpa using r3)
  refine ⟨ts1, ts2, u1, u2, flip_of_get hv hS hRS hU hRU hRS' hRU' hpc (by rw [l2, l1]; simp) ?_⟩
  intro i
  rw [g2, g1]
  by_cases h1 : n1 ≠ NONE ∧ i = n1
  · rw [if_pos h1, if_pos h1, if_neg (fun h => c13 h1.1 (h1.2.symm.trans h.2))]
  · rw [if_neg h1, if_neg h1]

/-- The same updates in the order used by `swap_quad_diagonal`. -/
theorem flip_total' (hv : Valid H ts) {S U S' U' : Tri} (hS : ts[s]? = some S) (hRS : Rot S p a b n2 o n1)
    (hU : ts[o]? = some U) (hRU : Rot U b a c s n3 n4) (hRS' : Rot S' p a c n2 n3 o)
    (hRU' : Rot U' p c b s n4 n1) (hpc : p ≠ c) :
    ∃ ts1 ts', updNb ((ts.set s S').set o U') n3 o s = .ok ts1 ∧ updNb ts1 n1 s o = .ok ts' ∧
      FlipSpec ts ts' s o p a b c n1 n2 n3 n4 := by
  have c13 := flip_n1_ne_n3 hv hS hRS hU hRU hpc
  have r1 := hv.nb_range ⟨S, hS, hRS.has3⟩
  have r3 := hv.nb_range ⟨U, hU, hRU.has2⟩
  obtain ⟨ts1, u1, l1, g1⟩ := updNb_total ((ts.set s S').set o U') (n := n3) (old := o) (new := s) (by simpa using r3)
  obtain ⟨ts2, u2, l2, g2⟩ := updNb_total ts1 (n := n1) (old := s) (new := o) (by rw [l1]; simpa using r1)
  refine ⟨ts1, ts2, u1, u2, flip_of_get hv hS hRS hU hRU hRS' hRU' hpc (by rw [l2, l1]; simp) ?_⟩
  intro i
  rw [g2, g1]
  by_cases h1 : n1 ≠ NONE ∧ i = n1
  · rw [if_pos h1, if_pos h1, if_neg (fun h => c13 h1.1 (h1.2.symm.trans h.2))]
  · rw [if_neg h1, if_neg h1]

/-- The quad read by `check_and_swap_quad_diagonal`. -/
theorem quadOf_rot (hv : Valid H ts) {U : Tri} (hU : ts[o]? = some U) (hRU : Rot U b a c s n3 n4)
    (hs : s ≠ NONE) (p : Nat) : quadOf U s p = (⟨a, b, c, p⟩, n3, n4) := by
  have k01 : U.n 0 = U.n 1 → U.n 0 ≠ NONE → False := fun h h' => absurd (hv.n_inj hU (k := 0) (m := 1) h h') (by decide)
  have k02 : U.n 0 = U.n 2 → U.n 0 ≠ NONE → False := fun h h' => absurd (hv.n_inj hU (k := 0) (m := 2) h h') (by decide)
  have k12 : U.n 1 = U.n 2 → U.n 1 ≠ NONE → False := fun h h' => absurd (hv.n_inj hU (k := 1) (m := 2) h h') (by decide)
  simp only [Tri.n_0, Tri.n_1, Tri.n_2] at k01 k02 k12
  unfold quadOf
  rcases hRU with rfl | rfl | rfl
  · simp
  · simp only at k01 k02 k12 ⊢
    rw [if_neg (fun h => k01 h (h ▸ hs)), if_pos trivial]
  · simp only at k01 k02 k12 ⊢
    rw [if_neg (fun h => k02 h (h ▸ hs)), if_neg (fun h => k12 h (h ▸ hs))]

end

/-! ## Geometry of the swap test -/

section
variable {K : Type} [Field K] [LinearOrder K] [IsStrictOrderedRing K] [ExactParams K] [IdCfg]

/-- Sine and cosine products of the Cline-Renka test. -/
def crS (a b c p : Vtx K) : K :=
  ((a.x - c.x) * (b.y - c.y) - (b.x - c.x) * (a.y - c.y)) *
      ((b.x - p.x) * (a.x - p.x) + (b.y - p.y) * (a.y - p.y)) +
    ((b.x - p.x) * (a.y - p.y) - (a.x - p.x) * (b.y - p.y)) *
      ((a.x - c.x) * (b.x - c.x) + (a.y - c.y) * (b.y - c.y))

theorem inCircumcircle_iff {a b c p : Vtx K} (h1 : 0 < HP.o (HP.ofVtx b) (HP.ofVtx a) (HP.ofVtx c))
    (h2 : 0 < HP.o (HP.ofVtx p) (HP.ofVtx a) (HP.ofVtx b)) :
    inCircumcircle a b c p = true ↔ crS a b c p < 0 := by
  have s1 : 0 < (a.x - c.x) * (b.y - c.y) - (b.x - c.x) * (a.y - c.y) := by
    have : HP.o (HP.ofVtx b) (HP.ofVtx a) (HP.ofVtx c) = (a.x - c.x) * (b.y - c.y) - (b.x - c.x) * (a.y - c.y) := by
      simp only [HP.o, HP.ofVtx]; ring
    rwa [this] at h1
  have s2 : 0 < (b.x - p.x) * (a.y - p.y) - (a.x - p.x) * (b.y - p.y) := by
    have : HP.o (HP.ofVtx p) (HP.ofVtx a) (HP.ofVtx b) = (b.x - p.x) * (a.y - p.y) - (a.x - p.x) * (b.y - p.y) := by
      simp only [HP.o, HP.ofVtx]; ring
    rwa [this] at h2
  unfold inCircumcircle crS
  simp only [exact_sub, exact_add, exact_mul, exact_lt, exact_le, exact_zero]
  generalize (a.x - c.x) * (b.y - c.y) - (b.x - c.x) * (a.y - c.y) = sA at *
  generalize (b.x - p.x) * (a.y - p.y) - (a.x - p.x) * (b.y - p.y) = sB at *
  generalize (a.x - c.x) * (b.x - c.x) + (a.y - c.y) * (b.y - c.y) = cA
  generalize (b.x - p.x) * (a.x - p.x) + (b.y - p.y) * (a.y - p.y) = cB
  by_cases hA : 0 ≤ cA
  · by_cases hB : 0 ≤ cB
    · have : 0 ≤ sA * cB + sB * cA := by positivity
      simp [hA, hB, this]
    · simp [hA, hB]
  · by_cases hB : 0 ≤ cB
    · simp [hA, hB]
    · have h1 : sA * cB < 0 := mul_neg_of_pos_of_neg s1 (not_le.1 hB)
      have h2 : sB * cA < 0 := mul_neg_of_pos_of_neg s2 (not_le.1 hA)
      have : sA * cB + sB * cA < 0 := by linarith
      simp [hA, hB, not_le.1 hA, not_le.1 hB, this]

/-- If the circumcircle test asks for a swap the quad is strictly convex. -/
theorem crS_convex {a b c p : Vtx K} (h1 : 0 < HP.o (HP.ofVtx b) (HP.ofVtx a) (HP.ofVtx c))
    (h2 : 0 < HP.o (HP.ofVtx p) (HP.ofVtx a) (HP.ofVtx b)) (h : crS a b c p < 0) :
    0 < HP.o (HP.ofVtx p) (HP.ofVtx a) (HP.ofVtx c) ∧ 0 < HP.o (HP.ofVtx p) (HP.ofVtx c) (HP.ofVtx b) := by
  have hXY : HP.o (HP.ofVtx p) (HP.ofVtx a) (HP.ofVtx c) + HP.o (HP.ofVtx p) (HP.ofVtx c) (HP.ofVtx b) =
      HP.o (HP.ofVtx b) (HP.ofVtx a) (HP.ofVtx c) + HP.o (HP.ofVtx p) (HP.ofVtx a) (HP.ofVtx b) := by
    simp only [HP.o, HP.ofVtx]; ring
  have key : HP.o (HP.ofVtx b) (HP.ofVtx a) (HP.ofVtx c) * crS a b c p =
      - (HP.o (HP.ofVtx p) (HP.ofVtx a) (HP.ofVtx c) * HP.o (HP.ofVtx p) (HP.ofVtx c) (HP.ofVtx b) *
          ((b.x - a.x) ^ 2 + (b.y - a.y) ^ 2)) +
        HP.o (HP.ofVtx p) (HP.ofVtx a) (HP.ofVtx c) * HP.o (HP.ofVtx p) (HP.ofVtx a) (HP.ofVtx b) *
          ((b.x - c.x) ^ 2 + (b.y - c.y) ^ 2) +
        HP.o (HP.ofVtx p) (HP.ofVtx a) (HP.ofVtx b) * HP.o (HP.ofVtx p) (HP.ofVtx c) (HP.ofVtx b) *
          ((c.x - a.x) ^ 2 + (c.y - a.y) ^ 2) := by
    simp only [HP.o, HP.ofVtx, crS]; ring
  have hneg := mul_neg_of_pos_of_neg h1 h
  rw [key] at hneg
  generalize HP.o (HP.ofVtx p) (HP.ofVtx a) (HP.ofVtx c) = X at *
  generalize HP.o (HP.ofVtx p) (HP.ofVtx c) (HP.ofVtx b) = Y at *
  generalize HP.o (HP.ofVtx b) (HP.ofVtx a) (HP.ofVtx c) = D at *
  generalize HP.o (HP.ofVtx p) (HP.ofVtx a) (HP.ofVtx b) = G at *
  constructor
  · by_contra hX
    have hX := not_lt.1 hX
    have hY : Y = D + G - X := by linarith
    subst hY
    have e : - (X * (D + G - X) * ((b.x - a.x) ^ 2 + (b.y - a.y) ^ 2)) + X * G * ((b.x - c.x) ^ 2 + (b.y - c.y) ^ 2) +
        G * (D + G - X) * ((c.x - a.x) ^ 2 + (c.y - a.y) ^ 2) =
        D * ((-X) * ((b.x - a.x) ^ 2 + (b.y - a.y) ^ 2) + G * ((c.x - a.x) ^ 2 + (c.y - a.y) ^ 2)) +
        (((-X) * (b.x - a.x) + G * (c.x - a.x)) ^ 2 + ((-X) * (b.y - a.y) + G * (c.y - a.y)) ^ 2) := by ring
    rw [e] at hneg
    have h0 : 0 ≤ -X := by linarith
    have : 0 ≤ D * ((-X) * ((b.x - a.x) ^ 2 + (b.y - a.y) ^ 2) + G * ((c.x - a.x) ^ 2 + (c.y - a.y) ^ 2)) +
        (((-X) * (b.x - a.x) + G * (c.x - a.x)) ^ 2 + ((-X) * (b.y - a.y) + G * (c.y - a.y)) ^ 2) := by
      have := h1.le; have := h2.le
      generalize -X = X' at *
      positivity
    linarith
  · by_contra hY
    have hY := not_lt.1 hY
    have hX : X = D + G - Y := by linarith
    subst hX
    have e : - ((D + G - Y) * Y * ((b.x - a.x) ^ 2 + (b.y - a.y) ^ 2)) + (D + G - Y) * G * ((b.x - c.x) ^ 2 + (b.y - c.y) ^ 2) +
        G * Y * ((c.x - a.x) ^ 2 + (c.y - a.y) ^ 2) =
        D * ((-Y) * ((b.x - a.x) ^ 2 + (b.y - a.y) ^ 2) + G * ((b.x - c.x) ^ 2 + (b.y - c.y) ^ 2)) +
        (((-Y) * (a.x - b.x) + G * (c.x - b.x)) ^ 2 + ((-Y) * (a.y - b.y) + G * (c.y - b.y)) ^ 2) := by ring
    rw [e] at hneg
    have h0 : 0 ≤ -Y := by linarith
    have : 0 ≤ D * ((-Y) * ((b.x - a.x) ^ 2 + (b.y - a.y) ^ 2) + G * ((b.x - c.x) ^ 2 + (b.y - c.y) ^ 2)) +
        (((-Y) * (a.x - b.x) + G * (c.x - b.x)) ^ 2 + ((-Y) * (a.y - b.y) + G * (c.y - b.y)) ^ 2) := by
      have := h1.le; have := h2.le
      generalize -Y = Y' at *
      positivity
    linarith

/-- Vertex ids of a mesh over `n` vertices: real vertices and the four artificial ones. -/
def VOk (n v : Nat) : Prop := v < n ∨ (INF0 ≤ v ∧ v ≤ INF3)

theorem VOk.fin {n v : Nat} (h : VOk n v) (hf : v < INF0) : v < n := by
  rcases h with h | h
  · exact h
  · omega

theorem VOk.inf {n v : Nat} (h : VOk n v) (hf : ¬ v < INF0) (hn : n ≤ INF0) : INF0 ≤ v ∧ v ≤ INF3 := by
  rcases h with h | h
  · omega
  · exact h

variable {vs : List (Vtx K)}

theorem getI_fin {v : Nat} (hv : VOk vs.length v) (hf : v < INF0) :
    ∃ x, getI vs v = .ok x ∧ vs[v]? = some x ∧ hp vs v = HP.ofVtx x := by
  obtain ⟨x, hx, hx'⟩ := getI_lt (hv.fin hf)
  exact ⟨x, hx', hx, hp_fin hf hx⟩

/-- `should_swap_diagonals` on the quad of two adjacent clockwise triangles: it always answers, and
when it asks for a swap the quad is strictly convex. -/
theorem shouldSwap_spec {a b c p : Nat} (ha : VOk vs.length a) (hb : VOk vs.length b) (hc : VOk vs.length c)
    (hp' : p < vs.length) (hpf : p < INF0)
    (h1 : 0 < HP.o (hp vs b) (hp vs a) (hp vs c)) (h2 : 0 < HP.o (hp vs p) (hp vs a) (hp vs b)) :
    ∃ r, shouldSwap vs ⟨a, b, c, p⟩ = .ok r ∧
      (r = true → 0 < HP.o (hp vs p) (hp vs a) (hp vs c) ∧ 0 < HP.o (hp vs p) (hp vs c) (hp vs b)) := by
  obtain ⟨P, gP, _, eP⟩ := getI_fin (vs := vs) (.inl hp') hpf
  unfold shouldSwap
  by_cases hcf : c < INF0
  swap
  · rw [if_pos (isInf_iff.2 (by simpa using hcf))]; exact ⟨false, rfl, by simp⟩
  rw [if_neg (by rw [isInf_iff]; simpa using hcf)]
  obtain ⟨C, gC, _, eC⟩ := getI_fin hc hcf
  by_cases haf : a < INF0
  · obtain ⟨A, gA, _, eA⟩ := getI_fin ha haf
    by_cases hbf : b < INF0
    · obtain ⟨B, gB, _, eB⟩ := getI_fin hb hbf
      simp only [isFin_iff.2 haf, isFin_iff.2 hbf, gA, gB, gC, gP, Res.ok_bind, Bool.and_self, if_true]
      refine ⟨_, rfl, ?_⟩
      rw [eA, eB, eC] at h1
      rw [eP, eA, eB] at h2
      rw [eP, eA, eB, eC]
      intro h
      exact crS_convex h1 h2 ((inCircumcircle_iff h1 h2).1 h)
    · have hbf' : isFin b = false := by rw [isFin_false_iff]; omega
      simp only [isFin_iff.2 haf, hbf', Bool.and_false, Bool.not_true, Bool.false_and, Bool.false_eq_true, if_false,
        inHalfPlane1, oppEdgeIdx, edgeToVert0, edgeToVert1, Quad.v, Fin.castSucc, Fin.castAdd, Fin.castLE, gA, gC, gP,
        Res.ok_bind]
      have wb := hp_w_inf vs hbf
      have wa := hp_w_fin vs haf
      have wc := hp_w_fin vs hcf
      have wp := hp_w_fin vs hpf
      have e := HP.bary_w (hp vs b) (hp vs a) (hp vs c) (hp vs p)
      rw [wb, wa, wc, wp] at e
      refine ⟨_, rfl, ?_⟩
      intro h
      have h' : HP.o (hp vs a) (hp vs c) (hp vs p) ≥ ExactParams.eps := by
        simp [strictlyRightOfEdge, edgeSide_eq] at h
        rw [eA, eC, eP]; linarith
      have hpos : 0 < HP.o (hp vs a) (hp vs c) (hp vs p) := lt_of_lt_of_le ExactParams.eps_pos h'
      rw [HP.o_cyc'] at h2
      rw [HP.o_cyc' (hp vs a) (hp vs c) (hp vs p), HP.o_cyc' (hp vs c) (hp vs b) (hp vs p)]
      refine ⟨hpos, ?_⟩
      rw [HP.o_swap (hp vs a) (hp vs b) (hp vs p)] at e
      linarith
  · have haf' : isFin a = false := by rw [isFin_false_iff]; omega
    by_cases hbf : b < INF0
    · obtain ⟨B, gB, _, eB⟩ := getI_fin hb hbf
      simp only [isFin_iff.2 hbf, haf', Bool.and_false, Bool.not_true, Bool.false_and, Bool.and_true, Bool.not_false,
        Bool.false_eq_true, if_false, if_true,
        inHalfPlane1, oppEdgeIdx, edgeToVert0, edgeToVert1, Quad.v, Fin.castSucc, Fin.castAdd, Fin.castLE, gB, gC, gP,
        Res.ok_bind]
      have wb := hp_w_fin vs hbf
      have wa := hp_w_inf vs haf
      have wc := hp_w_fin vs hcf
      have wp := hp_w_fin vs hpf
      have e := HP.bary_w (hp vs b) (hp vs a) (hp vs c) (hp vs p)
      rw [wb, wa, wc, wp] at e
      refine ⟨_, rfl, ?_⟩
      intro h
      have h' : HP.o (hp vs c) (hp vs b) (hp vs p) ≥ ExactParams.eps := by
        simp [strictlyRightOfEdge, edgeSide_eq] at h
        rw [eB, eC, eP]; linarith
      have hpos : 0 < HP.o (hp vs c) (hp vs b) (hp vs p) := lt_of_lt_of_le ExactParams.eps_pos h'
      rw [HP.o_cyc'] at h2
      rw [HP.o_cyc' (hp vs a) (hp vs c) (hp vs p), HP.o_cyc' (hp vs c) (hp vs b) (hp vs p)]
      refine ⟨?_, hpos⟩
      rw [HP.o_swap (hp vs a) (hp vs b) (hp vs p)] at e
      linarith
    · exfalso
      have := HP.o_inf2 (hp_w_inf vs hbf) (hp_w_inf vs haf) (hp_w_fin vs hcf) (hp_w_fin vs hpf)
      rw [this, HP.o_swap] at h1
      rw [HP.o_cyc'] at h2
      linarith

end

/-! ## The swap step on a valid mesh -/

section
variable {K : Type} [Field K] [LinearOrder K] [IsStrictOrderedRing K] [ExactParams K] [IdCfg]
variable {vs : List (Vtx K)} {ts : List Tri}

/-- One diagonal swap of a strictly convex quad. -/
def Flip (H : Nat → HP K) (ts ts' : List Tri) : Prop :=
  ∃ s o p a b c n1 n2 n3 n4, FlipSpec ts ts' s o p a b c n1 n2 n3 n4 ∧
    0 < HP.o (H p) (H a) (H c) ∧ 0 < HP.o (H p) (H c) (H b)

theorem Flip.valid {H : Nat → HP K} {ts ts' : List Tri} (h : Flip H ts ts') (hv : Valid H ts) : Valid H ts' := by
  obtain ⟨_, _, _, _, _, _, _, _, _, _, hf, h1, h2⟩ := h
  exact hf.valid hv h1 h2

/-- `check_and_swap_quad_diagonal` on a valid mesh: no panic; either the test fails and nothing
changes, or the diagonal of a strictly convex quad is swapped. -/
theorem checkAndSwap_total (hv : Valid (hp vs) ts) (hn : vs.length ≤ INF0) (hok : VertsIn (VOk vs.length) ts)
    {p s o a b n1 n2 : Nat} {st : List (Nat × Nat)} (hpl : p < vs.length)
    (hs : ts[s]? = some ⟨p, a, b, n2, o, n1⟩) (ho : o ≠ NONE) :
    ∃ U c n3 n4, ts[o]? = some U ∧ Rot U b a c s n3 n4 ∧
      ((shouldSwap vs ⟨a, b, c, p⟩ = .ok false ∧ checkAndSwap vs p ts s o st = .ok (ts, st)) ∨
       (shouldSwap vs ⟨a, b, c, p⟩ = .ok true ∧ ∃ ts',
          checkAndSwap vs p ts s o st = .ok (ts', pushQ (pushQ st s n3) o n4) ∧
          FlipSpec ts ts' s o p a b c n1 n2 n3 n4 ∧ ts'[s]? = some ⟨p, a, c, n2, n3, o⟩ ∧
          ts'[o]? = some ⟨p, c, b, s, n4, n1⟩ ∧
          0 < HP.o (hp vs p) (hp vs a) (hp vs c) ∧ 0 < HP.o (hp vs p) (hp vs c) (hp vs b))) := by
  have hpf : p < INF0 := by omega
  have hR := rot_self (⟨p, a, b, n2, o, n1⟩ : Tri)
  simp only at hR
  obtain ⟨U, hU, hh⟩ := hv.ent_pos ⟨_, hs, hR.has2⟩ ho
  obtain ⟨c, n3, n4, hRU⟩ := hh.rot
  have hls := lt_of_getElem? hs
  have hlen := hv.len
  refine ⟨U, c, n3, n4, hU, hRU, ?_⟩
  have hq := quadOf_rot hv hU hRU (by omega) p
  have pS := hR.pos_iff.1 (hv.pos _ _ hs)
  have pU := hRU.pos_iff.1 (hv.pos _ _ hU)
  have oka : VOk vs.length a := hok.get hs 1
  have okb : VOk vs.length b := hok.get hs 2
  have okc : VOk vs.length c := by
    have := fun k => hok.get hU k
    rw [forall_fin3] at this
    rcases hRU with rfl | rfl | rfl
    · exact this.2.2
    · exact this.1
    · exact this.2.1
  obtain ⟨r, hr, hr'⟩ := shouldSwap_spec (vs := vs) oka okb okc hpl hpf pU pS
  cases r with
  | false =>
    left
    refine ⟨hr, ?_⟩
    unfold checkAndSwap
    simp only [getI_of hU, Res.ok_bind, hq, hr, Bool.false_eq_true, if_false]
  | true =>
    right
    obtain ⟨g1, g2⟩ := hr' rfl
    have hpc : p ≠ c := by
      rintro rfl; rw [HP.o_same] at g2; exact lt_irrefl _ g2
    obtain ⟨ts1, ts', u1, u2, hF⟩ := flip_total hv hs hR hU hRU (S' := ⟨p, a, c, n2, n3, o⟩)
      (U' := ⟨p, c, b, s, n4, n1⟩) (.inl rfl) (.inl rfl) hpc
    refine ⟨hr, ts', ?_, hF, ?_, ?_, g1, g2⟩
    · unfold checkAndSwap
      simp only [getI_of hU, Res.ok_bind, hq, hr, if_true, getI_of hs, u1, u2]
    · obtain ⟨⟨b1, _, b3, _⟩, ⟨_, _, _, _⟩, _⟩ := hF.outer_ne hv hpc
      have := updNb_total ((ts.set s ⟨p, a, c, n2, n3, o⟩).set o ⟨p, c, b, s, n4, n1⟩) (n := n1) (old := s) (new := o)
        (by simpa using hv.nb_range ⟨_, hs, hR.has3⟩)
      obtain ⟨x1, y1, l1, z1⟩ := this
      rw [u1] at y1; simp at y1; subst y1
      have := updNb_total ts1 (n := n3) (old := o) (new := s) (by rw [l1]; simpa using hv.nb_range ⟨_, hU, hRU.has2⟩)
      obtain ⟨x2, y2, l2, z2⟩ := this
      rw [u2] at y2; simp at y2; subst y2
      rw [z2, z1, if_neg (fun h => b3 h.2.symm), if_neg (fun h => b1 h.2.symm),
        List.getElem?_set_ne (hF.s_ne_o hv), List.getElem?_set_self hls]
    · obtain ⟨⟨b1, _, b3, _⟩, ⟨c1, _, c3, _⟩, _⟩ := hF.outer_ne hv hpc
      have := updNb_total ((ts.set s ⟨p, a, c, n2, n3, o⟩).set o ⟨p, c, b, s, n4, n1⟩) (n := n1) (old := s) (new := o)
        (by simpa using hv.nb_range ⟨_, hs, hR.has3⟩)
      obtain ⟨x1, y1, l1, z1⟩ := this
      rw [u1] at y1; simp at y1; subst y1
      have := updNb_total ts1 (n := n3) (old := o) (new := s) (by rw [l1]; simpa using hv.nb_range ⟨_, hU, hRU.has2⟩)
      obtain ⟨x2, y2, l2, z2⟩ := this
      rw [u2] at y2; simp at y2; subst y2
      rw [z2, z1, if_neg (fun h => c3 h.2.symm), if_neg (fun h => c1 h.2.symm),
        List.getElem?_set_self (by simpa using lt_of_getElem? hU)]

end

end CDT

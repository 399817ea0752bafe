import Verif.Geo.CdtChain
import Mathlib.Dynamics.PeriodicPts.Defs

/-! # The triangles around a vertex -/

set_option linter.unusedSectionVars false
set_option linter.unusedSimpArgs false
set_option linter.unusedVariables false

namespace CDT

section
variable {K : Type} [Field K] [LinearOrder K] [IsStrictOrderedRing K] [ExactParams K] [IdCfg]

/-- A closed fan around `a` covers every direction `b`. -/
theorem wedge (a b : HP K) (u : Nat → HP K) {m : Nat} (hm : 1 ≤ m) (hper : ∀ k, u (k + m) = u k)
    (hpos : ∀ k, 0 < HP.o a (u k) (u (k + 1))) {y : HP K} (hy : HP.o a b y ≠ 0) :
    ∃ k, 0 ≤ HP.o a (u k) b ∧ HP.o a (u (k + 1)) b < 0 := by
  by_contra hno
  have hno : ∀ k, 0 ≤ HP.o a (u k) b → 0 ≤ HP.o a (u (k + 1)) b := fun k h =>
    not_lt.1 fun h' => hno ⟨k, h, h'⟩
  by_cases hall : ∀ k, HP.o a (u k) b < 0
  · have tr : ∀ k, 0 < HP.o a (u 0) (u (k + 1)) := by
      intro k
      induction k with
      | zero => exact hpos 0
      | succ k ih =>
        have p := HP.plucker a (u 0) (u (k + 1)) (u (k + 2)) b
        have m1 := mul_neg_of_pos_of_neg ih (hall (k + 2))
        have m2 := mul_neg_of_neg_of_pos (hall 0) (hpos (k + 1))
        by_contra hc
        have := mul_nonneg_of_nonpos_of_nonpos (not_lt.1 hc) (hall (k + 1)).le
        linarith
    have := tr (m - 1)
    rw [Nat.sub_add_cancel hm, ← Nat.zero_add m, hper 0, HP.o_same'] at this
    exact lt_irrefl _ this
  · push Not at hall
    obtain ⟨k0, hk0⟩ := hall
    have nn : ∀ k, 0 ≤ HP.o a (u (k0 + k)) b := by
      intro k
      induction k with
      | zero => exact hk0
      | succ k ih => exact hno _ ih
    have pp : ∀ k, 0 < HP.o a (u (k0 + 1 + k)) b := by
      intro k
      refine lt_of_le_of_ne (by have := nn (1 + k); rwa [← Nat.add_assoc] at this) fun h0 => ?_
      have n0 := nn k
      have n2 := nn (k + 2)
      have e2 : k0 + 1 + k = k0 + k + 1 := by omega
      rw [e2] at h0
      have p := HP.plucker a (u (k0 + k)) (u (k0 + k + 1)) (u (k0 + k + 1 + 1)) b
      have q1 := hpos (k0 + k)
      have q2 := hpos (k0 + k + 1)
      rw [← h0, mul_zero, sub_zero] at p
      have m1 := mul_nonneg q1.le n2
      have m2 := mul_nonneg n0 q2.le
      have z : HP.o a (u (k0 + k + 1 + 1)) b = 0 := by
        have e3 : k0 + (k + 2) = k0 + k + 1 + 1 := by omega
        rw [e3] at m1
        have : HP.o a (u (k0 + k)) (u (k0 + k + 1)) * HP.o a (u (k0 + k + 1 + 1)) b = 0 := by linarith
        rcases mul_eq_zero.1 this with h | h
        · exact absurd h q1.ne'
        · exact h
      have p2 := HP.plucker a (u (k0 + k + 1)) (u (k0 + k + 1 + 1)) b y
      rw [← h0, z, zero_mul, mul_zero, sub_zero, add_zero] at p2
      rcases mul_eq_zero.1 p2 with h | h
      · exact q2.ne' h
      · exact hy h
    have tr : ∀ k, 0 < HP.o a (u (k0 + 1)) (u (k0 + 1 + (k + 1))) := by
      intro k
      induction k with
      | zero => exact hpos _
      | succ k ih =>
        have p := HP.plucker a (u (k0 + 1)) (u (k0 + 1 + (k + 1))) (u (k0 + 1 + (k + 2))) b
        have m1 := mul_pos ih (pp (k + 2))
        have m2 := mul_pos (pp 0) (hpos (k0 + 1 + (k + 1)))
        by_contra hc
        have := mul_nonpos_of_nonpos_of_nonneg (not_lt.1 hc) (pp (k + 1)).le
        simp only [Nat.add_zero] at m2
        have e : k0 + 1 + (k + 1) + 1 = k0 + 1 + (k + 2) := by omega
        rw [e] at m2
        linarith
    have := tr (m - 1)
    rw [Nat.sub_add_cancel hm, hper, HP.o_same'] at this
    exact lt_irrefl _ this

/-- The orbit of an injective map on a finite set is a cycle. -/
theorem orbit_cycle {n : Nat} {f : Nat → Nat} {P : Nat → Prop} (hP : ∀ i, P i → i < n ∧ P (f i))
    (inj : ∀ i j, P i → P j → f i = f j → i = j) {s : Nat} (hs : P s) :
    ∃ m, 1 ≤ m ∧ m ≤ n ∧ f^[m] s = s ∧ ∀ k, 0 < k → k < m → f^[k] s ≠ s := by
  have hall : ∀ k, P (f^[k] s) := by
    intro k
    induction k with
    | zero => exact hs
    | succ k ih => rw [Function.iterate_succ_apply']; exact (hP _ ih).2
  have back : ∀ i d, f^[i] s = f^[i + d] s → f^[d] s = s := by
    intro i d h
    induction i with
    | zero => simp at h; exact h.symm
    | succ i ih =>
      refine ih (inj _ _ (hall _) (hall _) ?_)
      rw [← Function.iterate_succ_apply' f i s, ← Function.iterate_succ_apply' f (i + d) s]
      rw [show (i + d).succ = i + 1 + d by omega]
      exact h
  have ex : ∃ d, (1 ≤ d ∧ f^[d] s = s) ∧ d ≤ n := by
    have hm : Set.MapsTo (fun k => f^[k] s) (Finset.range (n + 1) : Set Nat) (Finset.range n : Set Nat) := by
      intro k _
      simp only [Finset.coe_range, Set.mem_Iio]
      exact (hP _ (hall k)).1
    obtain ⟨i, hi, j, hj, hij, he⟩ := Finset.exists_ne_map_eq_of_card_lt_of_maps_to (by simp) hm
    simp at hi hj
    rcases lt_or_gt_of_ne hij with h | h
    · exact ⟨j - i, ⟨by omega, back i _ (by rw [Nat.add_sub_cancel' h.le]; exact he)⟩, by omega⟩
    · exact ⟨i - j, ⟨by omega, back j _ (by rw [Nat.add_sub_cancel' h.le]; exact he.symm)⟩, by omega⟩
  obtain ⟨d, hd, hdn⟩ := ex
  have hex : ∃ d, 1 ≤ d ∧ f^[d] s = s := ⟨d, hd⟩
  refine ⟨Nat.find hex, (Nat.find_spec hex).1, (Nat.find_min' hex hd).trans hdn, (Nat.find_spec hex).2, ?_⟩
  intro k h0 h1 h2
  exact Nat.find_min hex h1 ⟨h0, h2⟩

end

section
variable {K : Type} [Field K] [LinearOrder K] [IsStrictOrderedRing K] [ExactParams K] [IdCfg]
variable {vs : List (Vtx K)} {ts : List Tri} {H : Nat → HP K} {a b : Nat}

/-- Next triangle around `a` and first vertex after `a`. -/
def nx (ts : List Tri) (a i : Nat) : Nat :=
  match ts[i]? with
  | some T => T.n (outerCwEdge (T.vertexIndex a))
  | none => 0

def fst (ts : List Tri) (a i : Nat) : Nat :=
  match ts[i]? with
  | some T => (T.edge (oppEdgeIdx (T.vertexIndex a))).src
  | none => 0

def Star (ts : List Tri) (a i : Nat) : Prop := ∃ T, ts[i]? = some T ∧ T.hasVert a = true

theorem Star.next (hv : Valid H ts) (ha : a < INF0) {i : Nat} (h : Star ts a i) :
    ∃ T v j1 j2, ts[i]? = some T ∧ Rot T a (fst ts a i) v j1 j2 (nx ts a i) ∧ nx ts a i ≠ NONE ∧ Star ts a (nx ts a i) ∧
      fst ts a (nx ts a i) = v ∧ Ent ts (nx ts a i) a v i := by
  obtain ⟨T, hT, hTa⟩ := h
  obtain ⟨u, v, j1, j2, j3, hR, e1, e2, e3, e4⟩ := vertexIndex_rot4 hTa (hv.pos _ _ hT)
  have n1 : nx ts a i = j3 := by simp only [nx, hT]; exact e3
  have f1 : fst ts a i = u := by simp only [fst, hT, e1]
  have hE : Ent ts i v a j3 := ⟨T, hT, hR.has3⟩
  have hN : j3 ≠ NONE := by
    intro hN
    rcases hv.adj _ _ _ _ hE with h | h
    · exact h.2.2 ha
    · exact h.1 hN
  have hE' := hv.ent_pos hE hN
  obtain ⟨T', hT', hh⟩ := hE'
  obtain ⟨w, _, _, hR'⟩ := hh.rot
  have hTa' : T'.hasVert a = true := hR'.hasVert.2 (by simp)
  have f2 : fst ts a j3 = v := by
    obtain ⟨u', v', k1, k2, k3, hR2, g1, -⟩ := vertexIndex_rot4 hTa' (hv.pos _ _ hT')
    simp only [fst, hT', g1]
    have := (hv.pos _ _ hT').has_ne hR'.has1
    have := (hv.pos _ _ hT').has_ne hR'.has3
    rcases hR2.has_iff.1 hR'.has1 with ⟨_, h, _⟩ | ⟨h1, h2, _⟩ | ⟨h1, h2, _⟩
    · exact h
    · exact absurd h1 ((hv.pos _ _ hT').has_ne hR2.has1).symm
    · exact absurd h1 ((hv.pos _ _ hT').has_ne hR2.has3)
  rw [n1, f1]
  exact ⟨T, v, j1, j2, hT, hR, hN, ⟨T', hT', hTa'⟩, f2, T', hT', hh⟩

theorem nx_inj (hv : Valid H ts) (ha : a < INF0) {i j : Nat} (hi : Star ts a i) (hj : Star ts a j)
    (h : nx ts a i = nx ts a j) : i = j := by
  obtain ⟨_, v, _, _, _, _, _, _, e1, E1⟩ := hi.next hv ha
  obtain ⟨_, v', _, _, _, _, _, _, e2, E2⟩ := hj.next hv ha
  rw [h] at E1 e1
  rw [e1] at e2; subst e2
  exact hv.ent_nb E1 E2

theorem Star.iter (hv : Valid H ts) (ha : a < INF0) {s : Nat} (hs : Star ts a s) (k : Nat) :
    Star ts a ((nx ts a)^[k] s) := by
  induction k with
  | zero => exact hs
  | succ k ih =>
    rw [Function.iterate_succ_apply']
    obtain ⟨_, _, _, _, _, _, _, h, _⟩ := ih.next hv ha
    exact h

/-- The triangles around `a` from `s` on form a cycle; one of them contains the direction of `q`. -/
theorem Star.wedge (hv : Valid H ts) (ha : a < INF0) {s : Nat} (hs : Star ts a s) :
    ∃ m, 1 ≤ m ∧ m ≤ ts.length ∧ (∀ k, 0 < k → k < m → (nx ts a)^[k] s ≠ s) ∧
      ∀ q y : HP K, HP.o (H a) q y ≠ 0 → ∃ k < m, ∃ T u v j1 j2 j3, ts[(nx ts a)^[k] s]? = some T ∧ Rot T a u v j1 j2 j3 ∧
        0 ≤ HP.o (H a) (H u) q ∧ HP.o (H a) (H v) q < 0 := by
  obtain ⟨m, m1, m2, m3, m4⟩ := orbit_cycle (n := ts.length) (f := nx ts a) (P := Star ts a)
    (fun i hi => ⟨by obtain ⟨T, hT, _⟩ := hi; exact lt_of_getElem? hT, by
      obtain ⟨_, _, _, _, _, _, _, h, _⟩ := hi.next hv ha
      exact h⟩) (fun i j hi hj h => nx_inj hv ha hi hj h) hs
  refine ⟨m, m1, m2, m4, fun q y hy => ?_⟩
  have hper : Function.IsPeriodicPt (nx ts a) m s := m3
  have step : ∀ k, ∃ T v j1 j2 j3, ts[(nx ts a)^[k] s]? = some T ∧ Rot T a (fst ts a ((nx ts a)^[k] s)) v j1 j2 j3 ∧
      fst ts a ((nx ts a)^[k + 1] s) = v := by
    intro k
    obtain ⟨T, v, j1, j2, hT, hR, _, _, hf, _⟩ := (hs.iter hv ha k).next hv ha
    refine ⟨T, v, j1, j2, _, hT, hR, ?_⟩
    rw [Function.iterate_succ_apply']; exact hf
  obtain ⟨k, h1, h2⟩ := CDT.wedge (H a) q (fun k => H (fst ts a ((nx ts a)^[k] s))) m1
    (fun k => by
      have : (nx ts a)^[k + m] s = (nx ts a)^[k] s := by rw [Function.iterate_add_apply, m3]
      simp only [this])
    (fun k => by
      obtain ⟨T, v, j1, j2, j3, hT, hR, hf⟩ := step k
      simp only [hf]
      exact hR.pos_iff.1 (hv.pos _ _ hT)) hy
  obtain ⟨T, v, j1, j2, j3, hT, hR, hf⟩ := step k
  refine ⟨k % m, Nat.mod_lt _ (by omega), T, _, v, j1, j2, j3, ?_, hR, h1, ?_⟩
  · rw [hper.iterate_mod_apply]; exact hT
  · rw [hf] at h2; exact h2

end

end CDT

import Verif.Geo.HullMesh
import Verif.Geo.Corner
import Verif.Props.Boxed

/-! # The search in a convex Delaunay mesh, for points anywhere -/

set_option linter.unusedSectionVars false
set_option linter.unusedSimpArgs false
set_option linter.unusedVariables false

namespace CDT

section
variable {K : Type} [Field K] [LinearOrder K] [IsStrictOrderedRing K] [ExactParams K] [IdCfg]
variable {vs : List (Vtx K)} {ts : List Tri} {P : HP K}

/-- The triangle `i` has the vertices `a`, `b`, `c` in this cyclic order. -/
def At (ts : List Tri) (i a b c : Nat) : Prop := ∃ (T : Tri) (j1 j2 j3 : Nat), ts[i]? = some T ∧ Rot T a b c j1 j2 j3

theorem At.next {i a b c : Nat} (h : At ts i a b c) : At ts i b c a := by
  obtain ⟨T, _, _, _, hT, hR⟩ := h
  exact ⟨T, _, _, _, hT, hR.next⟩

theorem At.triIn {i a b c : Nat} (h : At ts i a b c) : TriIn ts a b c := by
  obtain ⟨T, _, _, _, hT, hR⟩ := h
  exact ⟨i, T, _, _, _, hT, hR⟩

/-- The edges of a triangle. -/
theorem At.edge {i a b c x y j : Nat} (h : At ts i a b c) (hE : Ent ts i x y j) :
    (x = a ∧ y = b) ∨ (x = b ∧ y = c) ∨ (x = c ∧ y = a) := by
  obtain ⟨T, _, _, _, hT, hR⟩ := h
  obtain ⟨T', hT', hh⟩ := hE
  rw [hT] at hT'; simp at hT'; subst hT'
  rw [hR.has_iff] at hh
  tauto

/-- The triangle behind an edge. -/
theorem Ent.behind (hv : Valid (hp vs) ts) {i x y j : Nat} (hE : Ent ts i x y j) (hj : j < ts.length) :
    ∃ d, At ts j y x d ∧ Ent ts j y x i := by
  have hjn : j ≠ NONE := by have := hv.len; omega
  obtain ⟨U, hU, hh⟩ := hv.ent_pos hE hjn
  obtain ⟨d, k2, k3, hR⟩ := hh.rot
  exact ⟨d, ⟨U, _, _, _, hU, hR⟩, U, hU, hh⟩

/-- The point is past the ray from `v` in the direction `k`. -/
theorem ray_along {v : Nat} (fv : v < INF0) (k : Fin 4) (hP : P.w = 1) :
    HP.o (hp vs v) (HP.dir k) P = (HP.dir k).along (hp vs v) - (HP.dir k).along P := by
  have wz : (HP.dir k : HP K).w = 0 := by fin_cases k <;> rfl
  rw [HP.o_cyc', HP.o_cyc', HP.o_along hP (hp_w_fin vs fv) wz]

theorem dir_unit (k : Fin 4) : (HP.dir k : HP K).x ^ 2 + (HP.dir k : HP K).y ^ 2 = 1 := by fin_cases k <;> simp [HP.dir]

/-- Step of the walk across the ray from a real vertex, with the ray on the right. -/
def RF (vs : List (Vtx K)) (ts : List Tri) (P : HP K) (i j : Nat) : Prop :=
  ∃ (v : Nat) (k : Fin 4), v < INF0 ∧ Ent ts i v (INF0 + k) j ∧ j < ts.length ∧ HP.o (hp vs v) (HP.dir k) P < 0

/-- The other way around. -/
def RB (vs : List (Vtx K)) (ts : List Tri) (P : HP K) (i j : Nat) : Prop :=
  ∃ (v : Nat) (k : Fin 4), v < INF0 ∧ Ent ts i (INF0 + k) v j ∧ j < ts.length ∧ HP.o (HP.dir k) (hp vs v) P < 0

/-- The link of the triangle `i` is visible from `P`. -/
def Vis (vs : List (Vtx K)) (ts : List Tri) (P : HP K) (i : Nat) : Prop :=
  ∃ (b a : Nat) (k : Fin 4), At ts i b a (INF0 + k) ∧ b < INF0 ∧ a < INF0 ∧ 0 ≤ HP.o (hp vs b) (hp vs a) P

/-- Unbounded triangles on the way along the visible part of the border, in the direction of `RF`. -/
def JF (vs : List (Vtx K)) (ts : List Tri) (P : HP K) (i : Nat) : Prop := Vis vs ts P i ∨
  ∃ (v : Nat) (m : Fin 4), At ts i v (INF0 + m) (INF0 + (m + 1 : Fin 4)) ∧ v < INF0 ∧
    ((∃ u, u < INF0 ∧ TriIn ts u v (INF0 + (m + 1 : Fin 4)) ∧ 0 ≤ HP.o (hp vs u) (hp vs v) P ∧ HP.o (hp vs v) (HP.dir (m + 1)) P < 0) ∨
      HP.o (hp vs v) (HP.dir (m + 2)) P < 0)

/-- In the direction of `RB`. -/
def JB (vs : List (Vtx K)) (ts : List Tri) (P : HP K) (i : Nat) : Prop := Vis vs ts P i ∨
  ∃ (v : Nat) (m : Fin 4), At ts i v (INF0 + m) (INF0 + (m + 1 : Fin 4)) ∧ v < INF0 ∧
    ((∃ u, u < INF0 ∧ TriIn ts v u (INF0 + m) ∧ 0 ≤ HP.o (hp vs v) (hp vs u) P ∧ HP.o (HP.dir m) (hp vs v) P < 0) ∨
      HP.o (HP.dir (m + 3)) (hp vs v) P < 0)

theorem HP.dir_opp (A P : HP K) (k : Fin 4) : HP.o A (HP.dir (k + 2)) P = - HP.o A (HP.dir k) P := by
  fin_cases k <;> simp [HP.o, HP.dir] <;> ring

/-- Neighboring links on one chain. -/
theorem slope_next {tb ta td tp sb sa sd sp : K} (h1 : tb < ta) (h2 : ta < td) (h3 : ta < tp)
    (ho : 0 ≤ (sp - sb) * (ta - tb) - (sa - sb) * (tp - tb)) (hd : (sd - sb) * (ta - tb) - (sa - sb) * (td - tb) ≤ 0) :
    0 ≤ (sp - sa) * (td - ta) - (sd - sa) * (tp - ta) := by
  have e : (ta - tb) * ((sp - sa) * (td - ta) - (sd - sa) * (tp - ta)) =
      (td - ta) * ((sp - sb) * (ta - tb) - (sa - sb) * (tp - tb)) - (tp - ta) * ((sd - sb) * (ta - tb) - (sa - sb) * (td - tb)) := by ring
  have m1 := mul_nonneg (sub_pos.2 h2).le ho
  have m2 := mul_nonneg (sub_pos.2 h3).le (neg_nonneg.2 hd)
  by_contra hc
  have := mul_neg_of_pos_of_neg (sub_pos.2 h1) (not_le.1 hc)
  linarith

/-- Neighboring links on two chains. -/
theorem slope_turn {tb ta td tp sb sa sd sp : K} (h1 : tb < ta) (h2 : sd < sa) (h3 : ta < tp) (h4 : sp < sa)
    (ho : 0 ≤ (sp - sb) * (ta - tb) - (sa - sb) * (tp - tb)) (hd : (sd - sb) * (ta - tb) - (sa - sb) * (td - tb) ≤ 0) :
    0 ≤ (sp - sa) * (td - ta) - (sd - sa) * (tp - ta) := by
  -- the link goes down
  have hs : 0 < sb - sa := by
    by_contra hc
    have m1 := mul_nonneg (neg_nonneg.2 (not_lt.1 hc)) (sub_pos.2 h3).le
    have m2 := mul_pos (sub_pos.2 h4) (sub_pos.2 h1)
    nlinarith
  have e : (sb - sa) * ((sp - sa) * (td - ta) - (sd - sa) * (tp - ta)) =
      (sa - sd) * ((sp - sb) * (ta - tb) - (sa - sb) * (tp - tb)) - (sa - sp) * ((sd - sb) * (ta - tb) - (sa - sb) * (td - tb)) := by ring
  have m1 := mul_nonneg (sub_pos.2 h2).le ho
  have m2 := mul_nonneg (sub_pos.2 h4).le (neg_nonneg.2 hd)
  by_contra hc
  have := mul_neg_of_pos_of_neg hs (not_le.1 hc)
  linarith

theorem JF.step (hv : Valid (hp vs) ts) (ht : Tiled vs ts) (hE : Emp vs ts) (hinf : ∀ q, Occ ts q → ¬ q < INF0 → ∃ k : Fin 4, q = INF0 + k)
    (hP : P.w = 1) {i j : Nat} (h : JF vs ts P i) (hs : RF vs ts P i j) : JF vs ts P j := by
  obtain ⟨v, k, fv, hEnt, hj, ho⟩ := hs
  obtain ⟨d, hA, -⟩ := hEnt.behind hv hj
  have infne : ∀ {x : Nat} {k : Fin 4}, x < INF0 → x ≠ INF0 + k := fun h e => by omega
  have infinj : ∀ {k l : Fin 4}, INF0 + (k : Nat) = INF0 + l → k = l := fun e => by ext; omega
  rcases h with ⟨b, a, m, hi, fb, fa, hvis⟩ | ⟨u, m, hi, fu, hc⟩
  · obtain ⟨rfl, rfl⟩ : v = a ∧ k = m := by
      rcases hi.edge hEnt with ⟨-, e⟩ | ⟨e1, e2⟩ | ⟨e, -⟩
      · exact absurd e.symm (infne fa)
      · exact ⟨e1, infinj e2⟩
      · exact absurd e (infne fv)
    have hl := link_lt hv ht hi.triIn fb fa
    rw [ray_along fv k hP] at ho
    by_cases fd : d < INF0
    · refine .inl ⟨v, d, k, hA.next, fv, fd, ?_⟩
      have hd := hE.hull v b _ d hi.triIn fa fb (inf_ge k) hA.next.next.triIn.occ fd
      have hl2 := link_lt hv ht hA.next.triIn fv fd
      rw [HP.o_out (hp_w_fin vs fb) (hp_w_fin vs fa) hP (dir_unit k)] at hvis
      rw [HP.o_swap, neg_nonneg, HP.o_out (hp_w_fin vs fb) (hp_w_fin vs fa) (hp_w_fin vs fd) (dir_unit k)] at hd
      rw [HP.o_out (hp_w_fin vs fv) (hp_w_fin vs fd) hP (dir_unit k)]
      exact slope_next hl hl2 (by linarith) hvis hd
    · obtain ⟨l, rfl⟩ := hinf d hA.next.next.triIn.occ fd
      obtain ⟨-, rfl⟩ := cone_dir hv hA.next.triIn
      exact .inr ⟨v, l, hA.next, fv, .inl ⟨b, fb, hi.triIn, hvis, by rw [ray_along fv _ hP]; exact ho⟩⟩
  · obtain ⟨rfl, rfl⟩ : v = u ∧ k = m := by
      rcases hi.edge hEnt with ⟨e1, e2⟩ | ⟨e, -⟩ | ⟨e, -⟩
      · exact ⟨e1, infinj e2⟩
      · exact absurd e (infne fv)
      · exact absurd e (infne fv)
    rcases hc with ⟨u, fu', hu, hvis, ho2⟩ | hc
    swap
    · rw [HP.dir_opp] at hc; linarith
    by_cases fd : d < INF0
    · refine .inl ⟨v, d, k, hA.next, fv, fd, ?_⟩
      have hd := hE.hull v u _ d hu fv fu' (inf_ge _) hA.next.next.triIn.occ fd
      have hl := link_lt hv ht hu fu' fv
      have hl2 := link_lt hv ht hA.next.triIn fv fd
      rw [ray_along fv _ hP] at ho ho2
      rw [dir_along, dir_along] at ho hl2
      rw [HP.o_out (hp_w_fin vs fu') (hp_w_fin vs fv) hP (dir_unit (k + 1))] at hvis
      rw [HP.o_swap, neg_nonneg, HP.o_out (hp_w_fin vs fu') (hp_w_fin vs fv) (hp_w_fin vs fd) (dir_unit (k + 1))] at hd
      rw [HP.o_out (hp_w_fin vs fv) (hp_w_fin vs fd) hP (dir_unit (k + 1))]
      exact slope_turn hl (by linarith) (by linarith) (by linarith) hvis hd
    · obtain ⟨l, rfl⟩ := hinf d hA.next.next.triIn.occ fd
      obtain ⟨-, rfl⟩ := cone_dir hv hA.next.triIn
      have e : l + 1 + 1 = l + 2 := by fin_cases l <;> rfl
      rw [e] at ho2
      exact .inr ⟨v, l, hA.next, fv, .inr ho2⟩

theorem JB.step (hv : Valid (hp vs) ts) (ht : Tiled vs ts) (hE : Emp vs ts) (hinf : ∀ q, Occ ts q → ¬ q < INF0 → ∃ k : Fin 4, q = INF0 + k)
    (hP : P.w = 1) {i j : Nat} (h : JB vs ts P i) (hs : RB vs ts P i j) : JB vs ts P j := by
  obtain ⟨v, k, fv, hEnt, hj, ho⟩ := hs
  obtain ⟨d, hA, -⟩ := hEnt.behind hv hj
  have infne : ∀ {x : Nat} {k : Fin 4}, x < INF0 → x ≠ INF0 + k := fun h e => by omega
  have infinj : ∀ {k l : Fin 4}, INF0 + (k : Nat) = INF0 + l → k = l := fun e => by ext; omega
  rcases h with ⟨b, a, m, hi, fb, fa, hvis⟩ | ⟨u, m, hi, fu, hc⟩
  · obtain ⟨rfl, rfl⟩ : v = b ∧ k = m := by
      rcases hi.edge hEnt with ⟨e, -⟩ | ⟨e, -⟩ | ⟨e1, e2⟩
      · exact absurd e.symm (infne fb)
      · exact absurd e.symm (infne fa)
      · exact ⟨e2, infinj e1⟩
    have hl := link_lt hv ht hi.triIn fb fa
    by_cases fd : d < INF0
    · refine .inl ⟨d, v, k, hA.next.next, fd, fv, ?_⟩
      have hd := hE.hull a v _ d hi.triIn fa fb (inf_ge k) hA.next.next.triIn.occ fd
      have hl2 := link_lt hv ht hA.next.next.triIn fd fv
      rw [HP.o_swap, ray_along fv k hP] at ho
      rw [HP.o_out (hp_w_fin vs fb) (hp_w_fin vs fa) hP (dir_unit k)] at hvis
      rw [HP.o_swap, neg_nonneg, HP.o_out (hp_w_fin vs fb) (hp_w_fin vs fa) (hp_w_fin vs fd) (dir_unit k)] at hd
      rw [HP.o_out (hp_w_fin vs fd) (hp_w_fin vs fv) hP (dir_unit k)]
      have := slope_next (neg_lt_neg hl) (neg_lt_neg hl2) (tp := - (HP.dir k).along P) (by linarith)
        (sb := (HP.dir k).out (hp vs a)) (sa := (HP.dir k).out (hp vs v)) (sd := (HP.dir k).out (hp vs d)) (sp := (HP.dir k).out P)
        (by nlinarith) (by nlinarith)
      nlinarith
    · obtain ⟨l, rfl⟩ := hinf d hA.next.next.triIn.occ fd
      obtain ⟨-, rfl⟩ := cone_dir hv hA.triIn
      exact .inr ⟨v, k, hA, fv, .inl ⟨a, fa, hi.triIn, hvis, ho⟩⟩
  · obtain ⟨rfl, rfl⟩ : v = u ∧ k = m + 1 := by
      rcases hi.edge hEnt with ⟨e, -⟩ | ⟨-, e⟩ | ⟨e1, e2⟩
      · exact absurd e.symm (infne fu)
      · exact absurd e (infne fv)
      · exact ⟨e2, infinj e1⟩
    rcases hc with ⟨u, fu', hu, hvis, ho2⟩ | hc
    swap
    · have e : m + 3 = m + 1 + 2 := by fin_cases m <;> rfl
      rw [HP.o_swap, e, HP.dir_opp] at hc
      rw [HP.o_swap] at ho
      linarith
    by_cases fd : d < INF0
    · refine .inl ⟨d, v, m + 1, hA.next.next, fd, fv, ?_⟩
      have hd := hE.hull u v _ d hu fu' fv (inf_ge _) hA.next.next.triIn.occ fd
      have hl := link_lt hv ht hu fv fu'
      have hl2 := link_lt hv ht hA.next.next.triIn fd fv
      rw [HP.o_swap, ray_along fv _ hP] at ho ho2
      have e : ∀ X : HP K, (HP.dir (m + 1)).along X = (HP.dir m).out X := fun X => by
        rw [dir_along']; congr 1; fin_cases m <;> rfl
      rw [e, e] at ho hl2
      rw [HP.o_out (hp_w_fin vs fv) (hp_w_fin vs fu') hP (dir_unit m)] at hvis
      rw [HP.o_swap, neg_nonneg, HP.o_out (hp_w_fin vs fv) (hp_w_fin vs fu') (hp_w_fin vs fd) (dir_unit m)] at hd
      rw [HP.o_out (hp_w_fin vs fd) (hp_w_fin vs fv) hP (dir_unit m)]
      have := slope_turn (neg_lt_neg hl) hl2 (tp := - (HP.dir m).along P) (by linarith) (td := - (HP.dir m).along (hp vs d))
        (sb := (HP.dir m).out (hp vs u)) (sp := (HP.dir m).out P) (by linarith)
        (by nlinarith) (by nlinarith)
      nlinarith
    · obtain ⟨l, rfl⟩ := hinf d hA.next.next.triIn.occ fd
      obtain ⟨-, rfl⟩ := cone_dir hv hA.triIn
      have e : m + 1 + 3 = m := by fin_cases m <;> rfl
      exact .inr ⟨v, m + 1, hA, fv, .inr (by rw [e]; exact ho2)⟩

theorem fin_cycle3 : ∀ k k0 : Fin 4, k = k0 ∨ k = k0 + 3 ∨ k = k0 + 3 + 3 ∨ k = k0 + 3 + 3 + 3 := by decide

theorem fin_cycle1 : ∀ k k0 : Fin 4, k = k0 ∨ k = k0 + 1 ∨ k = k0 + 1 + 1 ∨ k = k0 + 1 + 1 + 1 := by decide

/-- A point with a vertex in each quadrant around it is inside all links. -/
theorem quad_vis {A B : HP K} (hA : A.w = 1) (hB : B.w = 1) (hP : P.w = 1) {k : Fin 4} (hpos : 0 < HP.o B A (HP.dir k)) {v : Fin 4 → HP K}
    (hw : ∀ k, (v k).w = 1) (hb : ∀ k, HP.o B A (v k) ≤ 0) (h1 : ∀ k, HP.o (v k) (HP.dir k) P < 0)
    (h2 : ∀ k, HP.o (v k) (HP.dir (k + 3)) P < 0) : HP.o B A P < 0 := by
  have e : ∀ X : HP K, X.w = 1 → HP.o B A X = HP.o B A P + (A.y - B.y) * (X.x - P.x) - (A.x - B.x) * (X.y - P.y) := fun X hX => by
    simp only [HP.o, hA, hB, hP, hX]; ring
  have h10 := h1 0; have h11 := h1 1; have h12 := h1 2; have h13 := h1 3
  have h20 := h2 0; have h21 := h2 1; have h22 := h2 2; have h23 := h2 3
  have b0 := hb 0; have b1 := hb 1; have b2 := hb 2; have b3 := hb 3
  rw [e _ (hw _)] at b0 b1 b2 b3
  have w0 := hw 0; have w1 := hw 1; have w2 := hw 2; have w3 := hw 3
  have c0 : (0 : Fin 4) + 3 = 3 := rfl
  have c1 : (1 : Fin 4) + 3 = 0 := rfl
  have c2 : (2 : Fin 4) + 3 = 1 := rfl
  have c3 : (3 : Fin 4) + 3 = 2 := rfl
  rw [c0] at h20; rw [c1] at h21; rw [c2] at h22; rw [c3] at h23
  simp only [HP.o, HP.dir, w0, w1, w2, w3, hP] at h10 h11 h12 h13 h20 h21 h22 h23
  have hne : A.y - B.y ≠ 0 ∨ A.x - B.x ≠ 0 := by
    by_contra hc
    rw [not_or, not_not, not_not] at hc
    have e1 : A.y = B.y := by linarith [hc.1]
    have e2 : A.x = B.x := by linarith [hc.2]
    have : HP.o B A (HP.dir k) = 0 := by simp only [HP.o, hA, hB, e1, e2]; ring
    linarith
  by_contra hc
  rw [not_lt] at hc
  generalize A.y - B.y = gy at *
  generalize A.x - B.x = gx at *
  -- the corner in the direction of the link is beyond it
  have key : ∀ dx dy : K, HP.o B A P + gy * dx - gx * dy ≤ 0 → (0 ≤ gy ∧ 0 < dx ∨ gy ≤ 0 ∧ dx < 0) →
      (0 ≤ gx ∧ dy < 0 ∨ gx ≤ 0 ∧ 0 < dy) → False := by
    intro dx dy hb hx hy
    have p1 : 0 ≤ gy * dx ∧ (gy ≠ 0 → 0 < gy * dx) := by
      rcases hx with ⟨h, h'⟩ | ⟨h, h'⟩
      · exact ⟨mul_nonneg h h'.le, fun hn => mul_pos (lt_of_le_of_ne h hn.symm) h'⟩
      · exact ⟨mul_nonneg_of_nonpos_of_nonpos h h'.le, fun hn => mul_pos_of_neg_of_neg (lt_of_le_of_ne h hn) h'⟩
    have p2 : gx * dy ≤ 0 ∧ (gx ≠ 0 → gx * dy < 0) := by
      rcases hy with ⟨h, h'⟩ | ⟨h, h'⟩
      · exact ⟨mul_nonpos_of_nonneg_of_nonpos h h'.le, fun hn => mul_neg_of_pos_of_neg (lt_of_le_of_ne h hn.symm) h'⟩
      · exact ⟨mul_nonpos_of_nonpos_of_nonneg h h'.le, fun hn => mul_neg_of_neg_of_pos (lt_of_le_of_ne h hn) h'⟩
    rcases hne with hn | hn
    · linarith [p1.2 hn, p2.1]
    · linarith [p1.1, p2.2 hn]
  rcases le_total 0 gy with hy | hy <;> rcases le_total 0 gx with hx | hx
  · exact key _ _ b2 (.inl ⟨hy, by linarith⟩) (.inl ⟨hx, by linarith⟩)
  · exact key _ _ b1 (.inl ⟨hy, by linarith⟩) (.inr ⟨hx, by linarith⟩)
  · exact key _ _ b3 (.inr ⟨hy, by linarith⟩) (.inl ⟨hx, by linarith⟩)
  · exact key _ _ b0 (.inr ⟨hy, by linarith⟩) (.inr ⟨hx, by linarith⟩)

/-- Walks along the border in one direction do not come back. -/
theorem rf_acyclic (hv : Valid (hp vs) ts) (ht : Tiled vs ts) (hE : Emp vs ts) (hinf : ∀ q, Occ ts q → ¬ q < INF0 → ∃ k : Fin 4, q = INF0 + k)
    (hP : P.w = 1) {i : Nat} (hi : Vis vs ts P i) (h : Relation.TransGen (RF vs ts P) i i) : False := by
  classical
  have infne : ∀ {x : Nat} {k : Fin 4}, x < INF0 → x ≠ INF0 + k := fun h e => by omega
  have infinj : ∀ {k l : Fin 4}, INF0 + (k : Nat) = INF0 + l → k = l := fun e => by ext; omega
  -- the triangles of the circle
  let S : Nat → Prop := fun j => Relation.ReflTransGen (RF vs ts P) j i
  have succ : ∀ j, S j → ∃ j', S j' ∧ RF vs ts P j j' := by
    intro j hj
    rcases Relation.ReflTransGen.cases_head hj with rfl | ⟨j', h1, h2⟩
    · obtain ⟨j', h1, h2⟩ := (Relation.TransGen.head'_iff).1 h
      exact ⟨j', h2, h1⟩
    · exact ⟨j', h2, h1⟩
  let X : Nat → Fin 4 → Prop := fun v k => v < INF0 ∧ ∃ j j', S j ∧ S j' ∧ Ent ts j v (INF0 + k) j' ∧ j' < ts.length ∧ HP.o (hp vs v) (HP.dir k) P < 0
  have step : ∀ v k, X v k → (∃ a, X a k ∧ (HP.dir k).along (hp vs v) < (HP.dir k).along (hp vs a)) ∨ X v (k + 3) := by
    rintro v k ⟨fv, j, j', -, hj', hEnt, hl, ho⟩
    obtain ⟨d, hA, -⟩ := hEnt.behind hv hl
    obtain ⟨j2, hj2, w, m, fw, hE2, hl2, ho2⟩ := succ j' hj'
    by_cases fd : d < INF0
    · left
      have hlt := link_lt hv ht hA.next.triIn fv fd
      rcases hA.edge hE2 with ⟨e, -⟩ | ⟨-, e⟩ | ⟨rfl, e⟩
      · exact absurd e (infne fw)
      · exact absurd e.symm (infne fd)
      · obtain rfl := infinj e
        exact ⟨w, ⟨fw, j', j2, hj', hj2, hE2, hl2, ho2⟩, hlt⟩
    · right
      obtain ⟨l, rfl⟩ := hinf d hA.next.next.triIn.occ fd
      obtain ⟨-, rfl⟩ := cone_dir hv hA.next.triIn
      have e3 : l + 1 + 3 = l := by fin_cases l <;> rfl
      rw [e3]
      rcases hA.edge hE2 with ⟨e, -⟩ | ⟨rfl, e⟩ | ⟨e, -⟩
      · exact absurd e (infne fw)
      · obtain rfl := infinj e
        exact ⟨fw, j', j2, hj', hj2, hE2, hl2, ho2⟩
      · exact absurd e (infne fw)
  have last : ∀ k, (∃ v, X v k) → ∃ v, X v k ∧ X v (k + 3) := by
    rintro k ⟨v, hX⟩
    obtain ⟨m, hm, hmax⟩ := Finset.exists_max_image ((Finset.range INF0).filter fun v => X v k) (fun v => (HP.dir k).along (hp vs v))
      ⟨v, by rw [Finset.mem_filter, Finset.mem_range]; exact ⟨hX.1, hX⟩⟩
    rw [Finset.mem_filter] at hm
    rcases step m k hm.2 with ⟨a, ha, hlt⟩ | h3
    · have := hmax a (by rw [Finset.mem_filter, Finset.mem_range]; exact ⟨ha.1, ha⟩)
      linarith
    · exact ⟨m, hm.2, h3⟩
  obtain ⟨v0, k0, fv0, hE0, hl0, ho0⟩ : ∃ (v : Nat) (k : Fin 4), X v k := by
    obtain ⟨j', h1, v, k, fv, hEnt, hl, ho⟩ := succ i .refl
    exact ⟨v, k, fv, i, j', .refl, h1, hEnt, hl, ho⟩
  have s0 := last k0 ⟨v0, fv0, hE0, hl0, ho0⟩
  have nxt : ∀ k, (∃ v, X v k ∧ X v (k + 3)) → ∃ v, X v (k + 3) ∧ X v (k + 3 + 3) := fun k ⟨v, _, h⟩ => last _ ⟨v, h⟩
  have s1 := nxt _ s0
  have s2 := nxt _ s1
  have s3 := nxt _ s2
  have all : ∀ k, ∃ v, X v k ∧ X v (k + 3) := by
    intro k
    have : k = k0 ∨ k = k0 + 3 ∨ k = k0 + 3 + 3 ∨ k = k0 + 3 + 3 + 3 := by
      exact fin_cycle3 k k0
    rcases this with rfl | rfl | rfl | rfl <;> assumption
  choose v hv1 hv2 using all
  obtain ⟨b, a, k, hAt, fb, fa, hvis⟩ := hi
  have hpos := hAt.triIn.pos hv
  rw [hp_inf] at hpos
  refine absurd (quad_vis (hp_w_fin vs fa) (hp_w_fin vs fb) hP hpos (v := fun k => hp vs (v k)) (fun k => hp_w_fin vs (hv1 k).1) (fun l => ?_)
    (fun k => ?_) (fun k => ?_)) (not_lt.2 hvis)
  · obtain ⟨fv, j, j', -, -, ⟨T, hT, hh⟩, -⟩ := hv1 l
    obtain ⟨_, _, _, hR⟩ := hh.rot
    have := hE.hull a b _ (v l) hAt.triIn fa fb (inf_ge k) ⟨j, T, hT, hR.hasVert.2 (.inl rfl)⟩ fv
    rw [HP.o_swap] at this
    linarith
  · obtain ⟨fv, j, j', -, -, -, -, ho⟩ := hv1 k
    exact ho
  · obtain ⟨fv, j, j', -, -, -, -, ho⟩ := hv2 k
    exact ho

theorem rb_acyclic (hv : Valid (hp vs) ts) (ht : Tiled vs ts) (hE : Emp vs ts) (hinf : ∀ q, Occ ts q → ¬ q < INF0 → ∃ k : Fin 4, q = INF0 + k)
    (hP : P.w = 1) {i : Nat} (hi : Vis vs ts P i) (h : Relation.TransGen (RB vs ts P) i i) : False := by
  classical
  have infne : ∀ {x : Nat} {k : Fin 4}, x < INF0 → x ≠ INF0 + k := fun h e => by omega
  have infinj : ∀ {k l : Fin 4}, INF0 + (k : Nat) = INF0 + l → k = l := fun e => by ext; omega
  let S : Nat → Prop := fun j => Relation.ReflTransGen (RB vs ts P) j i
  have succ : ∀ j, S j → ∃ j', S j' ∧ RB vs ts P j j' := by
    intro j hj
    rcases Relation.ReflTransGen.cases_head hj with rfl | ⟨j', h1, h2⟩
    · obtain ⟨j', h1, h2⟩ := (Relation.TransGen.head'_iff).1 h
      exact ⟨j', h2, h1⟩
    · exact ⟨j', h2, h1⟩
  let X : Nat → Fin 4 → Prop := fun v k => v < INF0 ∧ ∃ j j', S j ∧ S j' ∧ Ent ts j (INF0 + k) v j' ∧ j' < ts.length ∧ HP.o (HP.dir k) (hp vs v) P < 0
  have step : ∀ v k, X v k → (∃ a, X a k ∧ (HP.dir k).along (hp vs a) < (HP.dir k).along (hp vs v)) ∨ X v (k + 1) := by
    rintro v k ⟨fv, j, j', -, hj', hEnt, hl, ho⟩
    obtain ⟨d, hA, -⟩ := hEnt.behind hv hl
    obtain ⟨j2, hj2, w, m, fw, hE2, hl2, ho2⟩ := succ j' hj'
    by_cases fd : d < INF0
    · left
      have hlt := link_lt hv ht hA.next.next.triIn fd fv
      rcases hA.edge hE2 with ⟨e, -⟩ | ⟨e, rfl⟩ | ⟨e, -⟩
      · exact absurd e.symm (infne fv)
      · obtain rfl := infinj e
        exact ⟨w, ⟨fw, j', j2, hj', hj2, hE2, hl2, ho2⟩, hlt⟩
      · exact absurd e.symm (infne fd)
    · right
      obtain ⟨l, rfl⟩ := hinf d hA.next.next.triIn.occ fd
      obtain ⟨-, rfl⟩ := cone_dir hv hA.triIn
      rcases hA.edge hE2 with ⟨e, -⟩ | ⟨-, e⟩ | ⟨e, rfl⟩
      · exact absurd e.symm (infne fv)
      · exact absurd e (infne fw)
      · obtain rfl := infinj e
        exact ⟨fw, j', j2, hj', hj2, hE2, hl2, ho2⟩
  have last : ∀ k, (∃ v, X v k) → ∃ v, X v k ∧ X v (k + 1) := by
    rintro k ⟨v, hX⟩
    obtain ⟨m, hm, hmin⟩ := Finset.exists_min_image ((Finset.range INF0).filter fun v => X v k) (fun v => (HP.dir k).along (hp vs v))
      ⟨v, by rw [Finset.mem_filter, Finset.mem_range]; exact ⟨hX.1, hX⟩⟩
    rw [Finset.mem_filter] at hm
    rcases step m k hm.2 with ⟨a, ha, hlt⟩ | h3
    · have := hmin a (by rw [Finset.mem_filter, Finset.mem_range]; exact ⟨ha.1, ha⟩)
      linarith
    · exact ⟨m, hm.2, h3⟩
  obtain ⟨v0, k0, fv0, hE0, hl0, ho0⟩ : ∃ (v : Nat) (k : Fin 4), X v k := by
    obtain ⟨j', h1, v, k, fv, hEnt, hl, ho⟩ := succ i .refl
    exact ⟨v, k, fv, i, j', .refl, h1, hEnt, hl, ho⟩
  have s0 := last k0 ⟨v0, fv0, hE0, hl0, ho0⟩
  have nxt : ∀ k, (∃ v, X v k ∧ X v (k + 1)) → ∃ v, X v (k + 1) ∧ X v (k + 1 + 1) := fun k ⟨v, _, h⟩ => last _ ⟨v, h⟩
  have s1 := nxt _ s0
  have s2 := nxt _ s1
  have s3 := nxt _ s2
  have all : ∀ k, ∃ v, X v k ∧ X v (k + 1) := by
    intro k
    have : k = k0 ∨ k = k0 + 1 ∨ k = k0 + 1 + 1 ∨ k = k0 + 1 + 1 + 1 := by
      exact fin_cycle1 k k0
    rcases this with rfl | rfl | rfl | rfl <;> assumption
  choose v hv1 hv2 using all
  obtain ⟨b, a, k, hAt, fb, fa, hvis⟩ := hi
  have hpos := hAt.triIn.pos hv
  rw [hp_inf] at hpos
  -- the vertex between `k + 2` and `k + 3`, seen from the other side
  refine absurd (quad_vis (hp_w_fin vs fa) (hp_w_fin vs fb) hP hpos (v := fun k => hp vs (v (k + 1))) (fun k => hp_w_fin vs (hv1 _).1) (fun l => ?_)
    (fun k => ?_) (fun k => ?_)) (not_lt.2 hvis)
  · obtain ⟨fv, j, j', -, -, ⟨T, hT, hh⟩, -⟩ := hv1 (l + 1)
    obtain ⟨_, _, _, hR⟩ := hh.rot
    have := hE.hull a b _ (v (l + 1)) hAt.triIn fa fb (inf_ge k) ⟨j, T, hT, hR.hasVert.2 (.inr (.inl rfl))⟩ fv
    rw [HP.o_swap] at this
    linarith
  · obtain ⟨fv, j, j', -, -, -, -, ho⟩ := hv2 (k + 1)
    have e : k + 1 + 1 = k + 2 := by fin_cases k <;> rfl
    rw [e, HP.o_swap, HP.dir_opp] at ho
    linarith
  · obtain ⟨fv, j, j', -, -, -, -, ho⟩ := hv1 (k + 1)
    have e : k + 3 = k + 1 + 2 := by fin_cases k <;> rfl
    rw [e, HP.dir_opp]
    rw [HP.o_swap] at ho
    linarith

theorem At.rot {i a b c a' b' c' : Nat} (h : At ts i a b c) (h' : At ts i a' b' c') :
    (a = a' ∧ b = b' ∧ c = c') ∨ (a = b' ∧ b = c' ∧ c = a') ∨ (a = c' ∧ b = a' ∧ c = b') := by
  obtain ⟨T, _, _, _, hT, hR⟩ := h
  obtain ⟨T', _, _, _, hT', hR'⟩ := h'
  rw [hT] at hT'; simp at hT'; subst hT'
  rcases hR with rfl | rfl | rfl <;> rcases hR' with e | e | e <;> simp only [Tri.mk.injEq] at e <;> tauto

/-- An edge of a triangle. -/
theorem Ent.at {i x y j : Nat} (h : Ent ts i x y j) : ∃ z, At ts i x y z := by
  obtain ⟨T, hT, hh⟩ := h
  obtain ⟨d, _, _, hR⟩ := hh.rot
  exact ⟨d, T, _, _, _, hT, hR⟩

theorem At.hull {i b a c : Nat} (h : At ts i b a c) (fa : a < INF0) (fb : b < INF0) (fc : ¬ c < INF0) : HullAt ts i := by
  obtain ⟨T, _, _, _, hT, hR⟩ := h
  exact ⟨T, a, b, c, _, _, _, hT, hR, fa, fb, fc⟩

/-- Two artificial vertices are never crossed. -/
theorem no_inf_step (hv : Valid (hp vs) ts) (hP : P.w = 1) {x y z : Nat} (hT : TriIn ts x y z) (fx : ¬ x < INF0) (fy : ¬ y < INF0)
    (ho : HP.o (hp vs x) (hp vs y) P < 0) : False := by
  have pos := hT.pos hv
  have fz : z < INF0 := by
    by_contra fz
    rw [HP.o_inf3 (hp_w_inf vs fx) (hp_w_inf vs fy) (hp_w_inf vs fz)] at pos
    exact lt_irrefl _ pos
  rw [HP.o_inf2 (hp_w_inf vs fx) (hp_w_inf vs fy) (p := P) (q := hp vs z) hP (hp_w_fin vs fz)] at ho
  linarith

/-- On the way in the direction of `RF`. -/
def EF (vs : List (Vtx K)) (ts : List Tri) (P : HP K) (i : Nat) : Prop := JF vs ts P i ∧
  ∃ (v : Nat) (k : Fin 4) (d : Nat), v < INF0 ∧ At ts i (INF0 + k) v d ∧ HP.o (hp vs v) (HP.dir k) P < 0

def EB (vs : List (Vtx K)) (ts : List Tri) (P : HP K) (i : Nat) : Prop := JB vs ts P i ∧
  ∃ (v : Nat) (k : Fin 4) (d : Nat), v < INF0 ∧ At ts i v (INF0 + k) d ∧ HP.o (HP.dir k) (hp vs v) P < 0

/-- The link of a triangle with exactly one artificial vertex. -/
theorem Vis.of {i b a : Nat} {k : Fin 4} (h : Vis vs ts P i) (hA : At ts i b a (INF0 + k)) (fb : b < INF0) (fa : a < INF0) :
    0 ≤ HP.o (hp vs b) (hp vs a) P := by
  obtain ⟨b', a', k', hA', fb', fa', ho⟩ := h
  rcases hA.rot hA' with ⟨rfl, rfl, -⟩ | ⟨-, e, -⟩ | ⟨e, -⟩
  · exact ho
  · omega
  · omega

theorem EF.step (hv : Valid (hp vs) ts) (hinf : ∀ q, Occ ts q → ¬ q < INF0 → ∃ k : Fin 4, q = INF0 + k)
    (hP : P.w = 1) {i j : Nat} (h : EF vs ts P i) (hs : HStep vs ts P i j) : RF vs ts P i j := by
  obtain ⟨hJ, v, k, d, fv, hA, hneg⟩ := h
  obtain ⟨x, y, hEnt, hj, ho⟩ := hs
  by_cases fd : d < INF0
  · have hvis : Vis vs ts P i := by
      rcases hJ with h | ⟨u, m, hu, -⟩
      · exact h
      · exfalso
        rcases hA.rot hu with ⟨e1, e2, e3⟩ | ⟨e1, e2, e3⟩ | ⟨e1, e2, e3⟩ <;> omega
    rcases hA.edge hEnt with ⟨rfl, rfl⟩ | ⟨rfl, rfl⟩ | ⟨rfl, rfl⟩
    · rw [hp_inf, HP.o_swap] at ho; linarith
    · have := hvis.of hA.next fv fd; linarith
    · rw [hp_inf] at ho
      exact ⟨x, k, fd, hEnt, hj, ho⟩
  · obtain ⟨l, rfl⟩ := hinf d hA.next.next.triIn.occ fd
    rcases hA.edge hEnt with ⟨rfl, rfl⟩ | ⟨rfl, rfl⟩ | ⟨rfl, rfl⟩
    · rw [hp_inf, HP.o_swap] at ho; linarith
    · rw [hp_inf] at ho
      exact ⟨x, l, fv, hEnt, hj, ho⟩
    · exact (no_inf_step hv hP hA.next.next.triIn fd (inf_ge k) ho).elim

theorem EB.step (hv : Valid (hp vs) ts) (hinf : ∀ q, Occ ts q → ¬ q < INF0 → ∃ k : Fin 4, q = INF0 + k)
    (hP : P.w = 1) {i j : Nat} (h : EB vs ts P i) (hs : HStep vs ts P i j) : RB vs ts P i j := by
  obtain ⟨hJ, v, k, d, fv, hA, hneg⟩ := h
  obtain ⟨x, y, hEnt, hj, ho⟩ := hs
  by_cases fd : d < INF0
  · have hvis : Vis vs ts P i := by
      rcases hJ with h | ⟨u, m, hu, -⟩
      · exact h
      · exfalso
        rcases hA.rot hu with ⟨e1, e2, e3⟩ | ⟨e1, e2, e3⟩ | ⟨e1, e2, e3⟩ <;> omega
    rcases hA.edge hEnt with ⟨rfl, rfl⟩ | ⟨rfl, rfl⟩ | ⟨rfl, rfl⟩
    · rw [hp_inf, HP.o_swap] at ho; linarith
    · rw [hp_inf] at ho
      exact ⟨y, k, fd, hEnt, hj, ho⟩
    · have := hvis.of hA.next.next fd fv; linarith
  · obtain ⟨l, rfl⟩ := hinf d hA.next.next.triIn.occ fd
    rcases hA.edge hEnt with ⟨rfl, rfl⟩ | ⟨rfl, rfl⟩ | ⟨rfl, rfl⟩
    · rw [hp_inf, HP.o_swap] at ho; linarith
    · exact (no_inf_step hv hP hA.next.triIn (inf_ge k) fd ho).elim
    · rw [hp_inf] at ho
      exact ⟨y, l, fv, hEnt, hj, ho⟩

theorem RF.enter (hv : Valid (hp vs) ts) (ht : Tiled vs ts) (hE : Emp vs ts) (hinf : ∀ q, Occ ts q → ¬ q < INF0 → ∃ k : Fin 4, q = INF0 + k)
    (hP : P.w = 1) {i j : Nat} (h : RF vs ts P i j) (hJ : JF vs ts P i) : EF vs ts P j := by
  refine ⟨hJ.step hv ht hE hinf hP h, ?_⟩
  obtain ⟨v, k, fv, hEnt, hj, ho⟩ := h
  obtain ⟨d, hA, -⟩ := hEnt.behind hv hj
  exact ⟨v, k, d, fv, hA, ho⟩

theorem RB.enter (hv : Valid (hp vs) ts) (ht : Tiled vs ts) (hE : Emp vs ts) (hinf : ∀ q, Occ ts q → ¬ q < INF0 → ∃ k : Fin 4, q = INF0 + k)
    (hP : P.w = 1) {i j : Nat} (h : RB vs ts P i j) (hJ : JB vs ts P i) : EB vs ts P j := by
  refine ⟨hJ.step hv ht hE hinf hP h, ?_⟩
  obtain ⟨v, k, fv, hEnt, hj, ho⟩ := h
  obtain ⟨d, hA, -⟩ := hEnt.behind hv hj
  exact ⟨v, k, d, fv, hA, ho⟩

/-- The walk never comes back to a visible link. -/
theorem vis_acyclic (hv : Valid (hp vs) ts) (ht : Tiled vs ts) (hE : Emp vs ts) (hinf : ∀ q, Occ ts q → ¬ q < INF0 → ∃ k : Fin 4, q = INF0 + k)
    (hP : P.w = 1) {i : Nat} (hi : Vis vs ts P i) (h : Relation.TransGen (HStep vs ts P) i i) : False := by
  have key : ∀ l, Relation.TransGen (HStep vs ts P) i l →
      (Relation.TransGen (RF vs ts P) i l ∧ EF vs ts P l) ∨ (Relation.TransGen (RB vs ts P) i l ∧ EB vs ts P l) := by
    intro l hl
    induction hl with
    | single h =>
      obtain ⟨x, y, hEnt, hj, ho⟩ := id h
      obtain ⟨b, a, k, hA, fb, fa, hvis⟩ := id hi
      rcases hA.edge hEnt with ⟨rfl, rfl⟩ | ⟨rfl, rfl⟩ | ⟨rfl, rfl⟩
      · linarith
      · rw [hp_inf] at ho
        have hs : RF vs ts P i _ := ⟨x, k, fa, hEnt, hj, ho⟩
        exact .inl ⟨.single hs, hs.enter hv ht hE hinf hP (.inl hi)⟩
      · rw [hp_inf] at ho
        have hs : RB vs ts P i _ := ⟨y, k, fb, hEnt, hj, ho⟩
        exact .inr ⟨.single hs, hs.enter hv ht hE hinf hP (.inl hi)⟩
    | tail _ h ih =>
      rcases ih with ⟨h1, h2⟩ | ⟨h1, h2⟩
      · have hs := h2.step hv hinf hP h
        exact .inl ⟨h1.tail hs, hs.enter hv ht hE hinf hP h2.1⟩
      · have hs := h2.step hv hinf hP h
        exact .inr ⟨h1.tail hs, hs.enter hv ht hE hinf hP h2.1⟩
  rcases key i h with ⟨h, -⟩ | ⟨h, -⟩
  · exact rf_acyclic hv ht hE hinf hP hi h
  · exact rb_acyclic hv ht hE hinf hP hi h

/-- A circle through `m`. -/
theorem circle {R : Nat → Nat → Prop} {i m : Nat} (h : Relation.TransGen R i i) (h1 : Relation.ReflTransGen R i m) (h2 : Relation.ReflTransGen R m i) :
    Relation.TransGen R m m := (Relation.TransGen.trans_right h2 h).trans_left h1

/-- The walk never comes back to a finite triangle. -/
theorem fin_acyclic (hv : Valid (hp vs) ts) (ht : Tiled vs ts) (hE : Emp vs ts) (hinf : ∀ q, Occ ts q → ¬ q < INF0 → ∃ k : Fin 4, q = INF0 + k)
    (hP : P.w = 1) {i : Nat} (hi : FinAt ts i) (h : Relation.TransGen (HStep vs ts P) i i) : False := by
  have one : ∀ {j l : Nat}, FinAt ts j → HStep vs ts P j l →
      (∃ a b c d, TriAt ts j a b c ∧ TriAt ts l b a d ∧ HP.o (hp vs a) (hp vs b) P < 0) ∨ Vis vs ts P l := by
    rintro j l ⟨T, hT, f1, f2, f3⟩ ⟨a, b, hEnt, hl, ho⟩
    obtain ⟨d, hA, -⟩ := hEnt.behind hv hl
    obtain ⟨c, T', _, _, _, hT', hR⟩ := hEnt.at
    rw [hT] at hT'; simp at hT'; subst hT'
    have hfin : a < INF0 ∧ b < INF0 ∧ c < INF0 := by
      rcases hR with rfl | rfl | rfl <;> simp only at f1 f2 f3 <;> tauto
    by_cases fd : d < INF0
    · obtain ⟨U, _, _, _, hU, hRU⟩ := hA
      exact .inl ⟨a, b, c, d, ⟨T, _, _, _, hT, hR, hfin⟩, ⟨U, _, _, _, hU, hRU, hfin.2.1, hfin.1, fd⟩, ho⟩
    · obtain ⟨k, rfl⟩ := hinf d hA.next.next.triIn.occ fd
      exact .inr ⟨b, a, k, hA, hfin.2.1, hfin.1, by rw [HP.o_swap]; linarith⟩
  have key : ∀ l, Relation.TransGen (HStep vs ts P) i l →
      Before vs ts P i l ∨ ∃ m, Vis vs ts P m ∧ Relation.ReflTransGen (HStep vs ts P) i m ∧ Relation.ReflTransGen (HStep vs ts P) m l := by
    intro l hl
    induction hl with
    | single h =>
      rcases one hi h with ⟨a, b, c, d, h1, h2, ho⟩ | hV
      · exact .inl (h1.before h2 ho hv hE hP)
      · exact .inr ⟨_, hV, .single h, .refl⟩
    | @tail b c h0 h ih =>
      rcases ih with ih | ⟨m, hm, h1, h2⟩
      · have hf : FinAt ts b := by
          obtain ⟨_, _, _, _, _, _, _, g2, _⟩ := ih
          exact g2.finAt
        rcases one hf h with ⟨a, b, c, d, h1, h2, ho⟩ | hV
        · exact .inl (ih.extend h1 h2 ho hv hE hP)
        · exact .inr ⟨_, hV, h0.to_reflTransGen.tail h, .refl⟩
      · exact .inr ⟨m, hm, h1, h2.tail h⟩
  rcases key i h with hb | ⟨m, hm, h1, h2⟩
  · exact hb.ne hv rfl
  · exact vis_acyclic hv ht hE hinf hP hm (circle h h1 h2)

/-- A step of the search as the code makes it: a link that is not visible is crossed. -/
def WStep (vs : List (Vtx K)) (ts : List Tri) (P : HP K) (i j : Nat) : Prop := HStep vs ts P i j ∧
  ∀ a b c, At ts i b a c → a < INF0 → b < INF0 → ¬ c < INF0 → HP.o (hp vs b) (hp vs a) P < 0 → Ent ts i b a j

theorem hull_acyclic (hv : Valid (hp vs) ts) (ht : Tiled vs ts) (hE : Emp vs ts) (hinf : ∀ q, Occ ts q → ¬ q < INF0 → ∃ k : Fin 4, q = INF0 + k)
    (hP : P.w = 1) {i : Nat} (hi : HullAt ts i) (h : Relation.TransGen (WStep vs ts P) i i) : False := by
  have h' : Relation.TransGen (HStep vs ts P) i i := Relation.TransGen.mono (fun _ _ h => h.1) _ _ h
  obtain ⟨T, a, b, c, j1, j2, j3, hT, hR, fa, fb, fc⟩ := hi
  have hA : At ts i b a c := ⟨T, _, _, _, hT, hR⟩
  obtain ⟨k, rfl⟩ := hinf c hA.next.next.triIn.occ fc
  by_cases ho : HP.o (hp vs b) (hp vs a) P < 0
  · obtain ⟨j, h1, h2⟩ := (Relation.TransGen.head'_iff).1 h
    have hEnt := h1.2 a b _ hA fa fb fc ho
    obtain ⟨-, -, -, hj, -⟩ := h1.1
    obtain ⟨d, hB, -⟩ := hEnt.behind hv hj
    have hc : Relation.TransGen (HStep vs ts P) j j := circle h' (.single h1.1) (Relation.ReflTransGen.mono (fun _ _ h => h.1) _ _ h2)
    by_cases fd : d < INF0
    · obtain ⟨U, _, _, _, hU, hRU⟩ := hB
      exact fin_acyclic hv ht hE hinf hP (TriAt.finAt (a := a) (b := b) (c := d) ⟨U, _, _, _, hU, hRU, fa, fb, fd⟩) hc
    · obtain ⟨l, rfl⟩ := hinf d hB.next.next.triIn.occ fd
      exact vis_acyclic hv ht hE hinf hP ⟨a, b, l, hB, fa, fb, by rw [HP.o_swap]; linarith⟩ hc
  · exact vis_acyclic hv ht hE hinf hP ⟨b, a, k, hA, fb, fa, not_lt.1 ho⟩ h'

/-- The search never comes back to a triangle. -/
theorem walk_acyclic (hok : VertsIn (VOk vs.length) ts) (hn : vs.length ≤ INF0) (hv : Valid (hp vs) ts) (ht : Tiled vs ts) (hE : Emp vs ts)
    (hinf : ∀ q, Occ ts q → ¬ q < INF0 → ∃ k : Fin 4, q = INF0 + k)
    (hP : P.w = 1) {i : Nat} (hi : i < ts.length) (h : Relation.TransGen (WStep vs ts P) i i) : False := by
  rcases tri_kinds hv hi with hk | hk | hk
  · exact fin_acyclic hv ht hE hinf hP hk (Relation.TransGen.mono (fun _ _ h => h.1) _ _ h)
  · exact hull_acyclic hv ht hE hinf hP hk h
  obtain ⟨r, hr⟩ := hk.val (vs := vs) (P := P)
  have key : ∀ l, Relation.TransGen (WStep vs ts P) i l → (∃ r', ConeVal vs ts P l r' ∧ r < r') ∨
      ∃ m, HullAt ts m ∧ Relation.ReflTransGen (WStep vs ts P) i m ∧ Relation.ReflTransGen (WStep vs ts P) m l := by
    intro l hl
    induction hl with
    | single h =>
      rcases cone_step hok hn hv hP hr h.1 with hH | hc
      · exact .inr ⟨_, hH, .single h, .refl⟩
      · exact .inl hc
    | tail h0 h ih =>
      rcases ih with ⟨r', hc, hlt⟩ | ⟨m, hm, h1, h2⟩
      · rcases cone_step hok hn hv hP hc h.1 with hH | ⟨r'', hc', hlt'⟩
        · exact .inr ⟨_, hH, h0.to_reflTransGen.tail h, .refl⟩
        · exact .inl ⟨r'', hc', hlt.trans hlt'⟩
      · exact .inr ⟨m, hm, h1, h2.tail h⟩
  rcases key i h with ⟨r', hc, hlt⟩ | ⟨m, hm, h1, h2⟩
  · rw [hr.unique hc] at hlt
    exact lt_irrefl _ hlt
  · exact hull_acyclic hv ht hE hinf hP hm (circle h h1 h2)

theorem At.distinct (hv : Valid (hp vs) ts) {i a b c : Nat} (h : At ts i a b c) : a ≠ b ∧ b ≠ c ∧ c ≠ a := by
  have p := h.triIn.pos hv
  refine ⟨?_, ?_, ?_⟩ <;> rintro rfl
  · rw [HP.o_same] at p; exact lt_irrefl _ p
  · rw [HP.o_same'] at p; exact lt_irrefl _ p
  · rw [HP.o_same''] at p; exact lt_irrefl _ p

/-- The search does not turn back over a link. -/
def NoBack (vs : List (Vtx K)) (ts : List Tri) (P : HP K) (prev cur : Nat) : Prop :=
  ∀ a b c, At ts cur b a c → a < INF0 → b < INF0 → ¬ c < INF0 → HP.o (hp vs b) (hp vs a) P < 0 → ¬ Ent ts cur b a prev

theorem noBack_self (hv : Valid (hp vs) ts) {i : Nat} (hi : i < ts.length) : NoBack vs ts P i i := by
  intro a b c hA fa fb fc ho hEnt
  obtain ⟨d, hB, -⟩ := hEnt.behind hv hi
  obtain ⟨n1, n2, n3⟩ := hA.distinct hv
  rcases hA.rot hB with ⟨e1, e2, e3⟩ | ⟨e1, e2, e3⟩ | ⟨e1, e2, e3⟩
  · exact n1 e1
  · exact n2 e3.symm
  · exact n3 e3

theorem noBack_step (hv : Valid (hp vs) ts) {i j : Nat} (h : HStep vs ts P i j) (hi : i < ts.length) : NoBack vs ts P i j := by
  intro a b c hA fa fb fc ho hEnt
  obtain ⟨n1, n2, n3⟩ := hA.distinct hv
  obtain ⟨x, y, hE1, hj, hneg⟩ := h
  obtain ⟨d, hB, hE2⟩ := hEnt.behind hv hi
  obtain ⟨e, hC, hE3⟩ := hE1.behind hv hj
  have p1 := hA.triIn.pos hv
  have p2 := hB.triIn.pos hv
  have p3 := hC.triIn.pos hv
  rcases hB.edge hE1 with ⟨rfl, rfl⟩ | ⟨rfl, rfl⟩ | ⟨rfl, rfl⟩
  · rw [HP.o_swap] at ho; linarith
  · -- the two triangles would have all vertices in common
    have hd : y = c := by
      rcases hA.edge hE3 with ⟨e1, e2⟩ | ⟨e1, e2⟩ | ⟨e1, -⟩
      · exact absurd e2 n1
      · exact absurd e2.symm n3
      · exact e1
    subst hd
    rw [HP.o_swap] at p2
    linarith
  · have hd : x = c := by
      rcases hA.edge hE3 with ⟨e1, e2⟩ | ⟨e1, e2⟩ | ⟨e1, e2⟩
      · exact absurd e1.symm n1
      · exact e2
      · exact absurd e1 n2
    subst hd
    rw [HP.o_swap] at p2
    linarith

/-- The steps of an unsuccessful search. -/
theorem findLoop_wsteps {p : Vtx K} (hn : vs.length ≤ INF0) (hv : Valid (hp vs) ts)
    (hok : VertsIn (VOk vs.length) ts) (n : Nat) : ∀ prev cur, cur < ts.length → NoBack vs ts (HP.ofVtx p) prev cur →
      findLoop vs p ts n prev cur = .ok .notFound →
      ∃ l : List Nat, l.length = n ∧ (cur :: l).IsChain (WStep vs ts (HP.ofVtx p)) ∧ ∀ i ∈ cur :: l, i < ts.length := by
  induction n with
  | zero => intro prev cur hc _ _; exact ⟨[], rfl, .singleton _, by simpa using hc⟩
  | succ n ih =>
    intro prev cur hc hnb hf
    have hcn : cur ≠ NONE := by have := hv.len; omega
    obtain ⟨t, ht, _⟩ := getI_lt hc
    obtain ⟨w, h1, h2⟩ := findStep_total (p := p) (prev := prev) hn hv hok ht
    unfold findLoop at hf
    rw [if_neg hcn, h1] at hf
    simp only [Res.ok_bind] at hf
    cases w with
    | found pl =>
      simp at hf
      subst hf
      exact h2.elim
    | go p' c' =>
      obtain ⟨rfl, k, rfl, hk', hneg⟩ := h2
      have hb := behind_lt hv ht hneg
      have hstep : HStep vs ts (HP.ofVtx p) p' (t.n k) := ⟨_, _, ⟨t, ht, has_k t k⟩, hb, hneg⟩
      have hw : WStep vs ts (HP.ofVtx p) p' (t.n k) := by
        refine ⟨hstep, ?_⟩
        intro a b c hA fa fb fc ho
        have hnb' := hnb a b c hA fa fb fc ho
        obtain ⟨T, j1, j2, j3, hT, hR⟩ := hA
        have hE : Ent ts p' b a j1 := ⟨T, hT, hR.has_iff.2 (.inl ⟨rfl, rfl, rfl⟩)⟩
        have hgo := findStep_hull (p := p) (prev := prev) hok hT hR fa fb fc ho (by rintro rfl; exact hnb' hE)
        rw [h1] at hgo
        simp only [Res.ok.injEq, Walk.go.injEq, true_and] at hgo
        rw [hgo]; exact hE
      obtain ⟨l, l1, l3, l4⟩ := ih _ _ hb (noBack_step hv hstep hc) hf
      refine ⟨_ :: l, by simp [l1], .cons_cons hw l3, ?_⟩
      intro i hi
      rcases List.mem_cons.1 hi with rfl | hi
      · exact hc
      · exact l4 i hi

theorem walk_nodup {R : Nat → Nat → Prop} {n : Nat} (h : ∀ i < n, ¬ Relation.TransGen R i i) : ∀ l : List Nat, l.IsChain R → (∀ i ∈ l, i < n) → l.Nodup := by
  intro l
  induction l with
  | nil => simp
  | cons i l ih =>
    intro hc hl
    have hc' := hc
    refine List.nodup_cons.2 ⟨fun hm => ?_, ih ?_ fun i hi => hl i (List.mem_cons_of_mem _ hi)⟩
    · have hp := (hc'.imp (fun _ _ h => Relation.TransGen.single h)).pairwise
      exact h i (hl i (by simp)) ((List.pairwise_cons.1 hp).1 i hm)
    · cases l with
      | nil => exact .nil
      | cons j l => exact (List.isChain_cons_cons.1 hc).2

/-- In a Delaunay mesh with a convex border every point is found, from any triangle. -/
theorem Emp.found {p : Vtx K} {start : Nat} (hE : Emp vs ts) (hn : vs.length ≤ INF0) (hv : Valid (hp vs) ts) (ht : Tiled vs ts)
    (hok : VertsIn (VOk vs.length) ts) (hs : start < ts.length) : findPlacement vs p start ts ≠ .ok .notFound := by
  intro hf
  have hinf : ∀ q, Occ ts q → ¬ q < INF0 → ∃ k : Fin 4, q = INF0 + k := fun q hq fq => inf_id hok hn hq fq
  obtain ⟨l, l1, l3, l4⟩ := findLoop_wsteps hn hv hok _ _ _ hs (noBack_self hv hs) hf
  have hnd : (start :: l).Nodup := walk_nodup (fun i hi h => walk_acyclic hok hn hv ht hE hinf rfl hi h) _ l3 l4
  have : (start :: l).Subperm (List.range ts.length) := hnd.subperm fun i hi => by simpa using l4 i hi
  have := this.length_le
  simp at this
  omega

end

end CDT

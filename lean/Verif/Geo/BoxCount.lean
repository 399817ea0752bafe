import Verif.Geo.Box
import Verif.Props.Present
import Mathlib.Data.Finset.Max
import Mathlib.Data.Finset.Card

/-! # The chains of a mesh with the corners of the bounding box: every vertex on a side is on the chain -/

set_option linter.unusedSectionVars false
set_option linter.unusedSimpArgs false
set_option linter.unusedVariables false

namespace CDT

section
variable {K : Type} [Field K] [LinearOrder K] [IsStrictOrderedRing K] [ExactParams K] [IdCfg]
variable {vs : List (Vtx K)} {ts : List Tri} {x y w h : K}

/-- The two corners of the side in the direction `k`, as points: where the chain starts and where it ends. -/
def sideA (x y w h : K) (k : Fin 4) : HP K := HP.ofVtx (crn x y w h (quadCorner k).1 (quadCorner k).2)
def sideB (x y w h : K) (k : Fin 4) : HP K := HP.ofVtx (crn x y w h (quadCorner (k + 3)).1 (quadCorner (k + 3)).2)

theorem sideB_eq (x y w h : K) (k : Fin 4) : sideB x y w h (k + 1) = sideA x y w h k := by
  fin_cases k <;> rfl

/-- The rectangle in the coordinates along and across a side. -/
theorem box_range (wpos : 0 < w) (hpos : 0 < h) (k : Fin 4) {P : HP K} (hP : x ≤ P.x ∧ P.x ≤ x + w ∧ y ≤ P.y ∧ P.y ≤ y + h) :
    (HP.dir k).along (sideA x y w h k) ≤ (HP.dir k).along P ∧ (HP.dir k).along P ≤ (HP.dir k).along (sideB x y w h k) ∧
    (HP.dir k).out P ≤ (HP.dir k).out (sideA x y w h k) := by
  obtain ⟨p1, p2, p3, p4⟩ := hP
  refine ⟨?_, ?_, ?_⟩ <;> fin_cases k <;> simp [HP.along, HP.out, HP.dir, HP.ofVtx, sideA, sideB, quadCorner, crn] <;> linarith

theorem side_lt (wpos : 0 < w) (hpos : 0 < h) (k : Fin 4) :
    (HP.dir k).along (sideA x y w h k) < (HP.dir k).along (sideB x y w h k) ∧
    (HP.dir k).out (sideA x y w h k) = (HP.dir k).out (sideB x y w h k) := by
  refine ⟨?_, ?_⟩ <;> fin_cases k <;> simp [HP.along, HP.out, HP.dir, HP.ofVtx, sideA, sideB, quadCorner, crn] <;> linarith

/-- Two points with the same coordinates along and across a side. -/
theorem hp_eq_of_side {Z P Q : HP K} (hZ : Z.x ^ 2 + Z.y ^ 2 = 1) (wP : P.w = 1) (wQ : Q.w = 1) (h1 : Z.along P = Z.along Q) (h2 : Z.out P = Z.out Q) : P = Q := by
  obtain ⟨px, py, pw⟩ := P
  obtain ⟨qx, qy, qw⟩ := Q
  simp only [HP.along, HP.out] at *
  subst wP; subst wQ
  have e1 : px = qx := by
    have : (Z.x ^ 2 + Z.y ^ 2) * (px - qx) = 0 := by linear_combination Z.x * h2 - Z.y * h1
    rw [hZ, one_mul] at this; linarith
  have e2 : py = qy := by
    have : (Z.x ^ 2 + Z.y ^ 2) * (py - qy) = 0 := by linear_combination Z.y * h2 + Z.x * h1
    rw [hZ, one_mul] at this; linarith
  subst e1; subst e2; rfl

/-- The ends of a link of the chain are on the side. -/
theorem BoxMesh.on_side (hB : BoxMesh vs ts x y w h) (hv : Valid (hp vs) ts) (ht : Tiled vs ts) (hC : Convexish vs ts) {b a : Nat} {k : Fin 4}
    (hT : TriIn ts b a (INF0 + k)) (hb : b < INF0) (ha : a < INF0) :
    (HP.dir k).out (hp vs b) = (HP.dir k).out (sideA x y w h k) ∧ (HP.dir k).out (hp vs a) = (HP.dir k).out (sideA x y w h k) ∧
    (HP.dir k).along (hp vs b) < (HP.dir k).along (hp vs a) := by
  have zi := inf_ge k
  have zu := hp_unit vs zi
  have ok := chain_ok hv ht zi
  obtain ⟨⟨q1, f1, e1, d1⟩, q2, f2, e2, d2⟩ := hB.ends hv ht k
  have wb := hp_w_fin vs hb
  have wa := hp_w_fin vs ha
  have c1 := hC _ zi b a q1 hT hb ha f1 d1
  have c2 := hC _ zi b a q2 hT hb ha f2 d2
  have hab : (hp vs (INF0 + k)).along (hp vs b) < (hp vs (INF0 + k)).along (hp vs a) := ok.mono _ _ hT hb ha
  simp only [Chain.Below, chT, chS] at c1 c2
  rw [hp_inf] at c1 c2 hab
  have e1 : hp vs q1 = sideA x y w h k := e1
  have e2 : hp vs q2 = sideB x y w h k := e2
  rw [e1] at c1
  rw [e2] at c2
  obtain ⟨l1, l2⟩ := side_lt (x := x) (y := y) hB.wpos hB.hpos k
  obtain ⟨b1, b2, b3⟩ := box_range hB.wpos hB.hpos k (hB.inside b hT.occ hb)
  obtain ⟨a1, a2, a3⟩ := box_range hB.wpos hB.hpos k (hB.inside a hT.next.occ ha)
  rw [← l2] at c2
  generalize (HP.dir k).along (hp vs b) = tb at *
  generalize (HP.dir k).along (hp vs a) = ta at *
  generalize (HP.dir k).out (hp vs b) = sb at *
  generalize (HP.dir k).out (hp vs a) = sa at *
  generalize (HP.dir k).along (sideA x y w h k) = t1 at *
  generalize (HP.dir k).along (sideB x y w h k) = t2 at *
  generalize (HP.dir k).out (sideA x y w h k) = S at *
  have hd := sub_pos.2 hab
  refine ⟨le_antisymm b3 ?_, le_antisymm a3 ?_, hab⟩
  · -- weights `t2 - tb` and `tb - t1`
    have m1 := mul_le_mul_of_nonneg_left c1 (sub_nonneg.2 b2)
    have m2 := mul_le_mul_of_nonneg_left c2 (sub_nonneg.2 b1)
    have : (t2 - t1) * (ta - tb) * (S - sb) ≤ 0 := by nlinarith
    by_contra hc
    have := mul_pos (mul_pos (sub_pos.2 l1) hd) (sub_pos.2 (not_le.1 hc))
    linarith
  · have m1 := mul_le_mul_of_nonneg_left c1 (sub_nonneg.2 a2)
    have m2 := mul_le_mul_of_nonneg_left c2 (sub_nonneg.2 a1)
    have : (t2 - t1) * (ta - tb) * (S - sa) ≤ 0 := by nlinarith
    by_contra hc
    have := mul_pos (mul_pos (sub_pos.2 l1) hd) (sub_pos.2 (not_le.1 hc))
    linarith

theorem hp_dir_w (k : Fin 4) : (HP.dir (K := K) k).w = 0 := by fin_cases k <;> rfl

/-- Every vertex on the side is on the chain. -/
theorem BoxMesh.on_chain (hB : BoxMesh vs ts x y w h) (hv : Valid (hp vs) ts) (ht : Tiled vs ts) (hC : Convexish vs ts)
    (hinf : ∀ q, Occ ts q → ¬ q < INF0 → ∃ k : Fin 4, q = INF0 + k) {u : Nat} {k : Fin 4} (hu : u < INF0) (ho : Occ ts u)
    (hs : (HP.dir k).out (hp vs u) = (HP.dir k).out (sideA x y w h k)) : ∃ d, chN ts (INF0 + k) u d := by
  classical
  have zi := inf_ge k
  have zu := hp_unit vs zi
  rw [hp_inf] at zu
  have ok := chain_ok hv ht zi
  obtain ⟨⟨q1, f1, e1, d1⟩, q2, f2, e2, d2⟩ := hB.ends hv ht k
  have e1 : hp vs q1 = sideA x y w h k := e1
  obtain ⟨u1, u2, -⟩ := box_range hB.wpos hB.hpos k (hB.inside u ho hu)
  let A := (Finset.range INF0).filter fun v => (∃ d, chN ts (INF0 + k) v d) ∧ (HP.dir k).along (hp vs v) ≤ (HP.dir k).along (hp vs u)
  have hA : ∀ {v}, v ∈ A ↔ v < INF0 ∧ (∃ d, chN ts (INF0 + k) v d) ∧ (HP.dir k).along (hp vs v) ≤ (HP.dir k).along (hp vs u) := by
    intro v; simp [A]
  obtain ⟨m, hm, hmax⟩ := Finset.exists_max_image A (fun v => (HP.dir k).along (hp vs v)) ⟨q1, hA.2 ⟨f1, d1, by rw [e1]; exact u1⟩⟩
  obtain ⟨fm, ⟨d, hd⟩, hmu⟩ := hA.1 hm
  have hd' : TriIn ts m d (INF0 + k) := hd
  by_cases fd : d < INF0
  · obtain ⟨s1, s2, s3⟩ := hB.on_side hv ht hC hd' fm fd
    have hud : (HP.dir k).along (hp vs u) < (HP.dir k).along (hp vs d) := by
      by_contra hc
      have := hmax d (hA.2 ⟨fd, ok.next _ _ hd fd, not_lt.1 hc⟩)
      linarith
    obtain ⟨i, T, j1, j2, j3, hT, hR⟩ := hd'
    have wm := hp_w_fin vs fm
    have wd := hp_w_fin vs fd
    have wu := hp_w_fin vs hu
    have := vert_of_in hv ht hu ho hT hR
      (by rw [HP.o_out (Z := HP.dir k) wm wd wu zu, s1, s2, hs]; simp)
      (by rw [hp_inf, HP.o_cyc (hp vs u) (hp vs d), HP.o_along wu wd (hp_dir_w k)]; linarith)
      (by rw [hp_inf, HP.o_cyc' (hp vs m) (hp vs u), HP.o_along wm wu (hp_dir_w k)]; linarith)
    rcases hR.hasVert.1 this with rfl | rfl | rfl
    · exact ⟨_, hd⟩
    · exact ok.next _ _ hd fd
    · exact absurd hu zi
  · obtain ⟨l, rfl⟩ := hinf d (TriIn.next hd').occ fd
    obtain ⟨-, e, eh⟩ := hB.cone hv ht hd'
    have eh : hp vs m = sideB x y w h k := by rw [eh, e, sideB_eq]; rfl
    have : hp vs m = hp vs u := by
      refine hp_eq_of_side zu (hp_w_fin vs fm) (hp_w_fin vs hu) (le_antisymm hmu (by rw [eh]; exact u2)) ?_
      rw [hs, eh, (side_lt hB.wpos hB.hpos k).2]
    have := occ_inj hv ht hu hd'.occ ho this
    subst this
    exact ⟨_, hd⟩

/-! ## Counting -/

/-- Triangle number `i` has the vertices `a b c` in this order, up to rotation. -/
def TriNo (ts : List Tri) (i a b c : Nat) : Prop := ∃ (T : Tri) (j1 j2 j3 : Nat), ts[i]? = some T ∧ Rot T a b c j1 j2 j3

theorem TriNo.tri {i a b c : Nat} (h : TriNo ts i a b c) : TriIn ts a b c := by
  obtain ⟨T, _, _, _, hT, hR⟩ := h; exact ⟨i, T, _, _, _, hT, hR⟩

theorem TriIn.at {a b c : Nat} (h : TriIn ts a b c) : ∃ i, TriNo ts i a b c := by
  obtain ⟨i, T, _, _, _, hT, hR⟩ := h; exact ⟨i, T, _, _, _, hT, hR⟩

theorem TriNo.next {i a b c : Nat} (h : TriNo ts i a b c) : TriNo ts i b c a := by
  obtain ⟨T, _, _, _, hT, hR⟩ := h; exact ⟨T, _, _, _, hT, hR.next⟩

theorem TriNo.lt {i a b c : Nat} (h : TriNo ts i a b c) : i < ts.length := by
  obtain ⟨T, _, _, _, hT, hR⟩ := h; exact lt_of_getElem? hT

theorem TriNo.edge (hv : Valid (hp vs) ts) (ht : Tiled vs ts) {i j a b c d : Nat} (h1 : TriNo ts i a b c) (h2 : TriNo ts j a b d) : i = j := by
  obtain ⟨T, _, _, _, hT, hR⟩ := h1
  obtain ⟨U, _, _, _, hU, hS⟩ := h2
  exact ht.edge hv ⟨T, hT, hR.has1⟩ ⟨U, hU, hS.has1⟩

/-- The vertices of a triangle, up to rotation. -/
theorem TriNo.same {i a b c a' b' c' : Nat} (h1 : TriNo ts i a b c) (h2 : TriNo ts i a' b' c') :
    (a = a' ∧ b = b' ∧ c = c') ∨ (a = b' ∧ b = c' ∧ c = a') ∨ (a = c' ∧ b = a' ∧ c = b') := by
  obtain ⟨T, _, _, _, hT, hR⟩ := h1
  obtain ⟨U, _, _, _, hU, hS⟩ := h2
  rw [hT] at hU; simp only [Option.some.injEq] at hU; subst hU
  rcases hR with rfl | rfl | rfl <;> rcases hS with h | h | h <;> simp only [Tri.mk.injEq] at h <;> omega

/-- The vertices on the border of the rectangle. -/
noncomputable def borderIds (vs : List (Vtx K)) (ts : List Tri) (x y w h : K) : Finset Nat := by
  classical
  exact (Finset.range INF0).filter fun u => Occ ts u ∧ ∃ k : Fin 4, (HP.dir k).out (hp vs u) = (HP.dir k).out (sideA x y w h k)

theorem mem_borderIds {u : Nat} : u ∈ borderIds vs ts x y w h ↔
    u < INF0 ∧ Occ ts u ∧ ∃ k : Fin 4, (HP.dir k).out (hp vs u) = (HP.dir k).out (sideA x y w h k) := by
  simp [borderIds]

/-- A corner is the end of one side only. -/
theorem side_unique (wpos : 0 < w) (hpos : 0 < h) {k l : Fin 4} {P : HP K}
    (h1 : (HP.dir k).out P = (HP.dir k).out (sideA x y w h k)) (h2 : (HP.dir l).out P = (HP.dir l).out (sideA x y w h l))
    (h3 : (HP.dir k).along P < (HP.dir k).along (sideB x y w h k)) (h4 : (HP.dir l).along P < (HP.dir l).along (sideB x y w h l)) : k = l := by
  by_contra hc
  fin_cases k <;> fin_cases l <;> (first | exact hc rfl | skip) <;>
    simp [HP.along, HP.out, HP.dir, HP.ofVtx, sideA, sideB, quadCorner, crn] at h1 h2 h3 h4 <;> linarith

theorem indices_card (ts : List Tri) (P : Tri → Bool) :
    ((Finset.range ts.length).filter fun i => ts[i]?.any P = true).card = ts.countP P := by
  induction ts using List.reverseRecOn with
  | nil => simp
  | append_singleton l a ih =>
    have e : ((Finset.range l.length).filter fun i => (l ++ [a])[i]?.any P = true) =
        (Finset.range l.length).filter fun i => l[i]?.any P = true :=
      Finset.filter_congr fun i hi => by rw [List.getElem?_append_left (Finset.mem_range.1 hi)]
    rw [List.length_append, List.length_singleton, Finset.range_add_one, Finset.filter_insert, e]
    by_cases hP : P a = true
    · rw [if_pos (by simp [hP]), Finset.card_insert_of_notMem (by simp), ih]
      simp [List.countP_append, hP]
    · rw [if_neg (by simp [hP]), ih]
      simp [List.countP_append, hP]

/-- One unbounded triangle per vertex on the border, and four at the corners. -/
theorem BoxMesh.count (hB : BoxMesh vs ts x y w h) (hv : Valid (hp vs) ts) (ht : Tiled vs ts) (hC : Convexish vs ts)
    (hinf : ∀ q, Occ ts q → ¬ q < INF0 → ∃ k : Fin 4, q = INF0 + k) :
    ts.length = ts.countP (·.isFinite) + (borderIds vs ts x y w h).card + 4 := by
  classical
  let A0 := (Finset.range ts.length).filter fun i => ts[i]?.any (·.isFinite) = true
  let A1 := (Finset.range ts.length).filter fun i => ∃ (u v : Nat) (k : Fin 4), TriNo ts i u v (INF0 + k) ∧ u < INF0 ∧ v < INF0
  let A2 := (Finset.range ts.length).filter fun i => ∃ (v : Nat) (k l : Fin 4), TriNo ts i v (INF0 + k) (INF0 + l)
  have m0 : ∀ {i}, i ∈ A0 ↔ i < ts.length ∧ ∃ T, ts[i]? = some T ∧ T.isFinite = true := fun {i} => by
    simp only [A0, Finset.mem_filter, Finset.mem_range, Option.any_eq_true]
  have m1 : ∀ {i}, i ∈ A1 ↔ ∃ (u v : Nat) (k : Fin 4), TriNo ts i u v (INF0 + k) ∧ u < INF0 ∧ v < INF0 := fun {i} => by
    simp only [A1, Finset.mem_filter, Finset.mem_range]
    exact ⟨fun h => h.2, fun h => ⟨by obtain ⟨_, _, _, h, -⟩ := h; exact h.lt, h⟩⟩
  have m2 : ∀ {i}, i ∈ A2 ↔ ∃ (v : Nat) (k l : Fin 4), TriNo ts i v (INF0 + k) (INF0 + l) := fun {i} => by
    simp only [A2, Finset.mem_filter, Finset.mem_range]
    exact ⟨fun h => h.2, fun h => ⟨by obtain ⟨_, _, _, h⟩ := h; exact h.lt, h⟩⟩
  have inf : ∀ k : Fin 4, ¬ INF0 + (k : Nat) < INF0 := fun k => by omega
  -- the three kinds
  have hsplit : Finset.range ts.length = (A0 ∪ A1) ∪ A2 := by
    ext i
    simp only [Finset.mem_union, Finset.mem_range]
    constructor
    · intro hi
      obtain ⟨T, hT⟩ : ∃ T, ts[i]? = some T := ⟨_, List.getElem?_eq_getElem hi⟩
      have t0 : TriNo ts i T.v1 T.v2 T.v3 := ⟨T, _, _, _, hT, rot_self T⟩
      -- a triangle with an infinite vertex in the last place
      have key : ∀ {a b z}, TriNo ts i a b z → ¬ z < INF0 → i ∈ A1 ∨ i ∈ A2 := by
        intro a b z hz fz
        obtain ⟨k, rfl⟩ := hinf z hz.tri.next.next.occ fz
        by_cases fa : a < INF0
        · by_cases fb : b < INF0
          · exact .inl (m1.2 ⟨a, b, k, hz, fa, fb⟩)
          · obtain ⟨l, rfl⟩ := hinf b hz.tri.next.occ fb
            exact .inr (m2.2 ⟨a, l, k, hz⟩)
        · obtain ⟨l, rfl⟩ := hinf a hz.tri.occ fa
          exact .inr (m2.2 ⟨b, k, l, hz.next⟩)
      by_cases f1 : T.v1 < INF0
      · by_cases f2 : T.v2 < INF0
        · by_cases f3 : T.v3 < INF0
          · exact .inl (.inl (m0.2 ⟨hi, T, hT, by simp [Tri.isFinite, isFin_iff, f1, f2, f3]⟩))
          · rcases key t0 f3 with h | h <;> simp [h]
        · rcases key t0.next.next f2 with h | h <;> simp [h]
      · rcases key t0.next f1 with h | h <;> simp [h]
    · rintro ((h | h) | h)
      · exact (m0.1 h).1
      · obtain ⟨_, _, _, h, -⟩ := m1.1 h; exact h.lt
      · obtain ⟨_, _, _, h⟩ := m2.1 h; exact h.lt
  have fin0 : ∀ {i a b c}, i ∈ A0 → TriNo ts i a b c → a < INF0 ∧ b < INF0 ∧ c < INF0 := by
    intro i a b c h1 h2
    obtain ⟨-, T, hT, hf⟩ := m0.1 h1
    simp only [Tri.isFinite, Bool.and_eq_true, isFin_iff] at hf
    rcases TriNo.same h2 ⟨T, _, _, _, hT, rot_self T⟩ with h | h | h <;> omega
  have d01 : Disjoint A0 A1 := Finset.disjoint_left.2 fun i h0 h1 => by
    obtain ⟨u, v, k, h1, -⟩ := m1.1 h1
    exact inf k (fin0 h0 h1).2.2
  have d2 : Disjoint (A0 ∪ A1) A2 := Finset.disjoint_left.2 fun i h01 h2 => by
    obtain ⟨v, k, l, h2⟩ := m2.1 h2
    rcases Finset.mem_union.1 h01 with h | h
    · exact inf l (fin0 h h2).2.2
    · obtain ⟨u, v, k, h1, fu, fv⟩ := m1.1 h
      rcases TriNo.same h1 h2 with h | h | h <;> omega
  -- four corners
  have c2 : A2.card = 4 := by
    choose f hf using hB.outer
    have hf' : ∀ k, ∃ v, TriNo ts (f k) v (INF0 + k) (INF0 + (k + 1 : Fin 4)) := fun k => by
      obtain ⟨T, hT, hh⟩ := hf k
      obtain ⟨c, _, _, hR⟩ := hh.rot
      exact ⟨c, T, _, _, _, hT, hR.next.next⟩
    have := Finset.card_bij (s := (Finset.univ : Finset (Fin 4))) (t := A2) (fun k _ => f k)
      (fun k _ => by obtain ⟨v, h⟩ := hf' k; exact m2.2 ⟨v, k, k + 1, h⟩)
      (fun k _ l _ e => by
        obtain ⟨v, h1⟩ := hf' k
        obtain ⟨v', h2⟩ := hf' l
        rw [← e] at h2
        have fv := (hB.cone hv ht h1.tri).1
        have fv' := (hB.cone hv ht h2.tri).1
        have : (k : Nat) = l := by rcases TriNo.same h1 h2 with h | h | h <;> omega
        exact Fin.ext this)
      (fun i hi => by
        obtain ⟨v, k, l, h1⟩ := m2.1 hi
        obtain ⟨-, rfl, -⟩ := hB.cone hv ht h1.tri
        obtain ⟨v', h2⟩ := hf' k
        exact ⟨k, Finset.mem_univ _, TriNo.edge hv ht h2.next h1.next⟩)
    simpa using this.symm
  -- the sides
  have c1 : A1.card = (borderIds vs ts x y w h).card := by
    have hch : ∀ i, i ∈ A1 → ∃ (u v : Nat) (k : Fin 4), TriNo ts i u v (INF0 + k) ∧ u < INF0 ∧ v < INF0 := fun i hi => m1.1 hi
    choose f g k hf fu fv using hch
    have hs := fun i hi => hB.on_side hv ht hC (hf i hi).tri (fu i hi) (fv i hi)
    have hlt : ∀ i hi, (HP.dir (k i hi)).along (hp vs (f i hi)) < (HP.dir (k i hi)).along (sideB x y w h (k i hi)) := fun i hi =>
      (hs i hi).2.2.trans_le (box_range hB.wpos hB.hpos (k i hi) (hB.inside _ (hf i hi).tri.next.occ (fv i hi))).2.1
    refine Finset.card_bij f (fun i hi => mem_borderIds.2 ⟨fu i hi, (hf i hi).tri.occ, k i hi, (hs i hi).1⟩) ?_ ?_
    · intro i hi j hj e
      have hj' := hs j hj
      have hl' := hlt j hj
      have fj := hf j hj
      rw [← e] at hj' hl' fj
      have ek := side_unique hB.wpos hB.hpos (hs i hi).1 hj'.1 (hlt i hi) hl'
      rw [← ek] at fj
      exact TriNo.edge hv ht (hf i hi).next.next fj.next.next
    · intro u hu
      obtain ⟨hu, ou, l, hl⟩ := mem_borderIds.1 hu
      -- on a side of which it is not the end
      obtain ⟨l, hl, hlt⟩ : ∃ l : Fin 4, (HP.dir l).out (hp vs u) = (HP.dir l).out (sideA x y w h l) ∧
          (HP.dir l).along (hp vs u) < (HP.dir l).along (sideB x y w h l) := by
        rcases lt_or_eq_of_le (box_range hB.wpos hB.hpos l (hB.inside u ou hu)).2.1 with h1 | h1
        · exact ⟨l, hl, h1⟩
        · have zu := hp_unit vs (inf_ge l)
          rw [hp_inf] at zu
          have e : hp vs u = sideB x y w h l := hp_eq_of_side zu (hp_w_fin vs hu) rfl h1 (hl.trans (side_lt hB.wpos hB.hpos l).2)
          have e : hp vs u = sideA x y w h (l + 3) := by
            rw [← sideB_eq, e]; congr 1; rw [add_assoc]; exact (add_zero l).symm
          exact ⟨l + 3, by rw [e], by rw [e]; exact (side_lt hB.wpos hB.hpos _).1⟩
      obtain ⟨d, hd⟩ := hB.on_chain hv ht hC hinf hu ou hl
      have hd : TriIn ts u d (INF0 + l) := hd
      have fd : d < INF0 := by
        by_contra fd
        obtain ⟨m, rfl⟩ := hinf d hd.next.occ fd
        obtain ⟨-, e, eh⟩ := hB.cone hv ht hd
        have eh : hp vs u = sideB x y w h l := by rw [eh, e, sideB_eq]; rfl
        rw [eh] at hlt
        exact lt_irrefl _ hlt
      obtain ⟨i, hi⟩ := hd.at
      have hiA := m1.2 ⟨u, d, l, hi, hu, fd⟩
      refine ⟨i, hiA, ?_⟩
      have := fu i hiA
      have := fv i hiA
      rcases TriNo.same (hf i hiA) hi with h | h | h <;> omega
  have := congrArg Finset.card hsplit
  rw [Finset.card_range, Finset.card_union_of_disjoint d2, Finset.card_union_of_disjoint d01, c1, c2, indices_card ts (·.isFinite)] at this
  exact this

end

end CDT

import Verif.Geo.Delaunay

/-! # A mesh whose real vertices are the corners of an axis-parallel rectangle -/

set_option linter.unusedSectionVars false
set_option linter.unusedSimpArgs false
set_option linter.unusedVariables false
set_option linter.unreachableTactic false
set_option linter.unusedTactic false

namespace CDT

variable {K : Type} [Field K] [LinearOrder K] [IsStrictOrderedRing K] [ExactParams K] [IdCfg]
variable {vs : List (Vtx K)} {ts ts0 ts' : List Tri}

/-- Corner of the rectangle with the lower left corner `(x, y)`, the width `w` and the height `h`. -/
def crn (x y w h : K) (i j : Bool) : Vtx K := ⟨cond i (x + w) x, cond j (y + h) y⟩

theorem crn_inj {x y w h : K} (hw : 0 < w) (hh : 0 < h) {i j k l : Bool} (e : crn x y w h i j = crn x y w h k l) : i = k ∧ j = l := by
  simp only [crn, Vtx.mk.injEq] at e
  obtain ⟨e1, e2⟩ := e
  cases i <;> cases k <;> cases j <;> cases l <;> simp at e1 e2 ⊢ <;> first | exact hw.ne' e1 | exact hh.ne' e2

theorem ofVtx_inj {a b : Vtx K} (e : HP.ofVtx a = HP.ofVtx b) : a = b := by
  cases a; cases b; simpa [HP.ofVtx] using e

/-- The real vertices of the mesh are the corners of the rectangle. -/
structure RectMesh (vs : List (Vtx K)) (ts : List Tri) (x y w h : K) : Prop where
  wpos : 0 < w
  hpos : 0 < h
  only : ∀ q, Occ ts q → q < INF0 → ∃ i j, hp vs q = HP.ofVtx (crn x y w h i j)
  all : ∀ i j, ∃ q, Occ ts q ∧ q < INF0 ∧ hp vs q = HP.ofVtx (crn x y w h i j)

variable {x y w h : K}

/-- A corner in a closed triangle is one of its vertices. -/
theorem RectMesh.corner (hR : RectMesh vs ts x y w h) (hv : Valid (hp vs) ts) (ht : Tiled vs ts) {a b c : Nat} (hT : TriIn ts a b c)
    (i j : Bool) (h1 : 0 ≤ HP.o (hp vs a) (hp vs b) (HP.ofVtx (crn x y w h i j)))
    (h2 : 0 ≤ HP.o (hp vs b) (hp vs c) (HP.ofVtx (crn x y w h i j)))
    (h3 : 0 ≤ HP.o (hp vs c) (hp vs a) (HP.ofVtx (crn x y w h i j))) :
    HP.ofVtx (crn x y w h i j) = hp vs a ∨ HP.ofVtx (crn x y w h i j) = hp vs b ∨ HP.ofVtx (crn x y w h i j) = hp vs c := by
  obtain ⟨q, hq, hqi, e⟩ := hR.all i j
  obtain ⟨n, T, j1, j2, j3, hT, hRot⟩ := hT
  have := vert_of_in hv ht hqi hq hT hRot (by rw [e]; exact h1) (by rw [e]; exact h2) (by rw [e]; exact h3)
  rw [hRot.hasVert] at this
  rw [← e]
  rcases this with rfl | rfl | rfl <;> simp

theorem inf_dir (vs : List (Vtx K)) {ts : List Tri} (hok : VertsIn (VOk vs.length) ts) (hn : vs.length ≤ INF0) {a b c : Nat} (h : TriIn ts a b c) (ha : ¬ a < INF0) :
    ∃ k : Fin 4, hp vs a = HP.dir k := by
  obtain ⟨n, T, j1, j2, j3, hT, hRot⟩ := h
  have hm := List.mem_of_getElem? hT
  have : ∃ k : Fin 3, T.v k = a := by
    have := (hRot.hasVert (p := a)).2 (.inl rfl)
    rw [hasVert_iff] at this
    rcases this with e | e | e
    · exact ⟨0, e⟩
    · exact ⟨1, e⟩
    · exact ⟨2, e⟩
  obtain ⟨k, hk⟩ := this
  rcases hok T hm k with h' | h'
  · omega
  · rw [hk] at h'
    have e := hp_INF vs
    have hb := IdCfg.big
    have : a = INF0 ∨ a = INF1 ∨ a = INF2 ∨ a = INF3 := by
      unfold INF0 INF1 INF2 INF3 at *; omega
    rcases this with rfl | rfl | rfl | rfl
    · exact ⟨0, e.1⟩
    · exact ⟨1, e.2.1⟩
    · exact ⟨2, e.2.2.1⟩
    · exact ⟨3, e.2.2.2⟩

theorem RectMesh.hull (hR : RectMesh vs ts x y w h) (hv : Valid (hp vs) ts) (ht : Tiled vs ts) (hok : VertsIn (VOk vs.length) ts)
    (hn : vs.length ≤ INF0) {a b c : Nat} (hT : TriIn ts b a c) (ha : a < INF0) (hb : b < INF0) (hc : ¬ c < INF0) :
    (∀ r s, 0 ≤ HP.o (hp vs a) (hp vs b) (HP.ofVtx (crn x y w h r s))) ∧
    ∀ P : Vtx K, x < P.x → P.x < x + w → y < P.y → P.y < y + h → 0 < HP.o (hp vs a) (hp vs b) (HP.ofVtx P) ∧
      0 < HP.o (hp vs a) (hp vs c) (HP.ofVtx P) ∧ 0 < HP.o (hp vs c) (hp vs b) (HP.ofVtx P) := by
  obtain ⟨k, l, eb⟩ := hR.only b hT.occ hb
  obtain ⟨i, j, ea⟩ := hR.only a hT.next.occ ha
  obtain ⟨m, ec⟩ := inf_dir vs hok hn hT.next.next hc
  have pos := hT.pos hv
  have cor := hR.corner hv ht hT
  rw [ea, eb, ec] at *
  have hw := hR.wpos
  have hh := hR.hpos
  have hwh := mul_pos hw hh
  have key : ∀ r s : Bool, HP.ofVtx (crn x y w h r s) = HP.ofVtx (crn x y w h k l) ∨
      HP.ofVtx (crn x y w h r s) = HP.ofVtx (crn x y w h i j) ∨ HP.ofVtx (crn x y w h r s) = HP.dir m →
      (r = k ∧ s = l) ∨ (r = i ∧ s = j) := by
    rintro r s (e | e | e)
    · exact .inl (crn_inj hw hh (ofVtx_inj e))
    · exact .inr (crn_inj hw hh (ofVtx_inj e))
    · have := congrArg HP.w e
      fin_cases m <;> simp [HP.ofVtx, HP.dir] at this
  have cor' := fun r s h1 h2 h3 => key r s (cor r s h1 h2 h3)
  clear cor key ea eb ec
  have split : (∀ r s, 0 ≤ HP.o (HP.ofVtx (crn x y w h i j)) (HP.ofVtx (crn x y w h k l)) (HP.ofVtx (crn x y w h r s))) ∧
    (∀ P : Vtx K, 0 < P.x - x → 0 < x + w - P.x → 0 < P.y - y → 0 < y + h - P.y →
      0 < w * (P.y - y) → 0 < w * (y + h - P.y) → 0 < h * (P.x - x) → 0 < h * (x + w - P.x) →
      0 < HP.o (HP.ofVtx (crn x y w h i j)) (HP.ofVtx (crn x y w h k l)) (HP.ofVtx P) ∧
      0 < HP.o (HP.ofVtx (crn x y w h i j)) (HP.dir m) (HP.ofVtx P) ∧
      0 < HP.o (HP.dir m) (HP.ofVtx (crn x y w h k l)) (HP.ofVtx P)) := by
    cases i <;> cases j <;> cases k <;> cases l <;> fin_cases m <;>
      simp only [HP.o, HP.ofVtx, HP.dir, crn, cond_true, cond_false] at pos cor' ⊢ <;>
      first
      | (exfalso; linarith)
      | (refine ⟨fun r s => ?_, fun P h1 h2 h3 h4 h5 h6 h7 h8 => ?_⟩
         · cases r <;> cases s <;> simp only [cond_true, cond_false] <;> linarith
         · refine ⟨?_, ?_, ?_⟩ <;> linarith)
      | (exfalso; have c := cor' false false (by simp only [cond_true, cond_false]; linarith) (by simp only [cond_true, cond_false]; linarith) (by simp only [cond_true, cond_false]; linarith); simp at c; done)
      | (exfalso; have c := cor' false true (by simp only [cond_true, cond_false]; linarith) (by simp only [cond_true, cond_false]; linarith) (by simp only [cond_true, cond_false]; linarith); simp at c; done)
      | (exfalso; have c := cor' true false (by simp only [cond_true, cond_false]; linarith) (by simp only [cond_true, cond_false]; linarith) (by simp only [cond_true, cond_false]; linarith); simp at c; done)
      | (exfalso; have c := cor' true true (by simp only [cond_true, cond_false]; linarith) (by simp only [cond_true, cond_false]; linarith) (by simp only [cond_true, cond_false]; linarith); simp at c; done)
  refine ⟨split.1, fun P h1 h2 h3 h4 => split.2 P ?_ ?_ ?_ ?_ (mul_pos hw ?_) (mul_pos hw ?_) (mul_pos hh ?_) (mul_pos hh ?_)⟩ <;> linarith

theorem RectMesh.cone (hR : RectMesh vs ts x y w h) (hv : Valid (hp vs) ts) (ht : Tiled vs ts) (hok : VertsIn (VOk vs.length) ts)
    (hn : vs.length ≤ INF0) {a b c : Nat} (hT : TriIn ts a b c) (ha : a < INF0) (hb : ¬ b < INF0) (hc : ¬ c < INF0)
    (P : Vtx K) (h1 : x < P.x) (h2 : P.x < x + w) (h3 : y < P.y) (h4 : P.y < y + h) :
    HP.o (hp vs a) (hp vs b) (HP.ofVtx P) < 0 ∧ HP.o (hp vs c) (hp vs a) (HP.ofVtx P) < 0 := by
  obtain ⟨i, j, ea⟩ := hR.only a hT.occ ha
  obtain ⟨m, eb⟩ := inf_dir vs hok hn hT.next hb
  obtain ⟨n, ec⟩ := inf_dir vs hok hn hT.next.next hc
  have pos := hT.pos hv
  have cor := hR.corner hv ht hT
  rw [ea, eb, ec] at *
  have hw := hR.wpos
  have hh := hR.hpos
  have key : ∀ r s : Bool, HP.ofVtx (crn x y w h r s) = HP.ofVtx (crn x y w h i j) ∨
      HP.ofVtx (crn x y w h r s) = HP.dir m ∨ HP.ofVtx (crn x y w h r s) = HP.dir n →
      (r = i ∧ s = j) := by
    rintro r s (e | e | e)
    · exact crn_inj hw hh (ofVtx_inj e)
    · have := congrArg HP.w e
      fin_cases m <;> simp [HP.ofVtx, HP.dir] at this
    · have := congrArg HP.w e
      fin_cases n <;> simp [HP.ofVtx, HP.dir] at this
  have cor' := fun r s h1 h2 h3 => key r s (cor r s h1 h2 h3)
  clear cor key ea eb ec
  cases i <;> cases j <;> fin_cases m <;> fin_cases n <;>
      simp only [HP.o, HP.ofVtx, HP.dir, crn, cond_true, cond_false] at pos cor' ⊢ <;>
      first
      | (exfalso; linarith)
      | (constructor <;> linarith)
      | (exfalso; have c := cor' false false (by simp only [cond_true, cond_false]; linarith) (by simp only [cond_true, cond_false]; linarith) (by simp only [cond_true, cond_false]; linarith); simp at c; done)
      | (exfalso; have c := cor' false true (by simp only [cond_true, cond_false]; linarith) (by simp only [cond_true, cond_false]; linarith) (by simp only [cond_true, cond_false]; linarith); simp at c; done)
      | (exfalso; have c := cor' true false (by simp only [cond_true, cond_false]; linarith) (by simp only [cond_true, cond_false]; linarith) (by simp only [cond_true, cond_false]; linarith); simp at c; done)
      | (exfalso; have c := cor' true true (by simp only [cond_true, cond_false]; linarith) (by simp only [cond_true, cond_false]; linarith) (by simp only [cond_true, cond_false]; linarith); simp at c; done)

/-- The mesh of the corners is a Delaunay mesh with a convex boundary. -/
theorem RectMesh.emp (hR : RectMesh vs ts x y w h) (hv : Valid (hp vs) ts) (ht : Tiled vs ts) (hok : VertsIn (VOk vs.length) ts)
    (hn : vs.length ≤ INF0) : Emp vs ts where
  circ := by
    intro a b c q hT ha hb hc hq hqi
    obtain ⟨i, j, ea⟩ := hR.only a hT.occ ha
    obtain ⟨k, l, eb⟩ := hR.only b hT.next.occ hb
    obtain ⟨m, n, ec⟩ := hR.only c hT.next.next.occ hc
    obtain ⟨r, s, eq⟩ := hR.only q hq hqi
    rw [ea, eb, ec, eq]
    have e : HP.ic (HP.ofVtx (crn x y w h i j)) (HP.ofVtx (crn x y w h k l)) (HP.ofVtx (crn x y w h m n)) (HP.ofVtx (crn x y w h r s)) = 0 := by
      have l : ∀ i j, (HP.ofVtx (crn x y w h i j)).lift = (2 * x + w) * (crn x y w h i j).x + (2 * y + h) * (crn x y w h i j).y - (x ^ 2 + x * w + y ^ 2 + y * h) := by
        intro i j
        cases i <;> cases j <;> simp only [HP.lift, HP.ofVtx, crn, cond_true, cond_false] <;> ring
      unfold HP.ic
      rw [l, l, l, l]
      simp only [HP.o, HP.ofVtx]
      ring
    rw [e]
  hull := by
    intro a b c q hT ha hb hc hq hqi
    obtain ⟨r, s, eq⟩ := hR.only q hq hqi
    rw [eq]
    exact (hR.hull hv ht hok hn hT ha hb hc).1 r s

/-- Points strictly inside the rectangle are in no unbounded triangle. -/
theorem RectMesh.inner (hR : RectMesh vs ts x y w h) (hv : Valid (hp vs) ts) (ht : Tiled vs ts) (hok : VertsIn (VOk vs.length) ts)
    (hn : vs.length ≤ INF0) (P : Vtx K) (h1 : x < P.x) (h2 : P.x < x + w) (h3 : y < P.y) (h4 : P.y < y + h) : Inner vs ts (HP.ofVtx P) where
  far := by
    intro a b c hT ha
    by_cases hb : b < INF0
    · by_cases hc : c < INF0
      · have := ((hR.hull hv ht hok hn hT.next hc hb ha).2 P h1 h2 h3 h4).1
        rw [HP.o_swap] at this
        right; left; linarith
      · exact .inr (.inl (hR.cone hv ht hok hn hT.next hb hc ha P h1 h2 h3 h4).1)
    · by_cases hc : c < INF0
      · exact .inr (.inr (hR.cone hv ht hok hn hT.next.next hc ha hb P h1 h2 h3 h4).1)
      · exfalso
        have pos := hT.pos hv
        have e1 := hp_w_inf vs ha
        have e2 := hp_w_inf vs hb
        have e3 := hp_w_inf vs hc
        simp [HP.o, e1, e2, e3] at pos
  hull := by
    intro a b c hT ha hb hc
    exact ((hR.hull hv ht hok hn hT ha hb hc).2 P h1 h2 h3 h4).1.le

end CDT

namespace CDT

variable {K : Type} [Field K] [LinearOrder K] [IsStrictOrderedRing K] [ExactParams K] [IdCfg]
variable {vs : List (Vtx K)} {ts ts0 ts' : List Tri}

theorem far_near {a b c g : HP K} (h : ¬ (0 ≤ HP.o a b g ∧ 0 ≤ HP.o b c g ∧ 0 ≤ HP.o c a g)) :
    ∃ d, 0 < d ∧ ∀ e, 0 < e → e < d → ¬ In3 a b c (g.move e) := by
  have key : ∀ {a b : HP K}, HP.o a b g < 0 → ∃ d, 0 < d ∧ ∀ e, 0 < e → e < d → HP.o a b (g.move e) < 0 := by
    intro a b h
    obtain ⟨d, hd, hn⟩ := quad_pos_near (neg_pos.2 h) (-(HP.o a b ⟨1, 0, 0⟩)) (-(HP.o a b ⟨0, 1, 0⟩))
    refine ⟨d, hd, fun e he hd => ?_⟩
    have := hn e he hd
    rw [o_move]; linarith
  rw [not_and_or, not_and_or, not_le, not_le, not_le] at h
  rcases h with h | h | h <;> obtain ⟨d, hd, hn⟩ := key h <;> refine ⟨d, hd, fun e he he' hc => ?_⟩
  · exact absurd hc.1 (not_lt.2 (hn e he he').le)
  · exact absurd hc.2.1 (not_lt.2 (hn e he he').le)
  · exact absurd hc.2.2 (not_lt.2 (hn e he he').le)

/-- Every point is in a closed triangle of the mesh. -/
theorem Tiled.closed (ht : Tiled vs ts) {g : HP K} (hg : g.w = 1) : ∃ (i : Nat) (T : Tri), ts[i]? = some T ∧
    0 ≤ HP.o (hp vs T.v1) (hp vs T.v2) g ∧ 0 ≤ HP.o (hp vs T.v2) (hp vs T.v3) g ∧ 0 ≤ HP.o (hp vs T.v3) (hp vs T.v1) g := by
  by_contra hc
  have h : ∀ l : List Tri, (∀ T ∈ l, T ∈ ts) → ∃ d : K, 0 < d ∧ ∀ T ∈ l, ∀ e, 0 < e → e < d →
      ¬ In3 (hp vs T.v1) (hp vs T.v2) (hp vs T.v3) (g.move e) := by
    intro l
    induction l with
    | nil => intro _; exact ⟨1, one_pos, by simp⟩
    | cons T l ih =>
      intro hl
      obtain ⟨d, hd, h1⟩ := ih fun T hT => hl T (by simp [hT])
      obtain ⟨i, hi⟩ := List.mem_iff_getElem?.1 (hl T (by simp))
      obtain ⟨d', hd', h2⟩ := far_near (a := hp vs T.v1) (b := hp vs T.v2) (c := hp vs T.v3) (g := g) fun h => hc ⟨i, T, hi, h⟩
      refine ⟨min d d', lt_min hd hd', ?_⟩
      intro U hU e he hm
      rw [lt_min_iff] at hm
      rcases List.mem_cons.1 hU with rfl | hU
      · exact h2 e he hm.2
      · exact h1 U hU e he hm.1
  obtain ⟨d, hd, h⟩ := h ts fun _ h => h
  obtain ⟨e, he, hed, hgen⟩ := exists_generic vs ts g hd
  obtain ⟨i, ⟨T, hT, h3⟩, -⟩ := ht (g.move e) hg hgen
  exact h T (List.mem_of_getElem? hT) e he hed h3

end CDT

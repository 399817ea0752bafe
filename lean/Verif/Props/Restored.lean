import Verif.Spec.Local
import Verif.Props.Merge
import Verif.Props.Framed
import Verif.Props.Polygon

/-! # C59: constrained Delaunay -/

set_option linter.unusedSectionVars false
set_option linter.unusedSimpArgs false
set_option linter.unusedVariables false

namespace CDT
open Plane

variable {K : Type} [Field K] [LinearOrder K] [IsStrictOrderedRing K] [ExactParams K] [IdCfg]

/-! ## Circles -/

theorem inCircle_ic {A B C D : Vtx K} (h : Clockwise A B C) :
    InCircle A B C D ↔ 0 < HP.ic (HP.ofVtx A) (HP.ofVtx B) (HP.ofVtx C) (HP.ofVtx D) := by
  have hpos : 0 < area2 B A C := by rw [area2_swap]; unfold Clockwise at h; linarith
  have := crS_inCircle (p := D) hpos
  rw [ic_crS]
  rw [show (0 < -crS B A C D) ↔ crS B A C D < 0 by constructor <;> intro h <;> linarith, this]
  constructor
  · rintro ⟨m, ⟨e1, e2⟩, e3⟩
    exact ⟨m, ⟨e1.symm, e1.symm.trans e2⟩, by rw [← e1]; exact e3⟩
  · rintro ⟨m, ⟨e1, e2⟩, e3⟩
    exact ⟨m, ⟨e1.symm, e1.symm.trans e2⟩, by rw [← e1]; exact e3⟩

/-- If some circle through `a`, `b` and a point `x` contains neither `c` nor `d`, which are on different sides of the line,
then `d` is not inside the circle of `a b c`. -/
theorem ic_local {a b x c d : HP K} (ha : a.w = 1) (hb : b.w = 1) (hx : x.w = 1) (hc : c.w = 1) (hd : d.w = 1)
    (px : 0 < HP.o a b x) (pc : 0 < HP.o a b c) (pd : HP.o a b d < 0) (h1 : HP.ic a b x c ≤ 0) (h2 : HP.ic a b x d ≤ 0) :
    HP.ic a b c d ≤ 0 := by
  rw [HP.ic_dot ha hb hx hc] at h1
  rw [HP.ic_dot ha hb hx hd] at h2
  rw [HP.ic_dot ha hb hc hd]
  have m1 := mul_nonneg (neg_nonneg.2 h1) (neg_nonneg.2 pd.le)
  have m2 := mul_nonneg (neg_nonneg.2 h2) pc.le
  have : HP.o a b x * (HP.dot a b c * HP.o a b d - HP.dot a b d * HP.o a b c) ≤ 0 := by linarith
  exact nonpos_of_mul_nonpos_right this px

theorem ic_both {a b c d : HP K} (ha : a.w = 1) (hb : b.w = 1) (hc : c.w = 1) (hd : d.w = 1) :
    HP.ic b a d c = HP.ic a b c d := by
  rw [HP.ic_dot ha hb hc hd, HP.ic_dot hb ha hd hc, HP.o_swap a b c, HP.o_swap a b d]
  simp only [HP.dot]; ring

/-- An edge of a Delaunay triangulation is locally Delaunay between any two triangles. -/
theorem local_of_side {vs : List (Vtx K)} {out0 : List Out} (hD : Spec.Delaunay vs out0) {o : Out} (ho : o ∈ out0) {a b : Nat}
    (hs : Spec.Side o a b ∨ Spec.Side o b a) {A B C D : Vtx K} (gA : vs[a]? = some A) (gB : vs[b]? = some B) (hC : C ∈ vs) (hD' : D ∈ vs)
    (hc : Clockwise A B C) (hd : Clockwise B A D) : ¬ InCircle A B C D := by
  obtain ⟨P, Q, R, gP, gQ, gR, hcw, hemp⟩ := hD o ho
  -- the third corner
  have key : ∃ X, (Clockwise A B X ∨ Clockwise B A X) ∧ ∀ q ∈ vs, ¬ InCircle A B X q := by
    have rot1 : ∀ q, InCircle Q R P q → InCircle P Q R q := by
      rintro q ⟨m, ⟨e1, e2⟩, e3⟩; exact ⟨m, ⟨e2.symm, e2.symm.trans e1⟩, by rw [← e2]; exact e3⟩
    have rot2 : ∀ q, InCircle R P Q q → InCircle P Q R q := by
      rintro q ⟨m, ⟨e1, e2⟩, e3⟩; exact ⟨m, ⟨e1.symm.trans e2, e1.symm⟩, by rw [← e1]; exact e3⟩
    have sw : ∀ U V W q : Vtx K, InCircle U V W q → InCircle V U W q := by
      rintro U V W q ⟨m, ⟨e1, e2⟩, e3⟩; exact ⟨m, ⟨e1.symm, e1.symm.trans e2⟩, by rw [← e1]; exact e3⟩
    have cy1 : Clockwise Q R P := by unfold Clockwise area2 at hcw ⊢; linarith
    have cy2 : Clockwise R P Q := by unfold Clockwise area2 at hcw ⊢; linarith
    have cases : ∀ {x y : Nat} {X Y : Vtx K}, Spec.Side o x y → vs[x]? = some X → vs[y]? = some Y →
        ∃ Z, Clockwise X Y Z ∧ ∀ q ∈ vs, ¬ InCircle X Y Z q := by
      intro x y X Y h gX gY
      rcases h with ⟨rfl, rfl⟩ | ⟨rfl, rfl⟩ | ⟨rfl, rfl⟩
      · rw [gP] at gX; rw [gQ] at gY; cases gX; cases gY
        exact ⟨R, hcw, hemp⟩
      · rw [gQ] at gX; rw [gR] at gY; cases gX; cases gY
        exact ⟨P, cy1, fun q hq h => hemp q hq (rot1 q h)⟩
      · rw [gR] at gX; rw [gP] at gY; cases gX; cases gY
        exact ⟨Q, cy2, fun q hq h => hemp q hq (rot2 q h)⟩
    rcases hs with h | h
    · obtain ⟨Z, h1, h2⟩ := cases h gA gB
      exact ⟨Z, .inl h1, h2⟩
    · obtain ⟨Z, h1, h2⟩ := cases h gB gA
      exact ⟨Z, .inr h1, fun q hq h' => h2 q hq (sw _ _ _ _ h')⟩
  obtain ⟨X, hX, hE⟩ := key
  have sw : ∀ U V W q : Vtx K, InCircle U V W q → InCircle V U W q := by
    rintro U V W q ⟨m, ⟨e1, e2⟩, e3⟩; exact ⟨m, ⟨e1.symm, e1.symm.trans e2⟩, by rw [← e1]; exact e3⟩
  have po : ∀ {U V W : Vtx K}, Clockwise U V W → 0 < HP.o (HP.ofVtx U) (HP.ofVtx V) (HP.ofVtx W) := by
    intro U V W h; rw [o_area2]; unfold Clockwise at h; linarith
  have ne : ∀ {U V W : Vtx K}, Clockwise U V W → HP.o (HP.ofVtx V) (HP.ofVtx U) (HP.ofVtx W) < 0 := by
    intro U V W h; have := po h; rw [HP.o_swap]; linarith
  rw [inCircle_ic hc, not_lt]
  rcases hX with hX | hX
  · refine ic_local rfl rfl rfl rfl rfl (po hX) (po hc) (ne hd) ?_ ?_
    · have := hE C hC; rw [inCircle_ic hX, not_lt] at this; exact this
    · have := hE D hD'; rw [inCircle_ic hX, not_lt] at this; exact this
  · rw [← ic_both rfl rfl rfl rfl]
    have e : ∀ q, ¬ InCircle A B X q → HP.ic (HP.ofVtx B) (HP.ofVtx A) (HP.ofVtx X) (HP.ofVtx q) ≤ 0 := by
      intro q h
      have : ¬ InCircle B A X q := fun h' => h (sw _ _ _ _ h')
      rw [inCircle_ic hX, not_lt] at this; exact this
    exact ic_local rfl rfl rfl rfl rfl (po hX) (po hd) (ne hc) (e D (hE D hD')) (e C (hE C hC))

/-! ## Edges with two artificial ends -/

theorem far_one_sided {vs : List (Vtx K)} {ts : List Tri} (hv : Valid (hp vs) ts) {i a b j : Nat} (ha : ¬ a < INF0) (hb : ¬ b < INF0)
    (h : Ent ts i a b j) : j = NONE := by
  by_contra hn
  have h' := hv.ent_pos h hn
  obtain ⟨S, hS, hs⟩ := h
  obtain ⟨U, hU, hu⟩ := h'
  obtain ⟨x, _, _, hR⟩ := hs.rot
  obtain ⟨y, _, _, hR'⟩ := hu.rot
  have p1 := hR.pos_iff.1 (hv.pos _ _ hS)
  have p2 := hR'.pos_iff.1 (hv.pos _ _ hU)
  have wa := hp_w_inf vs ha
  have wb := hp_w_inf vs hb
  have wx := hp_w_nonneg vs x
  have wy := hp_w_nonneg vs y
  have e1 : HP.o (hp vs a) (hp vs b) (hp vs x) = (hp vs x).w * HP.o (hp vs a) (hp vs b) ⟨0, 0, 1⟩ := by
    simp only [HP.o, wa, wb]; ring
  have e2 : HP.o (hp vs b) (hp vs a) (hp vs y) = - ((hp vs y).w * HP.o (hp vs a) (hp vs b) ⟨0, 0, 1⟩) := by
    simp only [HP.o, wa, wb]; ring
  rw [e1] at p1
  rw [e2] at p2
  have q1 : 0 ≤ HP.o (hp vs a) (hp vs b) ⟨0, 0, 1⟩ := by
    by_contra hc
    have := mul_nonpos_of_nonneg_of_nonpos wx (not_le.1 hc).le
    linarith
  have := mul_nonneg wy q1
  linarith

/-- Flips keep the edges with two artificial ends. -/
theorem FlipSpec.far_edge {vs : List (Vtx K)} {ts ts' : List Tri} {s o p a b c n1 n2 n3 n4 : Nat}
    (hf : FlipSpec ts ts' s o p a b c n1 n2 n3 n4) (hv : Valid (hp vs) ts) {x y : Nat} (hx : ¬ x < INF0) (hy : ¬ y < INF0)
    (h : HasEdge ts x y) : HasEdge ts' x y := by
  obtain ⟨i, j, h⟩ := h
  have hj := far_one_sided hv hx hy h
  have hl := hf.lt_none hv
  by_cases h1 : i = s
  · subst h1
    rcases hf.ent_s.1 h with ⟨rfl, rfl, _⟩ | ⟨rfl, rfl, e⟩ | ⟨rfl, rfl, _⟩
    · exact ⟨_, _, hf.ent_s'.2 (.inl ⟨rfl, rfl, rfl⟩)⟩
    · omega
    · exact ⟨_, _, hf.ent_o'.2 (by tauto)⟩
  by_cases h2 : i = o
  · subst h2
    rcases hf.ent_o.1 h with ⟨rfl, rfl, e⟩ | ⟨rfl, rfl, _⟩ | ⟨rfl, rfl, _⟩
    · omega
    · exact ⟨_, _, hf.ent_s'.2 (.inr (.inl ⟨rfl, rfl, rfl⟩))⟩
    · exact ⟨_, _, hf.ent_o'.2 (.inr (.inl ⟨rfl, rfl, rfl⟩))⟩
  · exact ⟨i, _, (hf.ent_other hv h1 h2).2 ⟨j, h, rfl⟩⟩

theorem steps_len {H : Nat → HP K} {ts ts' : List Tri} (h : Relation.ReflTransGen (MStep H) ts ts') : ts.length ≤ ts'.length := by
  induction h with
  | refl => exact le_rfl
  | tail _ h ih =>
    cases h with
    | split3 ht hs hl h => rw [hs.len]; omega
    | split4 hs hl h0 h1 h2 => rw [hs.len]; omega
    | flip hs h1 h2 => rw [hs.len]; exact ih

theorem steps_far {vs : List (Vtx K)} {ts ts' : List Tri} (h : Relation.ReflTransGen (MStep (hp vs)) ts ts') (hv : Valid (hp vs) ts)
    (hl : ts'.length = ts.length) {x y : Nat} (hx : ¬ x < INF0) (hy : ¬ y < INF0) (he : HasEdge ts x y) : HasEdge ts' x y := by
  induction h with
  | refl => exact he
  | @tail b c h0 h ih =>
    have l0 := steps_len h0
    have hvb : Valid (hp vs) b := by
      clear ih h hl l0
      induction h0 with
      | refl => exact hv
      | tail _ h ih => exact h.valid ih
    cases h with
    | split3 ht hs hl' h => have := hs.len; omega
    | split4 hs hl' h0 h1 h2 => have := hs.len; omega
    | flip hs h1 h2 => exact hs.far_edge hvb hx hy (ih (by have := hs.len; omega))

/-! ## Counting edges -/

/-- The directed edges of a mesh. -/
def edgeSet (ts : List Tri) : Finset (Nat × Nat) :=
  (Finset.range ts.length ×ˢ (Finset.univ : Finset (Fin 3))).image
    fun x => (((ts[x.1]?).getD ⟨0, 0, 0, 0, 0, 0⟩).v x.2, ((ts[x.1]?).getD ⟨0, 0, 0, 0, 0, 0⟩).v (x.2 + 1))

theorem mem_edgeSet {ts : List Tri} {x y : Nat} : (x, y) ∈ edgeSet ts ↔ HasEdge ts x y := by
  unfold edgeSet
  rw [Finset.mem_image]
  constructor
  · rintro ⟨⟨i, k⟩, hi, e⟩
    rw [Finset.mem_product, Finset.mem_range] at hi
    have g : ts[i]? = some ts[i] := List.getElem?_eq_getElem hi.1
    simp only [g, Option.getD_some, Prod.mk.injEq] at e
    obtain ⟨rfl, rfl⟩ := e
    exact ⟨i, _, _, g, has_k _ k⟩
  · rintro ⟨i, j, T, hT, hh⟩
    obtain ⟨k, h1, h2, -⟩ := hh.k
    refine ⟨(i, k), ?_, ?_⟩
    · rw [Finset.mem_product, Finset.mem_range]; exact ⟨lt_of_getElem? hT, Finset.mem_univ _⟩
    · simp only [hT, Option.getD_some, h1, h2]

theorem card_edgeSet {vs : List (Vtx K)} {ts : List Tri} (hv : Valid (hp vs) ts) (hT : Tiled vs ts) : (edgeSet ts).card = 3 * ts.length := by
  unfold edgeSet
  rw [Finset.card_image_of_injOn, Finset.card_product, Finset.card_range, Finset.card_univ, Fintype.card_fin, Nat.mul_comm]
  rintro ⟨i, k⟩ hx ⟨i', k'⟩ hy he
  simp only [Finset.coe_product, Finset.coe_range, Finset.coe_univ, Set.mem_prod, Set.mem_Iio, Set.mem_univ, and_true] at hx hy
  have g : ts[i]? = some ts[i] := List.getElem?_eq_getElem hx
  have g' : ts[i']? = some ts[i'] := List.getElem?_eq_getElem hy
  simp only [g, g', Option.getD_some, Prod.mk.injEq] at he
  have e1 : Ent ts i (ts[i].v k) (ts[i].v (k + 1)) _ := ⟨_, g, has_k _ k⟩
  have e2 : Ent ts i' (ts[i'].v k') (ts[i'].v (k' + 1)) _ := ⟨_, g', has_k _ k'⟩
  rw [← he.1, ← he.2] at e2
  have := hT.edge hv e1 e2
  subst this
  obtain ⟨n1, n2, n3⟩ := (hv.pos _ _ g).ne
  have hk := he.1
  refine Prod.ext rfl ?_
  clear e1 e2 he
  fin_cases k <;> fin_cases k' <;> first
    | rfl
    | exact absurd hk n1
    | exact absurd hk n2
    | exact absurd hk n3
    | exact absurd hk.symm n1
    | exact absurd hk.symm n2
    | exact absurd hk.symm n3

/-- Edges of a tiled mesh do not cross. -/
theorem edges_no_cross {vs : List (Vtx K)} {ts : List Tri} (hv : Valid (hp vs) ts) (ht : Tiled vs ts) {a b c d : Nat} (ha : a < INF0)
    (hb : b < INF0) (hc : c < INF0) (hd : d < INF0) (hab : HasEdge ts a b) (hcd : HasEdge ts c d) :
    ¬ HP.Cross (hp vs a) (hp vs b) (hp vs c) (hp vs d) := by
  intro hC
  have wa := hp_w_fin vs ha
  have wb := hp_w_fin vs hb
  have wc := (hp_w_fin vs hc).symm ▸ zero_le_one
  have wd := (hp_w_fin vs hd).symm ▸ zero_le_one
  rcases mul_neg_iff.1 hC.1 with ⟨h1, h2⟩ | ⟨h1, h2⟩
  · have hE := Ed.of_cross wa wb wd wc hC.flip (.inr (.inl h2))
    obtain ⟨i, j, he⟩ := HasEdge.symm hv (.inl hc) hcd
    exact no_cross hv ht ha hb hab he hE
  · have hE := Ed.of_cross wa wb wc wd hC (.inr (.inl h1))
    obtain ⟨i, j, he⟩ := hcd
    exact no_cross hv ht ha hb hab he hE

/-- If every constraint crosses at most one edge, the mesh has only old edges and constraints. -/
theorem Good.single_edges {fuel : Nat} {bins : Nat → Nat} {vs : List (Vtx K)} (h : Good fuel bins vs)
    (hf : fuelFor vs.length ≤ fuel) {es : List Edge} (hx : Spec.NonCrossing vs es) {s : DT} {v2t : List Nat} {r : AC}
    (hs : wrapAndTriangulate fuel (bins vs.length) (normalizeVerts vs) (some ((List.range vs.length).map toId)) = .ok s)
    (hv : buildV2t s.ts 0 (List.replicate (normalizeVerts vs).length 0) = .ok v2t)
    (hr : applyLoop (normalizeVerts vs) fuel (s.merge.getD []) es ⟨s.ts, v2t, []⟩ = .ok r)
    (hfar : ∀ a b x y : Nat, a < vs.length → b < vs.length → HasEdge s.ts x y → INF0 ≤ x ∨ INF0 ≤ y →
      ¬ HP.Cross (hp (normalizeVerts vs) a) (hp (normalizeVerts vs) b) (hp (normalizeVerts vs) x) (hp (normalizeVerts vs) y))
    (hone : ∀ e ∈ es, ∀ a b : Nat, (s.merge.getD [])[e.src]? = some a → (s.merge.getD [])[e.dst]? = some b → ∀ x y x' y' : Nat,
      HasEdge s.ts x y → HasEdge s.ts x' y' →
      HP.Cross (hp (normalizeVerts vs) a) (hp (normalizeVerts vs) b) (hp (normalizeVerts vs) x) (hp (normalizeVerts vs) y) →
      HP.Cross (hp (normalizeVerts vs) a) (hp (normalizeVerts vs) b) (hp (normalizeVerts vs) x') (hp (normalizeVerts vs) y') →
      (x' = x ∧ y' = y) ∨ (x' = y ∧ y' = x)) {x y : Nat} (hxy : HasEdge r.ts x y) :
    HasEdge s.ts x y ∨ ∃ e ∈ es, ((s.merge.getD [])[e.src]? = some x ∧ (s.merge.getD [])[e.dst]? = some y) ∨
      ((s.merge.getD [])[e.src]? = some y ∧ (s.merge.getD [])[e.dst]? = some x) := by
  classical
  have hl : (normalizeVerts vs).length = vs.length := by rw [normalizeVerts_eq]; simp
  have hni := h.ids_inf
  obtain ⟨v2t', hv', hI, hT, hmi, hml, hlen, hpos⟩ := h.start hs
  rw [hv] at hv'; simp at hv'; subst hv'
  obtain ⟨hI', hkeep⟩ := applyLoop_inv h.unit hni (fun v x hx => (hmi v x hx).1) hI hr
  have hT' := tiled_steps hI'.steps hI.m.valid hT
  have hlen' : r.ts.length = s.ts.length := (applyLoop_in (Q := fun _ => True) hr (fun _ _ _ => trivial)).2.1
  set M := s.merge.getD [] with hM
  set H := hp (normalizeVerts vs) with hH
  let IsC : Nat → Nat → Prop := fun a b => ∃ e ∈ es, (M[e.src]? = some a ∧ M[e.dst]? = some b) ∨ (M[e.src]? = some b ∧ M[e.dst]? = some a)
  have icLt : ∀ {a b}, IsC a b → a < vs.length ∧ b < vs.length := by
    rintro a b ⟨e, he, ⟨h1, h2⟩ | ⟨h1, h2⟩⟩
    · have := (hmi _ _ h1).2; have := (hmi _ _ h2).2; omega
    · have := (hmi _ _ h1).2; have := (hmi _ _ h2).2; omega
  let P : Nat × Nat → Nat × Nat → Prop := fun e p => IsC p.1 p.2 ∧ HP.Cross (H p.1) (H p.2) (H e.1) (H e.2) ∧
    0 < HP.o (H p.1) (H p.2) (H e.1)
  let X := (edgeSet s.ts).filter fun e => ∃ a b, IsC a b ∧ HP.Cross (H a) (H b) (H e.1) (H e.2)
  have hP : ∀ e ∈ X, ∃ p, P e p := by
    intro e he
    obtain ⟨-, a, b, hc, hcr⟩ := Finset.mem_filter.1 he
    have hne : HP.o (H a) (H b) (H e.1) ≠ 0 := by rintro e0; have := hcr.1; rw [e0] at this; simp at this
    rcases lt_or_gt_of_ne hne with h0 | h0
    · refine ⟨(b, a), ?_, hcr.flip', ?_⟩
      · obtain ⟨e', he', hh⟩ := hc; exact ⟨e', he', hh.symm⟩
      · rw [HP.o_swap]; linarith
    · exact ⟨(a, b), hc, hcr, h0⟩
  let f : Nat × Nat → Nat × Nat := fun e => if hp : ∃ p, P e p then hp.choose else (0, 0)
  have hfP : ∀ e ∈ X, P e (f e) := by
    intro e he
    simp only [f, dif_pos (hP e he)]
    exact (hP e he).choose_spec
  have fin : ∀ {a b x y : Nat}, IsC a b → HasEdge s.ts x y → HP.Cross (H a) (H b) (H x) (H y) → x < INF0 ∧ y < INF0 := by
    intro a b x y hc he hcr
    obtain ⟨l1, l2⟩ := icLt hc
    constructor
    · by_contra hn; exact hfar a b x y l1 l2 he (.inl (not_lt.1 hn)) hcr
    · by_contra hn; exact hfar a b x y l1 l2 he (.inr (not_lt.1 hn)) hcr
  have hinj : Set.InjOn f X := by
    intro e he e' he' hee
    have he := Finset.mem_coe.1 he
    have he' := Finset.mem_coe.1 he'
    obtain ⟨c1, c2, c3⟩ := hfP e he
    obtain ⟨d1, d2, d3⟩ := hfP e' he'
    rw [← hee] at d1 d2 d3
    have g1 := mem_edgeSet.1 (show (e.1, e.2) ∈ edgeSet s.ts from (Finset.mem_filter.1 he).1)
    have g2 := mem_edgeSet.1 (show (e'.1, e'.2) ∈ edgeSet s.ts from (Finset.mem_filter.1 he').1)
    have key : (e'.1 = e.1 ∧ e'.2 = e.2) ∨ (e'.1 = e.2 ∧ e'.2 = e.1) := by
      obtain ⟨e0, he0, ⟨h1, h2⟩ | ⟨h1, h2⟩⟩ := c1
      · exact hone e0 he0 _ _ h1 h2 _ _ _ _ g1 g2 c2 d2
      · exact hone e0 he0 _ _ h1 h2 _ _ _ _ g1 g2 c2.flip' d2.flip'
    rcases key with ⟨k1, k2⟩ | ⟨k1, k2⟩
    · exact Prod.ext k1.symm k2.symm
    · exfalso
      have := c2.1
      rw [k1] at d3
      have := mul_pos c3 d3
      linarith
  have himg : ∀ e ∈ X, f e ∈ edgeSet r.ts := by
    intro e he
    obtain ⟨c1, c2, c3⟩ := hfP e he
    have hne : (f e).1 ≠ (f e).2 := by
      intro e0; rw [e0, HP.o_same] at c3; exact lt_irrefl _ c3
    rw [show f e = ((f e).1, (f e).2) from rfl, mem_edgeSet]
    obtain ⟨l1, l2⟩ := icLt c1
    obtain ⟨e0, he0, ⟨h1, h2⟩ | ⟨h1, h2⟩⟩ := c1
    · exact h.merged_edge hf hx hs hv hr he0 h1 h2 hne
    · exact HasEdge.symm hI'.m.valid (.inl (by omega)) (h.merged_edge hf hx hs hv hr he0 h1 h2 hne.symm)
  have hnew : ∀ e ∈ X, f e ∉ edgeSet s.ts := by
    intro e he hm
    obtain ⟨c1, c2, c3⟩ := hfP e he
    rw [show f e = ((f e).1, (f e).2) from rfl, mem_edgeSet] at hm
    have g1 := mem_edgeSet.1 (show (e.1, e.2) ∈ edgeSet s.ts from (Finset.mem_filter.1 he).1)
    obtain ⟨l1, l2⟩ := icLt c1
    obtain ⟨l3, l4⟩ := fin c1 g1 c2
    exact edges_no_cross hI.m.valid hT (by omega) (by omega) l3 l4 hm g1 c2
  have hsub : (edgeSet s.ts \ X) ∪ X.image f ⊆ edgeSet r.ts := by
    intro e he
    rcases Finset.mem_union.1 he with he | he
    · obtain ⟨h1, h2⟩ := Finset.mem_sdiff.1 he
      rw [show e = (e.1, e.2) from rfl, mem_edgeSet] at h1 ⊢
      by_cases hinf : e.1 < INF0 ∨ e.2 < INF0
      · refine hkeep _ _ hinf h1 fun e0 he0 a b ha hb hcr => h2 ?_
        exact Finset.mem_filter.2 ⟨mem_edgeSet.2 h1, a, b, ⟨e0, he0, .inl ⟨ha, hb⟩⟩, hcr⟩
      · push Not at hinf
        exact steps_far hI'.steps hI.m.valid hlen' (not_lt.2 hinf.1) (not_lt.2 hinf.2) h1
    · obtain ⟨e0, he0, rfl⟩ := Finset.mem_image.1 he
      exact himg e0 he0
  have hcard : (edgeSet r.ts).card ≤ ((edgeSet s.ts \ X) ∪ X.image f).card := by
    rw [Finset.card_union_of_disjoint, Finset.card_image_of_injOn hinj, Finset.card_sdiff_add_card_eq_card (Finset.filter_subset _ _),
      card_edgeSet hI'.m.valid hT', card_edgeSet hI.m.valid hT, hlen']
    rw [Finset.disjoint_left]
    intro e he he'
    obtain ⟨e0, he0, rfl⟩ := Finset.mem_image.1 he'
    exact hnew e0 he0 (Finset.mem_sdiff.1 he).1
  have heq := Finset.eq_of_subset_of_card_le hsub hcard
  have hm := mem_edgeSet.2 hxy
  rw [← heq] at hm
  rcases Finset.mem_union.1 hm with hm | hm
  · exact .inl (mem_edgeSet.1 (Finset.mem_sdiff.1 hm).1)
  · obtain ⟨e0, he0, e1⟩ := Finset.mem_image.1 hm
    have := (hfP e0 he0).1
    rw [e1] at this
    exact .inr this

/-! ## The theorems -/

/-- **C59**, edges of the unconstrained triangulation: if this is Delaunay, then every edge of it that is still an edge
after inserting the constraints, whatever they are, is locally Delaunay. Missing: the edges created by the constraints, see
`C59_delaunay_refuted`. -/
theorem C59_kept_partial (fuel : Nat) (bins : Nat → Nat) (vs : List (Vtx K)) (h : Good fuel bins vs) (es : List Edge) (out out0 : List Out)
    (ho : constrained2d fuel bins vs es = .ok out) (hD : Spec.Delaunay vs out0) (t u : Out)
    (ht : t ∈ out) (hu : u ∈ out) (a b c d : Nat) (htc : Spec.CornersOf t a b c) (huc : Spec.CornersOf u b a d)
    (o : Out) (ho' : o ∈ out0) (hs : Spec.Side o a b ∨ Spec.Side o b a) (A B C D : Vtx K)
    (gA : vs[a]? = some A) (gB : vs[b]? = some B) (gC : vs[c]? = some C) (gD : vs[d]? = some D) : ¬ InCircle A B C D := by
  have cw : ∀ {t : Out} {a b c : Nat} {A B C : Vtx K}, t ∈ out → Spec.CornersOf t a b c → vs[a]? = some A → vs[b]? = some B →
      vs[c]? = some C → Clockwise A B C := by
    intro t a b c A B C ht hc gA gB gC
    rcases hc with rfl | rfl | rfl
    · obtain ⟨A', B', C', g1, g2, g3, hcw⟩ := C30_output_clockwise fuel bins vs h es out ho _ _ _ ht
      rw [gA] at g1; rw [gB] at g2; rw [gC] at g3; cases g1; cases g2; cases g3
      exact hcw
    · obtain ⟨A', B', C', g1, g2, g3, hcw⟩ := C30_output_clockwise fuel bins vs h es out ho _ _ _ ht
      rw [gB] at g1; rw [gC] at g2; rw [gA] at g3; cases g1; cases g2; cases g3
      unfold Clockwise area2 at hcw ⊢; linarith
    · obtain ⟨A', B', C', g1, g2, g3, hcw⟩ := C30_output_clockwise fuel bins vs h es out ho _ _ _ ht
      rw [gC] at g1; rw [gA] at g2; rw [gB] at g3; cases g1; cases g2; cases g3
      unfold Clockwise area2 at hcw ⊢; linarith
  exact local_of_side hD ho' hs gA gB (List.mem_of_getElem? gC) (List.mem_of_getElem? gD) (cw ht htc gA gB gC) (cw hu huc gB gA gD)

/-- Constraints that cross at most one edge each, in a mesh that is on one side of its border edges: the result is locally
Delaunay apart from the constraints when the unconstrained one is Delaunay. -/
theorem Good.single_local {fuel : Nat} {bins : Nat → Nat} {vs : List (Vtx K)} (h : Good fuel bins vs) (hfuel : fuelFor vs.length ≤ fuel)
    (h3 : 3 ≤ vs.length) {es : List Edge} (hx : Spec.NonCrossing vs es) {out out0 : List Out} (ho : constrained2d fuel bins vs es = .ok out)
    (h0 : triangulation2d fuel bins vs = .ok out0) (hD : Spec.Delaunay vs out0) (hone : Spec.SingleCross vs es out0) {s : DT}
    (hs : wrapAndTriangulate fuel (bins vs.length) (normalizeVerts vs) (some ((List.range vs.length).map toId)) = .ok s)
    {done ins : List Nat} (hI : DInv (normalizeVerts vs) done ins s)
    (hE : ∀ a b c q, TriIn s.ts b a c → a < INF0 → b < INF0 → ¬ c < INF0 → Occ s.ts q → q < INF0 →
      0 ≤ HP.o (hp (normalizeVerts vs) a) (hp (normalizeVerts vs) b) (hp (normalizeVerts vs) q))
    (hfar : ∀ a b x y : Nat, a < vs.length → b < vs.length → HasEdge s.ts x y → INF0 ≤ x ∨ INF0 ≤ y →
      ¬ HP.Cross (hp (normalizeVerts vs) a) (hp (normalizeVerts vs) b) (hp (normalizeVerts vs) x) (hp (normalizeVerts vs) y)) :
    Spec.LocallyDelaunay vs es out := by
  have hl : (normalizeVerts vs).length = vs.length := by rw [normalizeVerts_eq]; simp
  have hni := h.ids_inf
  have hscale := h.scale
  obtain ⟨r, ids, hr, hd⟩ := C23_constrained2d fuel bins vs es out h3 ho
  obtain ⟨v2t, hv, hA, hT, hmi, hml, hlen, hpos⟩ := h.start hs
  have hr' := hr
  rw [Good.cmesh_eq hs hv] at hr'
  -- the unconstrained result
  have e0 : out0 = filterSeq s.ts := by
    obtain ⟨s', hs', e, -⟩ := erase_ok (m' := none) hs
    unfold triangulation2d at h0
    rw [if_neg (by omega)] at h0
    simp only [hs', Res.ok_bind, e, Res.ok.injEq] at h0
    exact h0.symm
  -- an edge with real corners on one side is a side of the unconstrained result
  have side : ∀ {x y z : Nat}, TriIn s.ts x y z → x < INF0 → y < INF0 → z < INF0 → ∃ o ∈ out0, Spec.Side o x y := by
    rintro x y z ⟨i, T, _, _, _, hTi, hR⟩ f1 f2 f3
    refine ⟨T.verts, ?_, ?_⟩
    · rw [e0, filterSeq_eq_map, List.mem_map]
      refine ⟨T, List.mem_filter.2 ⟨List.mem_of_getElem? hTi, ?_⟩, rfl⟩
      rcases hR with rfl | rfl | rfl <;> simp [Tri.isFinite, isFin_iff, f1, f2, f3]
    · rcases hR with rfl | rfl | rfl <;> simp [Spec.Side, Tri.verts]
  have tri : ∀ {x y : Nat}, HasEdge s.ts x y → ∃ z, TriIn s.ts x y z := by
    rintro x y ⟨i, j, T, hTi, hh⟩
    obtain ⟨z, _, _, hR⟩ := hh.rot
    exact ⟨z, i, T, _, _, _, hTi, hR⟩
  have hle : ∀ {a : Nat}, a < vs.length → a < INF0 := fun {a} ha => by omega
  have posOf : ∀ {x : Nat}, Occ s.ts x → x < INF0 → ∃ X, vs[x]? = some X := by
    intro x hx hlt
    obtain ⟨i, T, hTi, hh⟩ := hx
    have hm := hI.ok.get hTi
    rw [hasVert_iff] at hh
    have : VOk (normalizeVerts vs).length x := by
      rcases hh with e | e | e
      · exact e ▸ hm 0
      · exact e ▸ hm 1
      · exact e ▸ hm 2
    exact ⟨_, List.getElem?_eq_getElem (hl ▸ this.fin hlt)⟩
  have merged : ∀ {v a : Nat}, (s.merge.getD [])[v]? = some a → ∃ A, vs[v]? = some A ∧ vs[a]? = some A := by
    intro v a ha
    have l1 : v < vs.length := by rw [← hml]; exact lt_of_getElem? ha
    obtain ⟨A, gA, -⟩ := getI_lt l1
    exact ⟨A, gA, (hpos _ _ ha).trans gA⟩
  -- a crossed edge is a side of the unconstrained result
  have crossed : ∀ {a b x y : Nat}, a < vs.length → b < vs.length → Occ s.ts a → Occ s.ts b → HasEdge s.ts x y →
      HP.Cross (hp (normalizeVerts vs) a) (hp (normalizeVerts vs) b) (hp (normalizeVerts vs) x) (hp (normalizeVerts vs) y) →
      x < INF0 ∧ y < INF0 ∧ ∃ o ∈ out0, Spec.Side o x y := by
    intro a b x y la lb oa ob he hcr
    have fx : x < INF0 := by by_contra hn; exact hfar a b x y la lb he (.inl (not_lt.1 hn)) hcr
    have fy : y < INF0 := by by_contra hn; exact hfar a b x y la lb he (.inr (not_lt.1 hn)) hcr
    refine ⟨fx, fy, ?_⟩
    obtain ⟨z, hz⟩ := tri he
    refine side hz fx fy ?_
    by_contra hn
    have q1 := hE y x z a hz fy fx hn oa (hle la)
    have q2 := hE y x z b hz fy fx hn ob (hle lb)
    have := hcr.2
    rw [HP.o_swap (hp (normalizeVerts vs) y) (hp (normalizeVerts vs) x) (hp (normalizeVerts vs) a),
      HP.o_swap (hp (normalizeVerts vs) y) (hp (normalizeVerts vs) x) (hp (normalizeVerts vs) b)] at this
    have := mul_nonneg q1 q2
    linarith
  intro t ht u hu a b c d htc huc A B C D gA gB gC gD hno
  -- the edge in the mesh
  have hab : HasEdge r.ts a b := by
    rw [hd.2.2, List.mem_map] at ht
    obtain ⟨i, hi, rfl⟩ := ht
    obtain ⟨T, hTi, -⟩ := ((hd.2.1 i).1 hi).2
    simp only [Spec.vertsAt, hTi, Spec.CornersOf, Prod.mk.injEq] at htc
    rcases htc with ⟨rfl, rfl, rfl⟩ | ⟨rfl, rfl, rfl⟩ | ⟨rfl, rfl, rfl⟩
    · exact ⟨i, _, T, hTi, has_0 T⟩
    · exact ⟨i, _, T, hTi, has_2 T⟩
    · exact ⟨i, _, T, hTi, has_1 T⟩
  have fa : a < INF0 := hle (lt_of_getElem? gA)
  have fb : b < INF0 := hle (lt_of_getElem? gB)
  have hedge : HasEdge s.ts a b ∨ ∃ e ∈ es, ((s.merge.getD [])[e.src]? = some a ∧ (s.merge.getD [])[e.dst]? = some b) ∨
      ((s.merge.getD [])[e.src]? = some b ∧ (s.merge.getD [])[e.dst]? = some a) := by
    refine h.single_edges hfuel hx hs hv hr' hfar ?_ hab
    intro e he a' b' ha' hb' x y x' y' hxy hxy' hcr hcr'
    have la := (hmi _ _ ha')
    have lb := (hmi _ _ hb')
    obtain ⟨A', v1, v2⟩ := merged ha'
    obtain ⟨B', v3, v4⟩ := merged hb'
    obtain ⟨f1, f2, o, ho', hside⟩ := crossed (lt_of_getElem? v2) (lt_of_getElem? v4) la.1 lb.1 hxy hcr
    obtain ⟨f3, f4, o', ho'', hside'⟩ := crossed (lt_of_getElem? v2) (lt_of_getElem? v4) la.1 lb.1 hxy' hcr'
    have occs : ∀ {x y : Nat}, HasEdge s.ts x y → Occ s.ts x ∧ Occ s.ts y := by
      rintro x y ⟨i, j, T, hTi, hh⟩
      obtain ⟨k, h1, h2, -⟩ := hh.k
      refine ⟨⟨i, T, hTi, ?_⟩, ⟨i, T, hTi, ?_⟩⟩
      · rw [hasVert_iff, ← h1]; fin_cases k <;> simp [Tri.v]
      · rw [hasVert_iff, ← h2]; fin_cases k <;> simp [Tri.v]
    obtain ⟨X, gX⟩ := posOf (occs hxy).1 f1
    obtain ⟨Y, gY⟩ := posOf (occs hxy).2 f2
    obtain ⟨X', gX'⟩ := posOf (occs hxy').1 f3
    obtain ⟨Y', gY'⟩ := posOf (occs hxy').2 f4
    exact hone e he A' B' v1 v3 o ho' o' ho'' x y x' y' X Y X' Y' hside hside' gX gY gX' gY'
      (cross_normalized hscale hni v2 v4 gX gY hcr) (cross_normalized hscale hni v2 v4 gX' gY' hcr')
  rcases hedge with hold | ⟨e, he, ⟨m1, m2⟩ | ⟨m1, m2⟩⟩
  · -- an old edge with a real triangle on one side
    obtain ⟨z, hz⟩ := tri hold
    obtain ⟨z', hz'⟩ := tri (HasEdge.symm hI.valid (.inl fa) hold)
    by_cases fz : z < INF0
    · obtain ⟨o, ho', hside⟩ := side hz fa fb fz
      exact C59_kept_partial fuel bins vs h es out out0 ho hD t u ht hu a b c d htc huc o ho' (.inl hside) A B C D gA gB gC gD
    by_cases fz' : z' < INF0
    · obtain ⟨o, ho', hside⟩ := side hz' fb fa fz'
      exact C59_kept_partial fuel bins vs h es out out0 ho hD t u ht hu a b c d htc huc o ho' (.inr hside) A B C D gA gB gC gD
    exfalso
    -- all vertices would be on the line
    obtain ⟨i, T, -, -, hfin⟩ : ∃ i T, r.ts[i]? = some T ∧ True ∧ TriIn r.ts a b c := by
      rw [hd.2.2, List.mem_map] at ht
      obtain ⟨i, hi, rfl⟩ := ht
      obtain ⟨T, hTi, -⟩ := ((hd.2.1 i).1 hi).2
      refine ⟨i, T, hTi, trivial, ?_⟩
      have := triIn_get hTi
      simp only [Spec.vertsAt, hTi, Spec.CornersOf, Prod.mk.injEq] at htc
      rcases htc with ⟨rfl, rfl, rfl⟩ | ⟨rfl, rfl, rfl⟩ | ⟨rfl, rfl, rfl⟩
      · exact this
      · exact this.next.next
      · exact this.next
    obtain ⟨hI', -⟩ := applyLoop_inv h.unit hni (fun v x hx => (hmi v x hx).1) hA hr'
    have hpos' := hfin.pos hI'.m.valid
    have oc : Occ s.ts c := by
      obtain ⟨k, T', _, _, _, hT', hR⟩ := hfin
      have hm := List.mem_of_getElem? hT'
      rcases hR with rfl | rfl | rfl
      · exact hI'.occ _ hm 2
      · exact hI'.occ _ hm 0
      · exact hI'.occ _ hm 1
    have q := hE b a z c hz fb fa fz oc (hle (lt_of_getElem? gC))
    rw [HP.o_swap] at q
    linarith
  · obtain ⟨A', v1, v2⟩ := merged m1
    obtain ⟨B', v3, v4⟩ := merged m2
    rw [gA] at v2; rw [gB] at v4; cases v2; cases v4
    exact absurd ⟨e, he, .inl ⟨v1, v3⟩⟩ hno
  · obtain ⟨A', v1, v2⟩ := merged m1
    obtain ⟨B', v3, v4⟩ := merged m2
    rw [gB] at v2; rw [gA] at v4; cases v2; cases v4
    exact absurd ⟨e, he, .inr ⟨v1, v3⟩⟩ hno

/-- **C59**, constraints that cross at most one edge each: framed points, one bin. The run succeeds and its result is
locally Delaunay apart from the constraints. Missing: constraints that cross more edges, see `C59_delaunay_refuted`. -/
theorem C59_single_partial (hcfg : RealCfg) (fuel : Nat) (bins : Nat → Nat) (vs : List (Vtx K)) (h : Good fuel bins vs)
    (hfuel : fuelFor vs.length ≤ fuel) (h1 : bins vs.length = 1) (x0 x1 y0 y1 : K) (hf : Spec.Framed vs x0 x1 y0 y1)
    (es : List Edge) (hc : Spec.ClearOfVertices vs es) (hx : Spec.NonCrossing vs es) (out0 : List Out)
    (h0 : triangulation2d fuel bins vs = .ok out0) (hone : Spec.SingleCross vs es out0) :
    ∃ out, constrained2d fuel bins vs es = .ok out ∧ Spec.LocallyDelaunay vs es out := by
  obtain ⟨⟨out, ho⟩, -⟩ := C56_framed hcfg fuel bins vs h hfuel h1 x0 x1 y0 y1 hf es hc hx
  obtain ⟨hD, -⟩ := C53_framed_result fuel bins vs h h1 x0 x1 y0 y1 hf out0 h0
  obtain ⟨s, hs, hE, ⟨done, ins, hI, -⟩, hfar⟩ := h.framed_far hcfg h1 hf (mergeInit_range _ (by have := h.ids; omega))
  have h3 : 3 ≤ vs.length := by
    obtain ⟨-, -, pts, corners, e, hp, -⟩ := hf
    rw [e, List.length_append, hp.length_eq]; simp
  exact ⟨out, ho, h.single_local hfuel h3 hx ho h0 hD hone hs hI hE.hull hfar⟩

end CDT

namespace CDT
open Plane

/-- **C59**, constraints that cross at most one edge each, in rounded arithmetic (`f32`, `f64`) on robust inputs and on grids. -/
theorem C59_single_rounded_partial {F : Type} [FloatOps F] [Rounded F] [IdCfg] (hcfg : RealCfg) (fuel : Nat) (bins : Nat → Nat)
    (vs : List (Vtx F)) (V : List (Vtx ℚ)) (W : ℚ) (h : Rounded.RGoodC fuel bins vs V W) (h1 : bins vs.length = 1) (x0 x1 y0 y1 : ℚ)
    (hf : Spec.Framed V x0 x1 y0 y1) (es : List Edge) (hc : Spec.ClearOfVertices V es) (hx : Spec.NonCrossing V es) (out0 : List Out)
    (h0 : triangulation2d fuel bins vs = .ok out0) (hone : Spec.SingleCross V es out0) :
    ∃ out, constrained2d fuel bins vs es = .ok out ∧ Spec.LocallyDelaunay V es out := by
  let P := Rounded.params F (bins vs.length) W (Rounded.scaleVal vs)
  rw [h.toRGood.run] at h0
  rw [h.run]
  exact C59_single_partial hcfg fuel bins V h.good (by rw [h.len]; exact h.fuelC) (by rw [h.len]; exact h1) x0 x1 y0 y1 hf es hc hx
    out0 h0 hone

section Test
variable {K : Type} [Field K] [LinearOrder K] [IsStrictOrderedRing K]

/-- The sides of a triangle. -/
def sidesOf (t : Out) : List (Nat × Nat) := [(t.1, t.2.1), (t.2.1, t.2.2), (t.2.2, t.1)]

/-- Test of `Spec.SingleCross`. -/
def singleCheck (vs : List (Vtx K)) (es : List Edge) (out : List Out) : Bool := es.all fun e => out.all fun t => out.all fun u =>
  (sidesOf t).all fun s => (sidesOf u).all fun s' =>
  match vs[e.src]?, vs[e.dst]?, vs[s.1]?, vs[s.2]?, vs[s'.1]?, vs[s'.2]? with
  | some A, some B, some X, some Y, some X', some Y' =>
    !decide (area2 A B X * area2 A B Y < 0 ∧ area2 X Y A * area2 X Y B < 0) ||
    !decide (area2 A B X' * area2 A B Y' < 0 ∧ area2 X' Y' A * area2 X' Y' B < 0) || s' == s || s' == (s.2, s.1)
  | _, _, _, _, _, _ => true

theorem single_of_check {vs : List (Vtx K)} {es : List Edge} {out : List Out} (h : singleCheck vs es out = true) :
    Spec.SingleCross vs es out := by
  intro e he A B gA gB t ht u hu x y x' y' X Y X' Y' hs hs' gX gY gX' gY' hc hc'
  have mem : ∀ {t : Out} {x y : Nat}, Spec.Side t x y → (x, y) ∈ sidesOf t := by
    rintro t x y (⟨rfl, rfl⟩ | ⟨rfl, rfl⟩ | ⟨rfl, rfl⟩) <;> simp [sidesOf]
  have := List.all_eq_true.1 (List.all_eq_true.1 (List.all_eq_true.1 (List.all_eq_true.1 (List.all_eq_true.1 h e he) t ht) u hu)
    (x, y) (mem hs)) (x', y') (mem hs')
  simp only [gA, gB, gX, gY, gX', gY', Bool.or_eq_true, Bool.not_eq_true', decide_eq_false_iff_not, beq_iff_eq, Prod.mk.injEq] at this
  rcases this with ((h | h) | h) | h
  · exact absurd hc h
  · exact absurd hc' h
  · exact .inl h
  · exact .inr h

end Test

section Example
open Rounded
local instance restoredCfg : IdCfg := u32Cfg

/-- Six points in a square. -/
def localGrid : List (Int × Int) := [(2,7),(7,3),(6,2),(6,5),(2,4),(5,2),(0,0),(8,0),(8,8),(0,8)]

theorem local_good : RGoodC (F := F64) 506 (fun _ => 1) (flPts binary64 localGrid) (intPts localGrid) (2 ^ 3) :=
  { toRGood := C44_grid localGrid 3 (by decide) (by decide) (by decide) ⟨by norm_num, by decide +kernel, by decide +kernel⟩
      (by decide +kernel) (by decide +kernel) (by decide +kernel) (by decide)
    ray := by unfold Plane.ClearRays Plane.area2 Plane.axes; decide +kernel
    fuelC := by decide }

theorem local_framed : Spec.Framed (intPts localGrid) 0 8 0 8 :=
  ⟨by norm_num, by norm_num, intPts [(2,7),(7,3),(6,2),(6,5),(2,4),(5,2)], intPts [(0,0),(8,0),(8,8),(0,8)], rfl,
    by decide +kernel, by decide +kernel⟩

/-- **C59** is false: one constraint between framed points, in `f64` without rounding errors. The restoration visits every
new diagonal once, and a later swap next to it can make it illegal again: the edge from vertex 0 to vertex 5 is no constraint,
yet vertex 1 is inside the circumcircle of the triangle on its other side. -/
theorem C59_delaunay_refuted : RGoodC (F := F64) 506 (fun _ => 1) (flPts binary64 localGrid) (intPts localGrid) (2 ^ 3) ∧
    Spec.Framed (intPts localGrid) 0 8 0 8 ∧ Spec.ClearOfVertices (intPts localGrid) [⟨0, 1⟩] ∧
    Spec.NonCrossing (intPts localGrid) [⟨0, 1⟩] ∧
    ∃ out, constrained2d 506 (fun _ => 1) (flPts binary64 localGrid) [⟨0, 1⟩] = .ok out ∧
      ¬ Spec.LocallyDelaunay (intPts localGrid) [⟨0, 1⟩] out := by
  refine ⟨local_good, local_framed, clear_of_check (by decide +kernel), nonCrossing_of_check (by decide +kernel),
    [(5,0,1),(5,1,2),(2,7,5),(5,7,6),(4,5,6),(4,6,9),(0,4,9),(0,9,8),(0,8,3),(1,0,3),(1,3,8),(1,8,7),(1,7,2),(5,4,0)],
    by decide +kernel, ?_⟩
  intro h
  refine h (5,4,0) (by decide) (5,0,1) (by decide) 0 5 4 1 (.inr (.inl rfl)) (.inl rfl) ⟨2, 7⟩ ⟨5, 2⟩ ⟨2, 4⟩ ⟨7, 3⟩
    (by decide +kernel) (by decide +kernel) (by decide +kernel) (by decide +kernel) ?_ ?_
  · rintro ⟨e, he, h1⟩
    simp only [List.mem_singleton] at he
    subst he
    revert h1
    decide +kernel
  · exact ⟨⟨31/6, 11/2⟩, by unfold Plane.Circumcenter Plane.dist2; norm_num, by unfold Plane.dist2; norm_num⟩

/-- Four constraints, each of them across one edge. -/
def localEdges : List Edge := [⟨4, 8⟩, ⟨3, 6⟩, ⟨1, 5⟩, ⟨0, 6⟩]

/-- The hypotheses of `C59_single_rounded_partial` hold, and some edges are replaced. -/
example : RGoodC (F := F64) 506 (fun _ => 1) (flPts binary64 localGrid) (intPts localGrid) (2 ^ 3) ∧
    Spec.Framed (intPts localGrid) 0 8 0 8 ∧ Spec.ClearOfVertices (intPts localGrid) localEdges ∧
    Spec.NonCrossing (intPts localGrid) localEdges ∧
    ∃ out0, triangulation2d 506 (fun _ => 1) (flPts binary64 localGrid) = .ok out0 ∧ Spec.SingleCross (intPts localGrid) localEdges out0 :=
  ⟨local_good, local_framed, clear_of_check (by decide +kernel), nonCrossing_of_check (by decide +kernel),
    [(2,5,3),(5,7,6),(3,5,4),(0,9,8),(4,6,9),(4,5,6),(1,7,2),(0,4,9),(2,7,5),(1,2,3),(1,8,7),(1,3,8),(0,3,4),(0,8,3)],
    by decide +kernel, single_of_check (by decide +kernel)⟩

/-- The hypotheses of `C59_kept_partial` hold: the edge from 4 to 6 of the unconstrained triangulation is still there. -/
example : ∃ out out0, constrained2d 506 (fun _ => 1) (flPts binary64 localGrid) [⟨0, 1⟩] = .ok out ∧
    triangulation2d 506 (fun _ => 1) (flPts binary64 localGrid) = .ok out0 ∧ (4,5,6) ∈ out ∧ (4,6,9) ∈ out ∧ (4,6,9) ∈ out0 :=
  ⟨[(5,0,1),(5,1,2),(2,7,5),(5,7,6),(4,5,6),(4,6,9),(0,4,9),(0,9,8),(0,8,3),(1,0,3),(1,3,8),(1,8,7),(1,7,2),(5,4,0)],
    [(2,5,3),(5,7,6),(3,5,4),(0,9,8),(4,6,9),(4,5,6),(1,7,2),(0,4,9),(2,7,5),(1,2,3),(1,8,7),(1,3,8),(0,3,4),(0,8,3)],
    by decide +kernel, by decide +kernel, by decide, by decide, by decide⟩

end Example

end CDT

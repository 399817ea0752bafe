import Verif.Model.Viewer
import Verif.Proofs.Tell

/-!
# What the visual debugger draws
-/

set_option linter.unusedSectionVars false
set_option linter.unusedVariables false
set_option linter.unusedSimpArgs false

namespace CDT
open FloatOps

section
variable {F : Type} [FloatOps F] [IdCfg]

namespace Spec

/-- The sides of a triangle, clockwise. -/
def rim (t : Tri) : List (Nat × Nat) := [(t.v1, t.v2), (t.v2, t.v3), (t.v3, t.v1)]

/-- The line that stands for the side from the vertex `x` to the vertex `y`: the segment between two input vertices, or a segment
from an input vertex in the direction of an artificial one. Nothing stands for a side between two artificial vertices. -/
inductive Shown (c : Canvas F) (vs : List (Vtx3 F)) : Nat × Nat → Vtx3 F × Vtx3 F → Prop
  | seg {x y p q} : vs[x]? = some p → vs[y]? = some q → Shown c vs (x, y) (p, q)
  | out {x p} (k : Fin 4) : vs[x]? = some p → Shown c vs (x, INF0 + k) (p, tipOf c p k)
  | into {y q} (k : Fin 4) : vs[y]? = some q → Shown c vs (INF0 + k, y) (tipOf c q k, q)

/-- Where the label of the corner `k` belongs: at the vertex; for an artificial vertex, at the tip drawn for it, or halfway between
the two tips drawn for it. -/
inductive Spot (c : Canvas F) (vs : List (Vtx3 F)) (t : Tri) (k : Fin 3) : Vtx3 F → Prop
  | vertex {p} : vs[t.v k]? = some p → Spot c vs t k p
  | tip {i p} (j : Fin 4) : t.v k = INF0 + j → i ≠ k → vs[t.v i]? = some p → (∀ i', i' ≠ i → vs.length ≤ t.v i') →
      Spot c vs t k (tipOf c p j)
  | mid {p q} (j : Fin 4) : t.v k = INF0 + j → vs[t.v (k + 1)]? = some p → vs[t.v (k + 2)]? = some q →
      Spot c vs t k (((tipOf c p j).add' (tipOf c q j)).sdiv' two)

/-- The text that belongs to the corner `k`. -/
def Text (m : VertexLabelMode) (n : Nat) (t : Tri) (k : Fin 3) (x : LabelText) : Prop :=
  match m with
  | .localIndex => x = .corner k
  | .globalIndex => (t.v k < n ∧ x = .vertex (t.v k)) ∨ ∃ j : Fin 4, t.v k = INF0 + j ∧ x = .inf j

/-- A triangle that can be drawn. -/
structure Drawable (n : Nat) (t : Tri) : Prop where
  vert : ∀ k, t.v k < n ∨ t.v k = INF0 ∨ t.v k = INF1 ∨ t.v k = INF2 ∨ t.v k = INF3
  real : ∃ k, t.v k < n

end Spec

/-- What is known about a vertex of a drawable triangle. -/
inductive Corner (vs : List (Vtx3 F)) (v : Nat) : Prop
  | fin (p : Vtx3 F) : v < vs.length → vs[v]? = some p → getI vs v = .ok p → isInf v = false → (∀ j : Fin 4, v ≠ INF0 + j) → Corner vs v
  | inf (j : Fin 4) : v = INF0 + j → vs[v]? = none → infLocal v = .ok j → isInf v = true → Corner vs v

theorem infLocal_add (j : Fin 4) : infLocal (INF0 + j) = .ok j := by
  unfold infLocal
  rw [if_neg (by omega), Nat.add_sub_cancel_left]
  match j with
  | 0 => rfl
  | 1 => rfl
  | 2 => rfl
  | 3 => rfl

theorem corner_of {vs : List (Vtx3 F)} {v : Nat} (hn : vs.length ≤ INF0)
    (h : v < vs.length ∨ v = INF0 ∨ v = INF1 ∨ v = INF2 ∨ v = INF3) : Corner vs v := by
  have hb : 7 ≤ IdCfg.maxId := IdCfg.big
  by_cases hv : v < vs.length
  · refine .fin vs[v] hv (List.getElem?_eq_getElem hv) ?_ ?_ ?_
    · unfold getI; rw [List.getElem?_eq_getElem hv]
    · unfold isInf; simp; omega
    · intro j; omega
  · have : ∃ j : Fin 4, v = INF0 + j := by
      rcases h with h | h | h | h | h
      · exact absurd h hv
      · exact ⟨0, by simpa using h⟩
      · exact ⟨1, by rw [h]; unfold INF0 INF1; simp; omega⟩
      · exact ⟨2, by rw [h]; unfold INF0 INF2; simp; omega⟩
      · exact ⟨3, by rw [h]; unfold INF0 INF3; simp; omega⟩
    obtain ⟨j, rfl⟩ := this
    exact .inf j rfl (List.getElem?_eq_none (by omega)) (infLocal_add j) (by unfold isInf; simp)

theorem inf_add_inj {i j : Fin 4} : INF0 + (i : Nat) = INF0 + (j : Nat) ↔ i = j := by
  rw [Nat.add_left_cancel_iff, Fin.val_inj]

theorem shown_fin {c : Canvas F} {vs : List (Vtx3 F)} {x y : Nat} {p q : Vtx3 F} (hx : vs[x]? = some p) (hy : vs[y]? = some q)
    (hn : vs.length ≤ INF0) {l : Vtx3 F × Vtx3 F} : Spec.Shown c vs (x, y) l ↔ l = (p, q) := by
  constructor
  · intro h
    cases h with
    | seg h1 h2 => rw [hx] at h1; rw [hy] at h2; cases h1; cases h2; rfl
    | out k h1 =>
      have := (List.getElem?_eq_some_iff.1 hy).1
      omega
    | into k h1 =>
      have := (List.getElem?_eq_some_iff.1 hx).1
      omega
  · rintro rfl
    exact .seg hx hy

theorem shown_out {c : Canvas F} {vs : List (Vtx3 F)} {x : Nat} {k : Fin 4} {p : Vtx3 F} (hx : vs[x]? = some p)
    (hn : vs.length ≤ INF0) {l : Vtx3 F × Vtx3 F} : Spec.Shown c vs (x, INF0 + k) l ↔ l = (p, tipOf c p k) := by
  have := (List.getElem?_eq_some_iff.1 hx).1
  constructor
  · generalize hy : INF0 + (k : Nat) = y
    intro h
    cases h with
    | seg h1 h2 =>
      have := (List.getElem?_eq_some_iff.1 h2).1
      omega
    | out k' h1 =>
      rw [inf_add_inj] at hy
      rw [hx] at h1; cases h1; cases hy; rfl
    | into k' h1 => omega
  · rintro rfl
    exact .out k hx

theorem shown_into {c : Canvas F} {vs : List (Vtx3 F)} {y : Nat} {k : Fin 4} {q : Vtx3 F} (hy : vs[y]? = some q)
    (hn : vs.length ≤ INF0) {l : Vtx3 F × Vtx3 F} : Spec.Shown c vs (INF0 + k, y) l ↔ l = (tipOf c q k, q) := by
  have := (List.getElem?_eq_some_iff.1 hy).1
  constructor
  · generalize hx : INF0 + (k : Nat) = x
    intro h
    cases h with
    | seg h1 h2 =>
      have := (List.getElem?_eq_some_iff.1 h1).1
      omega
    | out k' h1 => omega
    | into k' h1 =>
      rw [inf_add_inj] at hx
      rw [hy] at h1; cases h1; cases hx; rfl
  · rintro rfl
    exact .into k hy

theorem shown_inf {c : Canvas F} {vs : List (Vtx3 F)} {k j : Fin 4}
    (hn : vs.length ≤ INF0) {l : Vtx3 F × Vtx3 F} : ¬ Spec.Shown c vs (INF0 + k, INF0 + j) l := by
  generalize hx : INF0 + (k : Nat) = x
  generalize hy : INF0 + (j : Nat) = y
  intro h
  cases h with
  | seg h1 h2 =>
    have := (List.getElem?_eq_some_iff.1 h1).1
    omega
  | out k' h1 =>
    have := (List.getElem?_eq_some_iff.1 h1).1
    omega
  | into k' h1 =>
    have := (List.getElem?_eq_some_iff.1 h1).1
    omega

/-- The lines of a triangle: they exist, they are the lines that stand for its sides, and the strip of gizmos has the same lines. -/
theorem triLines_spec (c : Canvas F) {vs : List (Vtx3 F)} {t : Tri} (hn : vs.length ≤ INF0) (h : Spec.Drawable vs.length t) :
    ∃ l st, triLines c vs t = .ok l ∧ triStrip c vs t = .ok st ∧ l = st.zip st.tail ∧ l ≠ [] ∧
      ∀ p q, ((p, q) ∈ l ∨ (q, p) ∈ l) ↔ ∃ s ∈ Spec.rim t, Spec.Shown c vs s (p, q) ∨ Spec.Shown c vs s (q, p) := by
  obtain ⟨k, hk⟩ := h.real
  obtain ⟨v1, v2, v3, n1, n2, n3⟩ := t
  have c1 := corner_of hn (h.vert 0)
  have c2 := corner_of hn (h.vert 1)
  have c3 := corner_of hn (h.vert 2)
  simp only [Tri.v] at c1 c2 c3
  have hr : ¬ (INF0 ≤ v1 ∧ INF0 ≤ v2 ∧ INF0 ≤ v3) := by
    match k, hk with
    | 0, hk => simp [Tri.v] at hk; omega
    | 1, hk => simp [Tri.v] at hk; omega
    | 2, hk => simp [Tri.v] at hk; omega
  clear h hk
  rcases c1 with ⟨p1, l1, e1, g1, i1, -⟩ | ⟨j1, rfl, e1, g1, i1⟩ <;>
  rcases c2 with ⟨p2, l2, e2, g2, i2, -⟩ | ⟨j2, rfl, e2, g2, i2⟩ <;>
  rcases c3 with ⟨p3, l3, e3, g3, i3, -⟩ | ⟨j3, rfl, e3, g3, i3⟩
  · simp [triLines, triStrip, collectInfTri, Spec.rim, i1, i2, i3, g1, g2, g3, shown_fin e1 e2 hn, shown_fin e2 e3 hn, shown_fin e3 e1 hn]
    grind
  · simp [triLines, triStrip, collectInfTri, Spec.rim, i1, i2, i3, g1, g2, g3, tipsOf2, nextCwVert, nextCcwVert, Tri.v,
      shown_fin e1 e2 hn, shown_out e2 hn, shown_into e1 hn]
    grind
  · simp [triLines, triStrip, collectInfTri, Spec.rim, i1, i2, i3, g1, g2, g3, tipsOf2, nextCwVert, nextCcwVert, Tri.v,
      shown_out e1 hn, shown_into e3 hn, shown_fin e3 e1 hn]
    grind
  · simp [triLines, triStrip, collectInfTri, Spec.rim, i1, i2, i3, g1, g2, g3, tipsOf1, oppVertFromEdge, nextCwVert, nextCcwVert, Tri.v,
      shown_out e1 hn, shown_into e1 hn, shown_inf hn]
    grind
  · simp [triLines, triStrip, collectInfTri, Spec.rim, i1, i2, i3, g1, g2, g3, tipsOf2, nextCwVert, nextCcwVert, Tri.v,
      shown_into e2 hn, shown_fin e2 e3 hn, shown_out e3 hn]
    grind
  · simp [triLines, triStrip, collectInfTri, Spec.rim, i1, i2, i3, g1, g2, g3, tipsOf1, oppVertFromEdge, nextCwVert, nextCcwVert, Tri.v,
      shown_out e2 hn, shown_into e2 hn, shown_inf hn]
    grind
  · simp [triLines, triStrip, collectInfTri, Spec.rim, i1, i2, i3, g1, g2, g3, tipsOf1, oppVertFromEdge, nextCwVert, nextCcwVert, Tri.v,
      shown_out e3 hn, shown_into e3 hn, shown_inf hn]
    grind
  · exact absurd ⟨by omega, by omega, by omega⟩ hr

/-! ## Labels -/

theorem labelSpots_spec (c : Canvas F) {vs : List (Vtx3 F)} {t : Tri} (hn : vs.length ≤ INF0) (h : Spec.Drawable vs.length t) :
    ∃ a b d, labelSpots c vs t = .ok (some (a, b, d)) ∧ Spec.Spot c vs t 0 a ∧ Spec.Spot c vs t 1 b ∧ Spec.Spot c vs t 2 d := by
  obtain ⟨k, hk⟩ := h.real
  obtain ⟨v1, v2, v3, n1, n2, n3⟩ := t
  have c1 := corner_of hn (h.vert 0)
  have c2 := corner_of hn (h.vert 1)
  have c3 := corner_of hn (h.vert 2)
  simp only [Tri.v] at c1 c2 c3
  have hr : ¬ (INF0 ≤ v1 ∧ INF0 ≤ v2 ∧ INF0 ≤ v3) := by
    match k, hk with
    | 0, hk => simp [Tri.v] at hk; omega
    | 1, hk => simp [Tri.v] at hk; omega
    | 2, hk => simp [Tri.v] at hk; omega
  clear h hk
  rcases c1 with ⟨p1, l1, e1, g1, i1, -⟩ | ⟨j1, rfl, e1, g1, i1⟩ <;>
  rcases c2 with ⟨p2, l2, e2, g2, i2, -⟩ | ⟨j2, rfl, e2, g2, i2⟩ <;>
  rcases c3 with ⟨p3, l3, e3, g3, i3, -⟩ | ⟨j3, rfl, e3, g3, i3⟩
  · refine ⟨p1, p2, p3, ?_, .vertex e1, .vertex e2, .vertex e3⟩
    simp [labelSpots, collectInfTri, i1, i2, i3, g1, g2, g3]
  · refine ⟨p1, p2, _, ?_, .vertex e1, .vertex e2, .mid (k := 2) j3 rfl e1 e2⟩
    simp [labelSpots, collectInfTri, i1, i2, i3, g1, g2, g3, tipsOf2, nextCwVert, nextCcwVert, Tri.v]
  · refine ⟨p1, _, p3, ?_, .vertex e1, .mid (k := 1) j2 rfl e3 e1, .vertex e3⟩
    simp [labelSpots, collectInfTri, i1, i2, i3, g1, g2, g3, tipsOf2, nextCwVert, nextCcwVert, Tri.v]
  · refine ⟨p1, _, _, ?_, .vertex e1, .tip (i := 0) (k := 1) j2 rfl (by decide) e1 ?_, .tip (i := 0) (k := 2) j3 rfl (by decide) e1 ?_⟩
    · simp [labelSpots, collectInfTri, i1, i2, i3, g1, g2, g3, tipsOf1, oppVertFromEdge, nextCwVert, nextCcwVert, Tri.v]
    all_goals
      intro i hi
      match i, hi with
      | 1, _ => simp [Tri.v]; omega
      | 2, _ => simp [Tri.v]; omega
  · refine ⟨_, p2, p3, ?_, .mid (k := 0) j1 rfl e2 e3, .vertex e2, .vertex e3⟩
    simp [labelSpots, collectInfTri, i1, i2, i3, g1, g2, g3, tipsOf2, nextCwVert, nextCcwVert, Tri.v]
  · refine ⟨_, p2, _, ?_, .tip (i := 1) (k := 0) j1 rfl (by decide) e2 ?_, .vertex e2, .tip (i := 1) (k := 2) j3 rfl (by decide) e2 ?_⟩
    · simp [labelSpots, collectInfTri, i1, i2, i3, g1, g2, g3, tipsOf1, oppVertFromEdge, nextCwVert, nextCcwVert, Tri.v]
    all_goals
      intro i hi
      match i, hi with
      | 0, _ => simp [Tri.v]; omega
      | 2, _ => simp [Tri.v]; omega
  · refine ⟨_, _, p3, ?_, .tip (i := 2) (k := 0) j1 rfl (by decide) e3 ?_, .tip (i := 2) (k := 1) j2 rfl (by decide) e3 ?_, .vertex e3⟩
    · simp [labelSpots, collectInfTri, i1, i2, i3, g1, g2, g3, tipsOf1, oppVertFromEdge, nextCwVert, nextCcwVert, Tri.v]
    all_goals
      intro i hi
      match i, hi with
      | 0, _ => simp [Tri.v]; omega
      | 1, _ => simp [Tri.v]; omega
      | 2, hi => exact absurd rfl hi
  · exact absurd ⟨by omega, by omega, by omega⟩ hr

theorem vertexText_spec (m : VertexLabelMode) {vs : List (Vtx3 F)} {t : Tri} (hn : vs.length ≤ INF0) (h : Spec.Drawable vs.length t)
    (k : Fin 3) : ∃ x, vertexText m vs.length (t.v k) k = .ok x ∧ Spec.Text m vs.length t k x := by
  cases m with
  | localIndex => exact ⟨_, rfl, rfl⟩
  | globalIndex =>
    rcases corner_of hn (h.vert k) with ⟨p, l, e, g, i, -⟩ | ⟨j, e, e', g, i⟩
    · exact ⟨_, by simp only [vertexText, if_pos l], .inl ⟨l, rfl⟩⟩
    · refine ⟨.inf j, ?_, .inr ⟨j, e, rfl⟩⟩
      simp only [vertexText]
      rw [if_neg (by omega), g]
      rfl

theorem spawnLabel_spec (c : Canvas F) (m : VertexLabelMode) {vs : List (Vtx3 F)} {t : Tri} (tid : Nat) (hn : vs.length ≤ INF0)
    (h : Spec.Drawable vs.length t) :
    ∃ P : Fin 3 → Vtx3 F, ∃ T : Fin 3 → LabelText, (∀ k, Spec.Spot c vs t k (P k)) ∧ (∀ k, Spec.Text m vs.length t k (T k)) ∧
      let center := (((P 0).add' (P 1)).add' (P 2)).sdiv' c.three
      spawnLabel c m vs tid t = .ok ((.tri tid, center) ::
        [0, 1, 2].map fun k => (T k, (P k).add' (Vtx3.smul' c.inset (center.sub' (P k))))) := by
  obtain ⟨a, b, d, e, ha, hb, hd⟩ := labelSpots_spec c hn h
  obtain ⟨x0, e0, h0⟩ := vertexText_spec m hn h 0
  obtain ⟨x1, e1, h1⟩ := vertexText_spec m hn h 1
  obtain ⟨x2, e2, h2⟩ := vertexText_spec m hn h 2
  refine ⟨![a, b, d], ![x0, x1, x2], ?_, ?_, ?_⟩
  · intro k
    match k with
    | 0 => exact ha
    | 1 => exact hb
    | 2 => exact hd
  · intro k
    match k with
    | 0 => exact h0
    | 1 => exact h1
    | 2 => exact h2
  · simp only [Tri.v] at e0 e1 e2
    simp [spawnLabel, e, e0, e1, e2]

/-! ## Meshes -/

theorem forEach_ok {α β : Type} {f : α → Res β} {l : List α} (h : ∀ a ∈ l, ∃ b, f a = .ok b) :
    ∃ bs, forEach f l = .ok bs ∧ List.Forall₂ (fun a b => f a = .ok b) l bs := by
  induction l with
  | nil => exact ⟨[], rfl, .nil⟩
  | cons a l ih =>
    obtain ⟨b, hb⟩ := h a (by simp)
    obtain ⟨bs, e, hbs⟩ := ih fun a ha => h a (by simp [ha])
    exact ⟨b :: bs, by simp [forEach, hb, e], .cons hb hbs⟩

/-- The batches of lists of lines, `size` lists each. -/
def Spec.batches {α : Type} (size : Nat) (ls : List (List α)) : List (Nat × List α) :=
  (List.range ((ls.length + size - 1) / size)).map fun j => (j, ((ls.drop (j * size)).take size).flatten)

theorem take_drop_append {α : Type} {pre : List α} {a b : Nat} (h : a + b ≤ pre.length) (l : List α) :
    ((pre ++ l).drop a).take b = (pre.drop a).take b := by
  rw [List.drop_append_of_le_length (by omega), List.take_append_of_le_length (by simp; omega)]

theorem meshLoop_spec (c : Canvas F) (vs : List (Vtx3 F)) {size : Nat} (hs : 0 < size) :
    ∀ (ts : List Tri) (ls : List (List (Vtx3 F × Vtx3 F))), List.Forall₂ (fun t l => triLines c vs t = .ok l ∧ l ≠ []) ts ls →
    ∀ (pre : List (List (Vtx3 F × Vtx3 F))), (∀ l ∈ pre, l ≠ []) →
    meshLoop c vs size ts pre.length (pre.length / size) (pre.drop (pre.length / size * size)).flatten
      ((List.range (pre.length / size)).map fun j => (j, ((pre.drop (j * size)).take size).flatten)) =
    .ok (Spec.batches size (pre ++ ls)) := by
  intro ts ls h
  induction h with
  | nil =>
    intro pre hp
    rw [meshLoop, List.append_nil]
    have hm := Nat.div_add_mod pre.length size
    have hlt := Nat.mod_lt pre.length hs
    generalize hq : pre.length / size = q at *
    generalize hr : pre.length % size = r at *
    rw [Nat.mul_comm] at hm
    unfold Spec.batches
    rcases Nat.eq_zero_or_pos r with h0 | h0
    · have e : pre.drop (q * size) = [] := List.drop_eq_nil_of_le (by omega)
      have e2 : (pre.length + size - 1) / size = q := by
        rw [← hm, h0, Nat.add_zero, show q * size + size - 1 = (size - 1) + q * size by omega, Nat.add_mul_div_right _ _ hs,
          Nat.div_eq_of_lt (by omega), Nat.zero_add]
      rw [e, e2]
      simp
    · have e2 : (pre.length + size - 1) / size = q + 1 := by
        rw [← hm, show q * size + r + size - 1 = (r - 1) + (q + 1) * size by rw [Nat.add_mul]; omega, Nat.add_mul_div_right _ _ hs,
          Nat.div_eq_of_lt (by omega), Nat.zero_add]
      have hne : (pre.drop (q * size)).flatten ≠ [] := by
        have hd : pre.drop (q * size) ≠ [] := by
          intro hd
          have := List.drop_eq_nil_iff.1 hd
          omega
        obtain ⟨x, l, hx⟩ := List.exists_cons_of_ne_nil hd
        have : x ≠ [] := hp x (List.mem_of_mem_drop (by rw [hx]; simp))
        rw [hx]
        simp [this]
      rw [if_neg (by simpa using hne), e2, List.range_succ, List.map_append, List.map_singleton,
        List.take_of_length_le (l := pre.drop (q * size)) (by simp; omega)]
  | @cons t l ts ls ht h ih =>
    intro pre hp
    rw [meshLoop, ht.1]
    have hm := Nat.div_add_mod pre.length size
    have hlt := Nat.mod_lt pre.length hs
    have hsz : ¬ size = 0 := by omega
    simp only [Res.ok_bind, remI, hsz, if_false]
    have ih' := ih (pre ++ [l]) (by
      intro x hx
      rcases List.mem_append.1 hx with hx | hx
      · exact hp x hx
      · simp only [List.mem_singleton] at hx
        exact hx ▸ ht.2)
    rw [List.append_assoc, List.singleton_append] at ih'
    rw [← ih']
    simp only [List.length_append, List.length_singleton]
    generalize hq : pre.length / size = q at *
    generalize hr : pre.length % size = r at *
    rw [Nat.mul_comm] at hm
    have keep : ∀ j < q, (((pre ++ [l]).drop (j * size)).take size) = ((pre.drop (j * size)).take size) := by
      intro j hj
      refine take_drop_append ?_ _
      have : (j + 1) * size ≤ q * size := Nat.mul_le_mul_right _ hj
      rw [Nat.add_mul] at this
      omega
    have keep' : ((List.range q).map fun j => (j, (((pre ++ [l]).drop (j * size)).take size).flatten)) =
        (List.range q).map fun j => (j, ((pre.drop (j * size)).take size).flatten) := by
      refine List.map_congr_left fun j hj => ?_
      rw [keep j (List.mem_range.1 hj)]
    have cut : (pre ++ [l]).drop (q * size) = pre.drop (q * size) ++ [l] := List.drop_append_of_le_length (by omega)
    by_cases hb : r = size - 1
    · have e2 : (pre.length + 1) / size = q + 1 := by
        rw [← hm, hb, show q * size + (size - 1) + 1 = (q + 1) * size by rw [Nat.add_mul]; omega, Nat.mul_div_cancel _ hs]
      have e3 : (pre ++ [l]).drop ((q + 1) * size) = [] := List.drop_eq_nil_of_le (by simp [Nat.add_mul]; omega)
      rw [if_pos hb, e2, e3, List.range_succ, List.map_append, keep', List.map_singleton, cut,
        List.take_of_length_le (l := pre.drop (q * size) ++ [l]) (by simp; omega)]
      simp
    · have e2 : (pre.length + 1) / size = q := by
        rw [← hm, show q * size + r + 1 = (r + 1) + q * size by omega, Nat.add_mul_div_right _ _ hs, Nat.div_eq_of_lt (by omega), Nat.zero_add]
      rw [if_neg hb, e2, keep', cut]
      simp

theorem meshBatches_spec (c : Canvas F) {vs : List (Vtx3 F)} {size : Nat} (hs : 0 < size) (hn : vs.length ≤ INF0) {ts : List Tri}
    (h : ∀ t ∈ ts, Spec.Drawable vs.length t) :
    ∃ ls, List.Forall₂ (fun t l => triLines c vs t = .ok l) ts ls ∧ meshBatches c vs size ts = .ok (Spec.batches size ls) := by
  obtain ⟨ls, -, hl⟩ := forEach_ok (f := triLines c vs) (l := ts) fun t ht => by
    obtain ⟨l, -, e, -⟩ := triLines_spec c hn (h t ht)
    exact ⟨l, e⟩
  refine ⟨ls, hl, ?_⟩
  have h2 : List.Forall₂ (fun t l => triLines c vs t = .ok l ∧ l ≠ []) ts ls := by
    refine List.Forall₂.imp (R := fun t l => triLines c vs t = .ok l ∧ t ∈ ts) ?_ ?_
    · rintro t l ⟨e, ht⟩
      obtain ⟨l', -, e', -, -, hne, -⟩ := triLines_spec c hn (h t ht)
      rw [e] at e'
      cases e'
      exact ⟨e, hne⟩
    · clear h
      have gen : ∀ (us : List Tri), (∀ t ∈ ts, t ∈ us) → List.Forall₂ (fun t l => triLines c vs t = .ok l ∧ t ∈ us) ts ls := by
        intro us hu
        induction hl with
        | nil => exact .nil
        | cons hx hl ih => exact .cons ⟨hx, hu _ (by simp)⟩ (ih fun t ht => hu t (by simp [ht]))
      exact gen ts fun _ h => h
  have := meshLoop_spec c vs hs ts ls h2 [] (by simp)
  simpa [meshBatches] using this

/-- The segment between two input vertices. -/
def Spec.seg (vs : List (Vtx3 F)) (s : Nat × Nat) : Option (Vtx3 F × Vtx3 F) :=
  match vs[s.1]?, vs[s.2]? with
  | some p, some q => some (p, q)
  | _, _ => none

/-- The side is a constraint, in one direction or the other. -/
def Spec.Fixed (cs : List Edge) (s : Nat × Nat) : Bool := cs.any fun e => decide ((e.src = s.1 ∧ e.dst = s.2) ∨ (e.src = s.2 ∧ e.dst = s.1))

theorem fixed_iff (cs : List Edge) (e : Edge) : (cs.contains e || cs.contains e.opposite) = Spec.Fixed cs (e.src, e.dst) := by
  rw [Bool.eq_iff_iff]
  simp only [Bool.or_eq_true, List.contains_iff_mem, Spec.Fixed, List.any_eq_true, decide_eq_true_eq]
  constructor
  · rintro (h | h)
    · exact ⟨e, h, .inl ⟨rfl, rfl⟩⟩
    · exact ⟨_, h, .inr ⟨rfl, rfl⟩⟩
  · rintro ⟨⟨a, b⟩, h, ⟨rfl, rfl⟩ | ⟨rfl, rfl⟩⟩
    · exact .inl h
    · exact .inr h

theorem contourEdges_spec {vs : List (Vtx3 F)} (cs : List Edge) :
    ∀ (es : List Edge), (∀ e ∈ es, e.src < vs.length ∧ e.dst < vs.length) → ∀ a b,
    contourEdges vs cs es (a, b) = .ok
      (a ++ ((es.map fun e => (e.src, e.dst)).filter (Spec.Fixed cs)).filterMap (Spec.seg vs),
       b ++ ((es.map fun e => (e.src, e.dst)).filter fun s => !Spec.Fixed cs s).filterMap (Spec.seg vs)) := by
  intro es
  induction es with
  | nil => intro _ a b; simp [contourEdges]
  | cons e es ih =>
    intro h a b
    obtain ⟨h1, h2⟩ := h e (by simp)
    have ih := ih fun e he => h e (by simp [he])
    have g1 : getI vs e.src = .ok vs[e.src] := by unfold getI; rw [List.getElem?_eq_getElem h1]
    have g2 : getI vs e.dst = .ok vs[e.dst] := by unfold getI; rw [List.getElem?_eq_getElem h2]
    have g3 : Spec.seg vs (e.src, e.dst) = some (vs[e.src], vs[e.dst]) := by
      simp [Spec.seg, List.getElem?_eq_getElem h1, List.getElem?_eq_getElem h2]
    rw [contourEdges, g1, g2, fixed_iff]
    simp only [Res.ok_bind]
    cases hf : Spec.Fixed cs (e.src, e.dst) with
    | true =>
      rw [if_pos rfl, ih]
      simp [hf, g3]
    | false =>
      rw [if_neg (by simp), ih]
      simp [hf, g3]

/-- The sides of the triangles without artificial vertices. -/
def Spec.finSides (n : Nat) (ts : List Tri) : List (Nat × Nat) :=
  (ts.filter fun t => decide (t.v1 < n ∧ t.v2 < n ∧ t.v3 < n)).flatMap Spec.rim

theorem contourLoop_spec {vs : List (Vtx3 F)} (cs : List Edge) (hn : vs.length ≤ INF0) :
    ∀ (ts : List Tri), (∀ t ∈ ts, Spec.Drawable vs.length t) → ∀ a b,
    contourLoop vs cs ts (a, b) = .ok
      (a ++ ((Spec.finSides vs.length ts).filter (Spec.Fixed cs)).filterMap (Spec.seg vs),
       b ++ ((Spec.finSides vs.length ts).filter fun s => !Spec.Fixed cs s).filterMap (Spec.seg vs)) := by
  intro ts
  induction ts with
  | nil => intro _ a b; simp [contourLoop, Spec.finSides]
  | cons t ts ih =>
    intro h a b
    have ih := ih fun e he => h e (by simp [he])
    have ht := h t (by simp)
    have hp : t.isPseudoInfinite = !decide (t.v1 < vs.length ∧ t.v2 < vs.length ∧ t.v3 < vs.length) := by
      have c1 := corner_of hn (ht.vert 0)
      have c2 := corner_of hn (ht.vert 1)
      have c3 := corner_of hn (ht.vert 2)
      simp only [Tri.v] at c1 c2 c3
      have key : ∀ v, Corner vs v → isInf v = !decide (v < vs.length) := by
        rintro v (⟨p, l, e, g, i, -⟩ | ⟨j, e, e', g, i⟩)
        · rw [i]; simp [l]
        · rw [i]; simp; omega
      unfold Tri.isPseudoInfinite
      rw [key _ c1, key _ c2, key _ c3]
      rw [Bool.eq_iff_iff]
      simp
      omega
    rw [contourLoop, hp]
    by_cases hf : t.v1 < vs.length ∧ t.v2 < vs.length ∧ t.v3 < vs.length
    · rw [if_neg (by simp [hf])]
      have hr : Spec.finSides vs.length (t :: ts) = Spec.rim t ++ Spec.finSides vs.length ts := by
        simp [Spec.finSides, hf]
      have he : (t.edges3.map fun e => (e.src, e.dst)) = Spec.rim t := by rfl
      rw [contourEdges_spec cs t.edges3 (by
        intro e he
        simp only [Tri.edges3, List.mem_cons, List.not_mem_nil, or_false] at he
        rcases he with rfl | rfl | rfl
        · exact ⟨hf.1, hf.2.1⟩
        · exact ⟨hf.2.1, hf.2.2⟩
        · exact ⟨hf.2.2, hf.1⟩), he, hr]
      simp only [Res.ok_bind]
      rw [ih]
      simp
    · rw [if_pos (by rw [decide_eq_false hf]; rfl), ih]
      have hr : Spec.finSides vs.length (t :: ts) = Spec.finSides vs.length ts := by
        simp only [Spec.finSides]
        rw [List.filter_cons_of_neg (by rw [decide_eq_false hf]; simp)]
      rw [hr]

/-! ## Bounds -/

/-- The places of the input vertices of the changed triangles. -/
def Spec.changedPts (vs : List (Vtx3 F)) (s : Snap) : List (Vtx3 F) :=
  s.changed.flatMap fun i => (s.ts[i]?.toList.flatMap fun t => [t.v1, t.v2, t.v3].filterMap fun v => vs[v]?)

theorem boundVerts_eq (vs : List (Vtx3 F)) : ∀ (l : List Nat) (b : F × F × F × F),
    boundVerts vs l b = .ok ((l.filterMap fun v => vs[v]?).foldl boundStep b) := by
  intro l
  induction l with
  | nil => intro b; rfl
  | cons v l ih =>
    intro b
    rw [boundVerts]
    by_cases hv : v < vs.length
    · rw [if_pos hv]
      have g1 : getI vs v = .ok vs[v] := by unfold getI; rw [List.getElem?_eq_getElem hv]
      rw [g1, List.filterMap_cons_some (List.getElem?_eq_getElem hv)]
      exact ih _
    · rw [if_neg hv, List.filterMap_cons_none (List.getElem?_eq_none (by omega))]
      exact ih _

theorem changeBounds_eq (vs : List (Vtx3 F)) {s : Snap} (h : ∀ i ∈ s.changed, i < s.ts.length) :
    changeBounds vs s = .ok ((Spec.changedPts vs s).foldl boundStep (fmax, fmin, fmax, fmin)) := by
  unfold changeBounds Spec.changedPts
  generalize ((fmax, fmin, fmax, fmin) : F × F × F × F) = b
  revert b
  generalize s.changed = l at h
  induction l with
  | nil => intro b; rfl
  | cons i l ih =>
    intro b
    have hi := h i (by simp)
    have g1 : getI s.ts i = .ok s.ts[i] := by unfold getI; rw [List.getElem?_eq_getElem hi]
    rw [boundLoop, g1]
    simp only [Res.ok_bind, boundVerts_eq]
    rw [ih (fun i hi => h i (by simp [hi]))]
    rw [List.flatMap_cons, List.foldl_append, List.getElem?_eq_getElem hi]
    simp

end

end CDT

import Mathlib.Tactic.Linarith
import Mathlib.Tactic.FieldSimp
import Mathlib.Tactic.Ring
import Mathlib.Tactic.FinCases
import Verif.Model.Helpers
import Verif.Model.Rounded
import Verif.Spec.Plane
import Verif.Spec.Symbolic
import Verif.Witness.Upstream

/-!
# C46: index tables and small helpers; C48: the circumcircle test on flat triangles

The tables of `types.rs` are characterized by the incidence of edges and vertices in an arbitrary triangle.
-/

set_option linter.unusedSectionVars false

namespace CDT

theorem fin3_cases {P : Fin 3 → Prop} (i : Fin 3) (h0 : P 0) (h1 : P 1) (h2 : P 2) : P i := by
  fin_cases i <;> assumption

/-- Three different vertices. -/
def Tri.Proper (t : Tri) : Prop := t.v1 ≠ t.v2 ∧ t.v2 ≠ t.v3 ∧ t.v3 ≠ t.v1

/-- **C46**: the three edges go around the triangle. -/
theorem C46_edges (t : Tri) : t.edges3.map (fun e => (e.src, e.dst)) = (Spec.edges t).map (fun e => (e.1, e.2.1)) ∧
    ∀ i, t.edge i ∈ t.edges3 := by
  refine ⟨rfl, fun i => ?_⟩
  fin_cases i <;> simp [Tri.edges3]

/-- **C46**: edge tables. The next edge starts where an edge ends, the previous one ends where it starts, and the vertex
opposite to an edge is the one not on it. -/
theorem C46_edge_tables (t : Tri) (h : t.Proper) (i j : Fin 3) :
    ((t.edge j).src = (t.edge i).dst ↔ j = nextCwEdge i) ∧ ((t.edge j).dst = (t.edge i).src ↔ j = nextCcwEdge i) ∧
    ((t.edge i).contains (t.v j) = false ↔ j = oppVertIdx i) ∧ ((t.edge j).contains (t.v i) = false ↔ j = oppEdgeIdx i) := by
  obtain ⟨h1, h2, h3⟩ := h
  fin_cases i <;> fin_cases j <;>
    simp [Tri.edge, Tri.v, edgeToVert0, edgeToVert1, nextCwEdge, nextCcwEdge, oppVertIdx, oppEdgeIdx, Edge.contains, h1, h2, h3,
      h1.symm, h2.symm, h3.symm]

/-- **C46**: vertex tables. The next vertex is the end of the edge that starts at a vertex; the two edges at a vertex are the
one that starts there and the one that ends there. -/
theorem C46_vertex_tables (t : Tri) (h : t.Proper) (i j : Fin 3) :
    ((∃ k, t.edge k = ⟨t.v i, t.v j⟩) ↔ j = nextCwVert i) ∧ ((∃ k, t.edge k = ⟨t.v j, t.v i⟩) ↔ j = nextCcwVert i) ∧
    ((t.edge j).src = t.v i ↔ j = vertNextCwEdge i) ∧ ((t.edge j).dst = t.v i ↔ j = vertNextCcwEdge i) ∧
    ((t.edge j).dst = t.v i ↔ j = outerCwEdge i) ∧ ((t.edge j).src = t.v i ↔ j = outerCcwEdge i) := by
  obtain ⟨h1, h2, h3⟩ := h
  have ex : ∀ P : Fin 3 → Prop, (∃ k, P k) ↔ P 0 ∨ P 1 ∨ P 2 := fun P => by
    constructor
    · rintro ⟨k, hk⟩; fin_cases k
      · exact .inl hk
      · exact .inr (.inl hk)
      · exact .inr (.inr hk)
    · rintro (h | h | h) <;> exact ⟨_, h⟩
  simp only [ex]
  fin_cases i <;> fin_cases j <;>
    simp [Tri.edge, Tri.v, edgeToVert0, edgeToVert1, nextCwVert, nextCcwVert, vertNextCwEdge, vertNextCcwEdge, outerCwEdge,
      outerCcwEdge, h1, h2, h3, h1.symm, h2.symm, h3.symm]

/-- **C46**: searching a vertex in a triangle. -/
theorem C46_vertex_index (t : Tri) (h : t.Proper) (x : Nat) (i : Fin 3) :
    (t.getVertexIndex x = some i ↔ t.v i = x) ∧ (t.getVertexIndex x = none ↔ t.hasVert x = false) ∧
    (t.v i = x → t.vertexIndex x = i ∧ ∀ j, (t.edge j).contains x = false ↔ j = t.oppEdgeFromVertex x) := by
  have hp := h
  obtain ⟨h1, h2, h3⟩ := h
  refine ⟨?_, ?_, ?_⟩
  · unfold Tri.getVertexIndex
    fin_cases i <;> simp only [Tri.v]
    · by_cases e1 : t.v1 = x
      · simp [e1]
      · by_cases e2 : t.v2 = x <;> by_cases e3 : t.v3 = x <;> simp [e1, e2, e3]
    · by_cases e1 : t.v1 = x
      · subst e1; simp [h1.symm]
      · by_cases e2 : t.v2 = x
        · simp [e1, e2]
        · by_cases e3 : t.v3 = x <;> simp [e1, e2, e3]
    · by_cases e1 : t.v1 = x
      · subst e1; simp [h3]
      · by_cases e2 : t.v2 = x
        · subst e2; simp [h1, h2.symm]
        · by_cases e3 : t.v3 = x <;> simp [e1, e2, e3]
  · unfold Tri.getVertexIndex Tri.hasVert
    by_cases e1 : t.v1 = x <;> by_cases e2 : t.v2 = x <;> by_cases e3 : t.v3 = x <;> simp [e1, e2, e3]
  · rintro rfl
    have hv : t.vertexIndex (t.v i) = i := by
      fin_cases i <;> simp [Tri.vertexIndex, Tri.v, h1, h2, h3.symm]
    refine ⟨hv, fun j => ?_⟩
    unfold Tri.oppEdgeFromVertex
    rw [hv]
    exact (C46_edge_tables t hp i j).2.2.2

/-- **C46**: the vertex opposite to an edge, whichever way the edge is directed, and the other two edges. -/
theorem C46_opposite (t : Tri) (h : t.Proper) (i : Fin 3) :
    t.oppVertexId (t.edge i) = t.v (oppVertIdx i) ∧ t.oppVertexId (t.edge i).opposite = t.v (oppVertIdx i) ∧
    (∀ e, e ∈ t.otherEdges i ↔ ∃ j, j ≠ i ∧ e = t.edge j) := by
  obtain ⟨h1, h2, h3⟩ := h
  refine ⟨?_, ?_, fun e => ?_⟩
  · fin_cases i <;> simp [Tri.oppVertexId, Tri.edge, Tri.v, edgeToVert0, edgeToVert1, oppVertIdx, Edge.contains, h1.symm,
      h3]
    intro hx; exact absurd (of_decide_eq_true (hx (decide_eq_false h2.symm))) h1
  · fin_cases i <;> simp [Tri.oppVertexId, Tri.edge, Tri.v, edgeToVert0, edgeToVert1, oppVertIdx, Edge.contains, Edge.opposite,
      h1.symm, h3]
    intro hx; exact absurd (of_decide_eq_true (hx (decide_eq_false h1))) h2.symm
  · unfold Tri.otherEdges
    simp only [List.mem_cons, List.not_mem_nil, or_false]
    constructor
    · rintro (rfl | rfl)
      · exact ⟨_, by revert i; decide, rfl⟩
      · exact ⟨_, by revert i; decide, rfl⟩
    · rintro ⟨j, hj, rfl⟩
      have : j = nextCwEdge i ∨ j = nextCcwEdge i := by revert i j; decide
      rcases this with rfl | rfl
      · exact .inl rfl
      · exact .inr rfl

/-- **C46**: the third of three local vertex indices. -/
theorem C46_third (a b c : Fin 3) (h : a ≠ b) : oppVertFromEdge a b = .ok c ↔ c ≠ a ∧ c ≠ b := by
  revert a b c; decide

/-- **C46**: quad tables. The diagonal of `q1 q2` and of `q3 q4`; the vertices adjacent to `i` are the ends of the other
diagonal. -/
theorem C46_quad_tables (i : Fin 4) : oppQuadIdx (oppQuadIdx i) = i ∧ oppQuadIdx i ≠ i ∧
    (∀ j, j = i ∨ j = oppQuadIdx i ∨ j = (adjQuadIdx i).1 ∨ j = (adjQuadIdx i).2) ∧
    (adjQuadIdx i).2 = oppQuadIdx (adjQuadIdx i).1 ∧ ((i = 0 ∨ i = 1) ↔ (oppQuadIdx i = 0 ∨ oppQuadIdx i = 1)) := by
  revert i; decide

/-- **C46**: undirected equality is equality up to direction, and an equivalence. -/
theorem C46_undirected (e f g : Edge) : (e.undirEq f = true ↔ e = f ∨ e = f.opposite) ∧ e.undirEq e = true ∧
    e.undirEq f = f.undirEq e ∧ (e.undirEq f = true → f.undirEq g = true → e.undirEq g = true) ∧ e.opposite.opposite = e ∧
    (∀ x, e.opposite.contains x = e.contains x) := by
  have key : ∀ e f : Edge, e.undirEq f = true ↔ e = f ∨ e = f.opposite := by
    rintro ⟨a, b⟩ ⟨c, d⟩
    simp [Edge.undirEq, Edge.opposite]
  refine ⟨key e f, (key e e).2 (.inl rfl), ?_, ?_, rfl, fun x => ?_⟩
  · rw [Bool.eq_iff_iff, key, key]
    constructor
    · rintro (rfl | rfl)
      · exact .inl rfl
      · exact .inr rfl
    · rintro (rfl | rfl)
      · exact .inl rfl
      · exact .inr rfl
  · rw [key, key, key]
    rintro (rfl | rfl) (rfl | rfl)
    · exact .inl rfl
    · exact .inr rfl
    · exact .inr rfl
    · exact .inl rfl
  · unfold Edge.contains Edge.opposite; exact Bool.or_comm _ _

/-- **C46**: positions. The corners and ends are looked up in order, the result is a panic if and only if an index is out of range, and
the edges of a triangle join its corners in order. -/
theorem C46_positions {F : Type} (t : Tri) (e : Edge) (vs : List (Vtx F)) :
    (∀ A B C, t.toVertices vs = .ok (A, B, C) ↔ vs[t.v1]? = some A ∧ vs[t.v2]? = some B ∧ vs[t.v3]? = some C) ∧
    (t.toVertices vs = .panic ↔ ∃ i, vs.length ≤ t.v i) ∧
    (∀ A B, e.toVertices vs = .ok (A, B) ↔ vs[e.src]? = some A ∧ vs[e.dst]? = some B) ∧
    (e.toVertices vs = .panic ↔ vs.length ≤ e.src ∨ vs.length ≤ e.dst) ∧
    (∀ A B C, t.toVertices vs = .ok (A, B, C) →
      t.edges3.map (·.toVertices vs) = [.ok (A, B), .ok (B, C), .ok (C, A)]) ∧
    (∀ a b, Edge.ofPair (a, b) = ⟨a, b⟩ ∧ (Edge.ofPair (b, a)) = (Edge.ofPair (a, b)).opposite) := by
  have g : ∀ i, (∃ A, vs[i]? = some A ∧ i < vs.length ∧ getI vs i = .ok A) ∨ (vs[i]? = none ∧ vs.length ≤ i ∧ getI vs i = .panic) := by
    intro i
    unfold getI
    by_cases h : i < vs.length
    · exact .inl ⟨vs[i], by simp [h], h, by simp [h]⟩
    · exact .inr ⟨by simpa using h, not_lt.1 h, by simp [not_lt.1 h]⟩
  have ex : (∃ i, vs.length ≤ t.v i) ↔ vs.length ≤ t.v1 ∨ vs.length ≤ t.v2 ∨ vs.length ≤ t.v3 := by
    constructor
    · rintro ⟨i, h⟩
      fin_cases i
      · exact .inl h
      · exact .inr (.inl h)
      · exact .inr (.inr h)
    · rintro (h | h | h)
      · exact ⟨0, h⟩
      · exact ⟨1, h⟩
      · exact ⟨2, h⟩
  rw [ex]
  refine ⟨?_, ?_, ?_, ?_, ?_, fun a b => ⟨rfl, rfl⟩⟩
  · intro A B C
    unfold Tri.toVertices
    rcases g t.v1 with ⟨X, h1, _, e1⟩ | ⟨h1, _, e1⟩ <;> rcases g t.v2 with ⟨Y, h2, _, e2⟩ | ⟨h2, _, e2⟩ <;>
      rcases g t.v3 with ⟨Z, h3, _, e3⟩ | ⟨h3, _, e3⟩ <;> simp [h1, h2, h3, e1, e2, e3]
  · unfold Tri.toVertices
    rcases g t.v1 with ⟨X, _, h1, e1⟩ | ⟨_, h1, e1⟩ <;> rcases g t.v2 with ⟨Y, _, h2, e2⟩ | ⟨_, h2, e2⟩ <;>
      rcases g t.v3 with ⟨Z, _, h3, e3⟩ | ⟨_, h3, e3⟩ <;> simp [h1, h2, h3, e1, e2, e3]
  · intro A B
    unfold Edge.toVertices
    rcases g e.src with ⟨X, h1, _, e1⟩ | ⟨h1, _, e1⟩ <;> rcases g e.dst with ⟨Y, h2, _, e2⟩ | ⟨h2, _, e2⟩ <;> simp [h1, h2, e1, e2]
  · unfold Edge.toVertices
    rcases g e.src with ⟨X, _, h1, e1⟩ | ⟨_, h1, e1⟩ <;> rcases g e.dst with ⟨Y, _, h2, e2⟩ | ⟨_, h2, e2⟩ <;> simp [h1, h2, e1, e2]
  · intro A B C
    unfold Tri.toVertices Tri.edges3 Edge.toVertices
    rcases g t.v1 with ⟨X, _, _, e1⟩ | ⟨_, _, e1⟩ <;> rcases g t.v2 with ⟨Y, _, _, e2⟩ | ⟨_, _, e2⟩ <;>
      rcases g t.v3 with ⟨Z, _, _, e3⟩ | ⟨_, _, e3⟩ <;>
      simp [Tri.edge, Tri.v, edgeToVert0, edgeToVert1, e1, e2, e3]
    grind

/-- **C46**: a triangle is finite or has an artificial vertex, never both; `exists` recognizes the missing neighbor. -/
theorem C46_finite [IdCfg] (t : Tri) (n : Nat) : t.isFinite = !t.isPseudoInfinite ∧ (nbExists n = false ↔ n = NONE) := by
  refine ⟨?_, by simp [nbExists]⟩
  have : ∀ v, isFin v = !isInf v := fun v => by
    unfold isFin isInf
    by_cases h : INF0 ≤ v
    · simp [h, not_lt.2 h]
    · simp [h, not_le.1 h]
  simp only [Tri.isFinite, Tri.isPseudoInfinite, this]
  cases isInf t.v1 <;> cases isInf t.v2 <;> cases isInf t.v3 <;> rfl

/-- **C46**: the side tests in correctly rounded arithmetic: a value is on exactly one side or collinear; strict sides and the
neighborhood of the edge are disjoint and cover everything except the two values `±EPSILON`. -/
theorem C46_sides {F : Type} [FloatOps F] [Rounded F] {s : F} {a : ℚ} (h : Rounded.val s = some a) :
    (onLeft s = true ↔ 0 < a) ∧ (onRight s = true ↔ a < 0) ∧ (isColinear s = true ↔ a = 0) ∧
    (strictlyLeft s = true → onLeft s = true) ∧ (strictlyRight s = true → onRight s = true) ∧
    (isColinear s = true → nearEdge s = true) ∧
    ¬ (nearEdge s = true ∧ (strictlyLeft s = true ∨ strictlyRight s = true)) ∧
    (nearEdge s = true ∨ strictlyLeft s = true ∨ strictlyRight s = true ∨ |a| = 2 * Rounded.u F) := by
  have hu := Rounded.u_pos (F := F)
  have e := Rounded.val_eps (F := F)
  have z := Rounded.val_zero (F := F)
  have l : onLeft s = true ↔ 0 < a := by unfold onLeft; rw [Rounded.lt_iff z h]; simp
  have r : onRight s = true ↔ a < 0 := by unfold onRight; rw [Rounded.lt_iff h z]; simp
  have c : isColinear s = true ↔ a = 0 := by unfold isColinear; rw [Rounded.eq_iff h z]; simp
  have sl : strictlyLeft s = true ↔ 2 * Rounded.u F < a := by unfold strictlyLeft; rw [Rounded.lt_iff e h]; simp
  have sr : strictlyRight s = true ↔ a < -(2 * Rounded.u F) := by
    unfold strictlyRight; rw [Rounded.lt_iff h (Rounded.val_neg e)]; simp
  have ne : nearEdge s = true ↔ |a| < 2 * Rounded.u F := by
    unfold nearEdge; rw [Rounded.lt_iff (Rounded.val_abs h) e]; simp
  refine ⟨l, r, c, ?_, ?_, ?_, ?_, ?_⟩
  · rw [l, sl]; intro; linarith
  · rw [r, sr]; intro; linarith
  · rw [c, ne]; rintro rfl; simpa using hu
  · rw [ne, sl, sr, abs_lt]; rintro ⟨⟨h1, h2⟩, h3 | h3⟩ <;> linarith
  · rw [ne, sl, sr]
    rcases lt_trichotomy |a| (2 * Rounded.u F) with h1 | h1 | h1
    · exact .inl h1
    · exact .inr (.inr (.inr h1))
    · rcases lt_abs.1 h1 with h2 | h2
      · exact .inr (.inl h2)
      · exact .inr (.inr (.inl (by linarith)))

/-- **C46**: the two tests that take a point. The first includes the line, the second is the strict test including its bound. -/
theorem C46_right {F : Type} [FloatOps F] [Rounded F] {e : EV F} {p : Vtx F} {a : ℚ} (h : Rounded.val (edgeSide e p) = some a) :
    (rightSideOfEdge e p = true ↔ onRight (edgeSide e p) = true ∨ isColinear (edgeSide e p) = true) ∧
    (rightSideOfEdge e p = true ↔ a ≤ 0) ∧ (strictlyRightOfEdge e p = true ↔ a ≤ -(2 * Rounded.u F)) ∧
    (strictlyRightOfEdge e p = true ↔ strictlyRight (edgeSide e p) = true ∨ a = -(2 * Rounded.u F)) := by
  have z := Rounded.val_zero (F := F)
  have he := Rounded.val_eps (F := F)
  obtain ⟨-, r, c, -⟩ := C46_sides h
  have q : rightSideOfEdge e p = true ↔ a ≤ 0 := by unfold rightSideOfEdge; rw [Rounded.le_iff h z]; simp
  have t : strictlyRightOfEdge e p = true ↔ a ≤ -(2 * Rounded.u F) := by
    unfold strictlyRightOfEdge; rw [Rounded.le_iff h (Rounded.val_neg he)]; simp
  refine ⟨by rw [q, r, c, le_iff_lt_or_eq], q, t, ?_⟩
  have sr : strictlyRight (edgeSide e p) = true ↔ a < -(2 * Rounded.u F) := by
    unfold strictlyRight; rw [Rounded.lt_iff h (Rounded.val_neg he)]; simp
  rw [t, sr, le_iff_lt_or_eq]

section
open Plane
variable {K : Type} [Field K] [LinearOrder K] [IsStrictOrderedRing K] [ExactParams K]

/-- **C46**: the side tests and the orientation in exact arithmetic: right is clockwise. -/
theorem C46_orientation (a b p : Vtx K) :
    (onRight (edgeSide (a, b) p) = true ↔ Clockwise a b p) ∧ (onLeft (edgeSide (a, b) p) = true ↔ Clockwise b a p) ∧
    (isColinear (edgeSide (a, b) p) = true ↔ area2 a b p = 0) ∧ (rightSideOfEdge (a, b) p = true ↔ ¬ Clockwise b a p) ∧
    (tripletOrientation a b p = .clockwise ↔ Clockwise a b p) ∧ (tripletOrientation a b p = .colinear ↔ area2 a b p = 0) ∧
    (tripletOrientation a b p = .counterClockwise ↔ Clockwise b a p) := by
  have e1 : edgeSide (a, b) p = area2 a b p := by unfold edgeSide area2; simp only [exact_sub, exact_mul]; ring
  have e2 : (b.y - a.y) * (p.x - b.x) - (b.x - a.x) * (p.y - b.y) = -area2 a b p := by unfold area2; ring
  have e3 : area2 b a p = -area2 a b p := by unfold area2; ring
  unfold rightSideOfEdge onRight onLeft isColinear tripletOrientation Clockwise
  rw [e1, e3]
  simp only [exact_sub, exact_mul, exact_lt, exact_le, exact_eq, exact_zero, e2, decide_eq_true_eq]
  rcases lt_trichotomy (area2 a b p) 0 with h | h | h
  · simp [h, h.ne, h.le, not_lt.2 h.le]
  · simp [h]
  · simp [h, h.ne', not_lt.2 h.le]

/-- **C46**: the slope describes the line through two points with different abscissas (exact arithmetic). -/
theorem C46_slope (a b p : Vtx K) (h : a.x ≠ b.x) : area2 a b p = 0 ↔ p.y = a.y + lineSlope a b * (p.x - a.x) := by
  have hne : b.x - a.x ≠ 0 := sub_ne_zero.2 (Ne.symm h)
  unfold lineSlope area2
  simp only [exact_div, exact_sub]
  constructor
  · intro h0
    field_simp
    linear_combination h0
  · intro h0
    rw [h0]
    field_simp
    ring

/-! ## C48 -/

/-- `c` lies strictly between `a` and `b`. -/
def StrictlyBetween (a b c : Vtx K) : Prop := ∃ s : K, 0 < s ∧ s < 1 ∧ c.x = a.x + s * (b.x - a.x) ∧ c.y = a.y + s * (b.y - a.y)

/-- **C48**: for a flat triangle the circumcircle test of a vertex strictly on its side of `ab` answers "inside" exactly when
the third vertex is strictly between the first two. -/
theorem C48_flat (a b c p : Vtx K) (hflat : area2 a b c = 0) (hp : Clockwise p a b) :
    inCircumcircle a b c p = true ↔ StrictlyBetween a b c := by
  unfold Clockwise at hp
  have hab : 0 < (b.x - a.x) ^ 2 + (b.y - a.y) ^ 2 := by
    rcases eq_or_ne (b.x - a.x) 0 with hx | hx
    · rcases eq_or_ne (b.y - a.y) 0 with hy | hy
      · exfalso
        have h1 : b.x = a.x := by linarith
        have h2 : b.y = a.y := by linarith
        unfold area2 at hp
        rw [h1, h2] at hp
        ring_nf at hp
        exact lt_irrefl _ hp
      · positivity
    · positivity
  -- position of `c` on the line
  obtain ⟨s, hcx, hcy⟩ : ∃ s : K, c.x = a.x + s * (b.x - a.x) ∧ c.y = a.y + s * (b.y - a.y) := by
    refine ⟨((c.x - a.x) * (b.x - a.x) + (c.y - a.y) * (b.y - a.y)) / ((b.x - a.x) ^ 2 + (b.y - a.y) ^ 2), ?_, ?_⟩
    · unfold area2 at hflat
      field_simp
      linear_combination (b.y - a.y) * (-hflat)
    · unfold area2 at hflat
      field_simp
      linear_combination (b.x - a.x) * hflat
  have hcos : (a.x - c.x) * (b.x - c.x) + (a.y - c.y) * (b.y - c.y) = -(s * (1 - s)) * ((b.x - a.x) ^ 2 + (b.y - a.y) ^ 2) := by
    rw [hcx, hcy]; ring
  have hsin : (a.x - c.x) * (b.y - c.y) - (b.x - c.x) * (a.y - c.y) = 0 := by
    rw [hcx, hcy]; ring
  have hsB : 0 < (b.x - p.x) * (a.y - p.y) - (a.x - p.x) * (b.y - p.y) := by
    unfold area2 at hp; linarith
  have hmain : inCircumcircle a b c p = true ↔ (a.x - c.x) * (b.x - c.x) + (a.y - c.y) * (b.y - c.y) < 0 := by
    unfold inCircumcircle
    simp only [exact_sub, exact_mul, exact_add, exact_le, exact_lt, exact_zero, hsin, zero_mul, zero_add]
    generalize (a.x - c.x) * (b.x - c.x) + (a.y - c.y) * (b.y - c.y) = A
    generalize (b.x - p.x) * (a.x - p.x) + (b.y - p.y) * (a.y - p.y) = B
    generalize (b.x - p.x) * (a.y - p.y) - (a.x - p.x) * (b.y - p.y) = S at hsB
    rcases lt_or_ge A 0 with hA | hA
    · have : S * A < 0 := mul_neg_of_pos_of_neg hsB hA
      rcases lt_or_ge B 0 with hB | hB <;> simp [hA, hB, not_le.2, this, not_lt.2]
    · have : 0 ≤ S * A := mul_nonneg hsB.le hA
      rcases lt_or_ge B 0 with hB | hB <;> simp [hA, hB, not_le.2, this, not_lt.2]
  rw [hmain, hcos]
  constructor
  · intro h
    have h1 : 0 < s * (1 - s) := by
      by_contra hc
      have := mul_nonneg (neg_nonneg.2 (not_lt.1 hc)) hab.le
      linarith
    have hs0 : 0 < s := by
      by_contra hc
      have hc := not_lt.1 hc
      nlinarith [mul_nonneg (neg_nonneg.2 hc) (by linarith : (0:K) ≤ 1 - s)]
    have hs1 : s < 1 := by
      have := pos_of_mul_pos_right h1 hs0.le
      linarith
    exact ⟨s, hs0, hs1, hcx, hcy⟩
  · rintro ⟨r, hr0, hr1, hx, hy⟩
    have hrs : r = s := by
      have e1 : (r - s) * (b.x - a.x) = 0 := by linear_combination hcx - hx
      have e2 : (r - s) * (b.y - a.y) = 0 := by linear_combination hcy - hy
      by_contra hne
      have hne : r - s ≠ 0 := sub_ne_zero.2 hne
      have h1 := (mul_eq_zero.1 e1).resolve_left hne
      have h2 := (mul_eq_zero.1 e2).resolve_left hne
      rw [h1, h2] at hab
      simp at hab
    subst hrs
    have : 0 < r * (1 - r) := mul_pos hr0 (by linarith)
    have := mul_pos this hab
    linarith

end

/-- **C48**: the remark "seems to return false for a flat triangle" is false, exactly and in `f64`. -/
theorem C48_flat_refuted : inCircumcircle (⟨0, 0⟩ : Vtx ℚ) ⟨2, 0⟩ ⟨1, 0⟩ ⟨1, -1⟩ = true ∧
    inCircumcircle (⟨.fin 0, .fin 0⟩ : Vtx F64) ⟨.fin 2, .fin 0⟩ ⟨.fin 1, .fin 0⟩ ⟨.fin 1, .fin (-1)⟩ = true := by
  constructor <;> decide +kernel

/-! Examples. -/

example : (⟨5, 2, 9, 1, 2, 3⟩ : Tri).Proper ∧ (⟨5, 2, 9, 1, 2, 3⟩ : Tri).otherEdges 1 = [⟨9, 5⟩, ⟨5, 2⟩] := by
  constructor
  · simp [Tri.Proper]
  · decide

example : Plane.area2 (⟨0, 0⟩ : Vtx ℚ) ⟨2, 0⟩ ⟨1, 0⟩ = 0 ∧ Plane.Clockwise (⟨1, -1⟩ : Vtx ℚ) ⟨0, 0⟩ ⟨2, 0⟩ ∧
    StrictlyBetween (⟨0, 0⟩ : Vtx ℚ) ⟨2, 0⟩ ⟨1, 0⟩ ∧ inCircumcircle (⟨0, 0⟩ : Vtx ℚ) ⟨2, 0⟩ ⟨3, 0⟩ ⟨1, -1⟩ = false := by
  refine ⟨by simp [Plane.area2], by simp [Plane.Clockwise, Plane.area2], ⟨1 / 2, by norm_num, by norm_num, by norm_num, by norm_num⟩, by decide +kernel⟩

end CDT

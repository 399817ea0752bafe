import Verif.Spec.Plane

/-!
# Planar straight-line meshes

A list of vertex triples over a list of positions. Ids without a position (the artificial vertices) are ignored.
-/

namespace CDT
open Plane

variable {K : Type} [Field K] [LinearOrder K] [IsStrictOrderedRing K]

namespace Spec

/-- A directed side of a vertex triple. -/
def Side (t : Nat × Nat × Nat) (a b : Nat) : Prop := (a = t.1 ∧ b = t.2.1) ∨ (a = t.2.1 ∧ b = t.2.2) ∨ (a = t.2.2 ∧ b = t.1)

/-- A corner of a vertex triple. -/
def Corner (t : Nat × Nat × Nat) (v : Nat) : Prop := v = t.1 ∨ v = t.2.1 ∨ v = t.2.2

/-- The segments `a b` and `c d` cross in a point that is inside both: each separates the ends of the other one. -/
def ProperCross (a b c d : Vtx K) : Prop :=
  ∃ p, InsideSegment a b p ∧ InsideSegment c d p ∧ area2 a b c ≠ 0

/-- A planar straight-line mesh. -/
structure Planar (vs : List (Vtx K)) (l : List (Nat × Nat × Nat)) : Prop where
  /-- different mesh vertices are at different positions -/
  inj : ∀ t ∈ l, ∀ u ∈ l, ∀ v w V, Corner t v → Corner u w → vs[v]? = some V → vs[w]? = some V → v = w
  /-- no mesh vertex lies inside an edge -/
  clear : ∀ t ∈ l, ∀ u ∈ l, ∀ a b w A B W, Side t a b → Corner u w → vs[a]? = some A → vs[b]? = some B → vs[w]? = some W →
    ¬ InsideSegment A B W
  /-- no two edges cross -/
  cross : ∀ t ∈ l, ∀ u ∈ l, ∀ a b c d A B C D, Side t a b → Side u c d → vs[a]? = some A → vs[b]? = some B → vs[c]? = some C →
    vs[d]? = some D → ¬ ProperCross A B C D
  /-- a mesh vertex in a closed triangle is one of its corners -/
  empty : ∀ t ∈ l, ∀ u ∈ l, ∀ w A B C W, Corner u w → vs[t.1]? = some A → vs[t.2.1]? = some B → vs[t.2.2]? = some C →
    vs[w]? = some W → area2 A B W ≤ 0 → area2 B C W ≤ 0 → area2 C A W ≤ 0 → Corner t w

theorem Planar.sub {vs : List (Vtx K)} {l l' : List (Nat × Nat × Nat)} (h : Planar vs l) (hs : ∀ t ∈ l', t ∈ l) : Planar vs l' where
  inj t ht u hu := h.inj t (hs t ht) u (hs u hu)
  clear t ht u hu := h.clear t (hs t ht) u (hs u hu)
  cross t ht u hu := h.cross t (hs t ht) u (hs u hu)
  empty t ht u hu := h.empty t (hs t ht) u (hs u hu)

end Spec
end CDT

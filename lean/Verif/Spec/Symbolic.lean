import Verif.Spec.Plane

/-!
# Meaning of the artificial vertices

The four artificial vertices stand for points far away to the left, top, right and bottom. A statement about
a triangle with artificial vertices holds if it holds for all sufficiently far positions of them.
-/

namespace CDT
namespace Plane

variable {K : Type} [Field K] [LinearOrder K] [IsStrictOrderedRing K] [IdCfg]

/-- Position of a vertex id when the artificial vertices are put at distance `r` from the origin. -/
def farPos (vs : List (Vtx K)) (r : K) (i : Nat) : Vtx K :=
  if i < INF0 then vs[i]?.getD ⟨0, 0⟩
  else if i = INF0 then ⟨-r, 0⟩
  else if i = INF1 then ⟨0, r⟩
  else if i = INF2 then ⟨r, 0⟩
  else ⟨0, -r⟩

/-- The (possibly unbounded) triangle is strictly clockwise. -/
def FarClockwise (vs : List (Vtx K)) (a b c : Nat) : Prop :=
  ∃ R, ∀ r, R ≤ r → Clockwise (farPos vs r a) (farPos vs r b) (farPos vs r c)

/-- `p` lies strictly inside the (possibly unbounded) triangle. -/
def FarInTriangle (vs : List (Vtx K)) (a b c : Nat) (p : Vtx K) : Prop :=
  ∃ R, ∀ r, R ≤ r → InTriangle (farPos vs r a) (farPos vs r b) (farPos vs r c) p

end Plane

namespace Spec

/-- The three directed edges of a triangle, with the neighbor behind them. -/
def edges (t : Tri) : List (Nat × Nat × Nat) := [(t.v1, t.v2, t.n12), (t.v2, t.v3, t.n23), (t.v3, t.v1, t.n31)]

/-- Adjacency: a missing neighbor only occurs behind edges between artificial vertices; all other neighbors
exist and have the reversed edge with this triangle behind it. -/
def Adjacency [IdCfg] (ts : List Tri) : Prop :=
  ∀ (i : Nat) (t : Tri), ts[i]? = some t → ∀ a b j, (a, b, j) ∈ edges t →
    (j = NONE ∧ INF0 ≤ a ∧ INF0 ≤ b) ∨
    (j < ts.length ∧ ∃ u, ts[j]? = some u ∧ (b, a, i) ∈ edges u)

end Spec
end CDT

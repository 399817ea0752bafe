import Mathlib.Logic.Relation
import Verif.Model.Types

/-! Specification of the constrained domains, independent of the filtering code. -/

namespace CDT.Spec
open CDT
variable [IdCfg]

/-- The three directed edges of a triangle with the neighbor behind them. -/
def sides (t : Tri) : List (Edge × Nat) :=
  [(⟨t.v1, t.v2⟩, t.n12), (⟨t.v2, t.v3⟩, t.n23), (⟨t.v3, t.v1⟩, t.n31)]

/-- From triangle `i` one may go to its neighbor `j` through an edge that is not constrained in this
direction. -/
def Step (S : List Edge) (ts : List Tri) (i j : Nat) : Prop :=
  ∃ t, ts[i]? = some t ∧ ∃ e, (e, j) ∈ sides t ∧ e ∉ S ∧ j ≠ NONE

/-- Triangle `i` owns a constrained directed edge. -/
def Seed (S : List Edge) (ts : List Tri) (i : Nat) : Prop :=
  ∃ t, ts[i]? = some t ∧ ∃ e j, (e, j) ∈ sides t ∧ e ∈ S

/-- Triangle `i` belongs to a constrained domain. -/
def InDomain (S : List Edge) (ts : List Tri) (i : Nat) : Prop :=
  ∃ s, Seed S ts s ∧ Relation.ReflTransGen (Step S ts) s i

/-- Triangle `i` exists and has three real vertices. -/
def FiniteAt (ts : List Tri) (i : Nat) : Prop :=
  ∃ t, ts[i]? = some t ∧ t.v1 < INF0 ∧ t.v2 < INF0 ∧ t.v3 < INF0

/-- The vertices of triangle `i`. -/
def vertsAt (ts : List Tri) (i : Nat) : Nat × Nat × Nat :=
  match ts[i]? with
  | some t => (t.v1, t.v2, t.v3)
  | none => (0, 0, 0)

/-- `out` lists the triangles of the constrained domains, each once. -/
def IsDomainList (S : List Edge) (ts : List Tri) (out : List (Nat × Nat × Nat)) (ids : List Nat) :
    Prop :=
  ids.Nodup ∧ (∀ i, i ∈ ids ↔ InDomain S ts i ∧ FiniteAt ts i) ∧ out = ids.map (vertsAt ts)

end CDT.Spec

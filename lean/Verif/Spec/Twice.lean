import Verif.Model.Types

/-! # Doubled triangles and repeated vertices -/

namespace CDT
namespace Spec

/-- Two different entries of the mesh have the same three vertices. -/
def Twice (ts : List Tri) : Prop :=
  ∃ (i j : Nat) (t u : Tri), i ≠ j ∧ ts[i]? = some t ∧ ts[j]? = some u ∧
    ∀ v, (v = t.v1 ∨ v = t.v2 ∨ v = t.v3) ↔ (v = u.v1 ∨ v = u.v2 ∨ v = u.v3)

/-- The three vertices of every triangle are different. -/
def Distinct3 (ts : List Tri) : Prop := ∀ t ∈ ts, t.v1 ≠ t.v2 ∧ t.v2 ≠ t.v3 ∧ t.v3 ≠ t.v1

end Spec
end CDT

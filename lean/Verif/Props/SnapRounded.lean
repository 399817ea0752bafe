import Verif.Proofs.AgreeD
import Verif.Props.SnapValid
import Verif.Props.Restored

/-!
# C91 in rounded arithmetic
-/

namespace CDT
open Plane Rounded

section
variable {F : Type} [FloatOps F] [Rounded F] [IdCfg] (fuel : Nat) (bins : Nat → Nat) (vs : List (Vtx F)) (V : List (Vtx ℚ)) (W : ℚ)

/-- **C91** in rounded arithmetic, unconstrained: on a robust input, every recorded snapshot shows triangles that fill the plane
around the exact vertices. -/
theorem C91_dt_rounded (h : RGood fuel bins vs V W) (cfg : DebugCfg) :
    ∀ s ∈ (triangulation2dD fuel bins vs cfg).2.snaps, Spec.SnapFills V s := by
  let P := params F (bins vs.length) W (scaleVal vs)
  rw [h.runD cfg]
  exact C91_dt h.good cfg

/-- **C91** in rounded arithmetic. -/
theorem C91_cdt_rounded (h : RGoodC fuel bins vs V W) (es : List Edge) (cfg : DebugCfg) :
    ∀ s ∈ (constrained2dD fuel bins vs es cfg).2.snaps, Spec.SnapFills V s := by
  let P := params F (bins vs.length) W (scaleVal vs)
  rw [h.runD es cfg]
  exact C91_cdt h.toRGood.good es cfg

end

/-! ## Example -/

section
attribute [local instance] restoredCfg

/-- A run in binary64 with swaps in both phases. -/
example : (∀ s ∈ (constrained2dD (F := F64) 506 (fun _ => 1) (flPts binary64 localGrid) localEdges {}).2.snaps, Spec.SnapFills (intPts localGrid) s) ∧
    0 < ((constrained2dD (F := F64) 506 (fun _ => 1) (flPts binary64 localGrid) localEdges {}).2.snaps.map (·.phase)).count .constrainedSwap ∧
    0 < ((constrained2dD (F := F64) 506 (fun _ => 1) (flPts binary64 localGrid) localEdges {}).2.snaps.map (·.phase)).count .restoreSwap :=
  ⟨C91_cdt_rounded 506 (fun _ => 1) _ _ _ local_good localEdges {}, by decide +kernel, by decide +kernel⟩

end

end CDT

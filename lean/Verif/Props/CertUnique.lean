import Verif.Props.Certificate
import Verif.Props.Unique

/-! # C75: results that pass the test are complete and do not depend on order, bins or number format -/

set_option linter.unusedSectionVars false

namespace CDT
open Plane

section Main

section Plain
variable {K : Type} [Field K] [LinearOrder K] [IsStrictOrderedRing K]

/-- The center of gravity of three vertices is in the convex hull. -/
theorem centroid_inHull {vs : List (Vtx K)} {A B C : Vtx K} (hA : A ∈ vs) (hB : B ∈ vs) (hC : C ∈ vs) :
    Spec.InHull vs ⟨(A.x + B.x + C.x) / 3, (A.y + B.y + C.y) / 3⟩ := by
  intro Y Z hall
  have e : area2 Y Z ⟨(A.x + B.x + C.x) / 3, (A.y + B.y + C.y) / 3⟩ = (area2 Y Z A + area2 Y Z B + area2 Y Z C) / 3 := by
    simp only [area2]; ring
  have := hall A hA; have := hall B hB; have := hall C hC
  rw [e]; linarith

/-- A Delaunay triangulation of the whole convex hull contains every triangle with an empty disc. -/
theorem convex_complete {vs : List (Vtx K)} {out : List Out} (hd : Spec.Delaunay vs out) (hcov : Spec.CoversConvex vs out)
    {A B C : Vtx K} (hA : A ∈ vs) (hB : B ∈ vs) (hC : C ∈ vs) (hc : Clockwise A B C) (he : Spec.EmptyDisc vs A B C) : Spec.Occurs vs out A B C :=
  delaunay_has hd hA hB hC hc he (hcov _ (centroid_inHull hA hB hC))

end Plain

variable {K : Type} [Field K] [LinearOrder K] [IsStrictOrderedRing K] [ExactParams K] [IdCfg]

/-- **C75**. A result that passes the test contains every triangle whose disc contains no other vertex. -/
theorem C75_complete (fuel : Nat) (bins : Nat → Nat) (vs : List (Vtx K)) (h : Good fuel bins vs) (out : List Out)
    (ho : triangulation2d fuel bins vs = .ok out) (hne : out ≠ []) (hs : Spec.HullSides vs out) (hl : Spec.LocallyDelaunay vs [] out)
    (A B C : Vtx K) (hA : A ∈ vs) (hB : B ∈ vs) (hC : C ∈ vs) (hc : Clockwise A B C) (he : Spec.EmptyDisc vs A B C) : Spec.Occurs vs out A B C :=
  have ⟨hcov, hd⟩ := (C74_certificate fuel bins vs h out ho hne).1 ⟨hs, hl⟩
  convex_complete hd hcov hA hB hC hc he

/-- **C75**. If no four vertices are on an empty circle, a result that passes the test consists exactly of the clockwise triangles
whose circle contains no vertex. -/
theorem C75_exact (fuel : Nat) (bins : Nat → Nat) (vs : List (Vtx K)) (h : Good fuel bins vs) (out : List Out)
    (ho : triangulation2d fuel bins vs = .ok out) (hne : out ≠ []) (hs : Spec.HullSides vs out) (hl : Spec.LocallyDelaunay vs [] out)
    (hg : Spec.NoFourOnEmptyCircle vs) (A B C : Vtx K) :
    Spec.Occurs vs out A B C ↔ A ∈ vs ∧ B ∈ vs ∧ C ∈ vs ∧ Clockwise A B C ∧ ∀ q ∈ vs, ¬ InCircle A B C q :=
  have ⟨hcov, hd⟩ := (C74_certificate fuel bins vs h out ho hne).1 ⟨hs, hl⟩
  delaunay_exact hd (fun _ hA _ hB _ hC hc he => convex_complete hd hcov hA hB hC hc he) hg A B C

/-- **C75** in rounded arithmetic (`f32`, `f64`) on robust inputs and on grids; `V` are the exact positions. -/
theorem C75_exact_rounded {F : Type} [FloatOps F] [Rounded F] (fuel : Nat) (bins : Nat → Nat) (vs : List (Vtx F))
    (V : List (Vtx ℚ)) (W : ℚ) (h : Rounded.RGood fuel bins vs V W) (out : List Out)
    (ho : triangulation2d fuel bins vs = .ok out) (hne : out ≠ []) (hs : Spec.HullSides V out) (hl : Spec.LocallyDelaunay V [] out)
    (hg : Spec.NoFourOnEmptyCircle V) (A B C : Vtx ℚ) :
    Spec.Occurs V out A B C ↔ A ∈ V ∧ B ∈ V ∧ C ∈ V ∧ Clockwise A B C ∧ ∀ q ∈ V, ¬ InCircle A B C q :=
  have ⟨hcov, hd⟩ := (C74_certificate_rounded fuel bins vs V W h out ho hne).1 ⟨hs, hl⟩
  delaunay_exact hd (fun _ hA _ hB _ hC hc he => convex_complete hd hcov hA hB hC hc he) hg A B C

/-- **C75**, order, bins and number format do not matter: two runs on the same positions that pass the test give the same triangles. -/
theorem C75_order {F F' : Type} [FloatOps F] [Rounded F] [FloatOps F'] [Rounded F'] (fuel fuel' : Nat) (bins bins' : Nat → Nat)
    (vs : List (Vtx F)) (vs' : List (Vtx F')) (V V' : List (Vtx ℚ)) (W W' : ℚ) (h : Rounded.RGood fuel bins vs V W)
    (h' : Rounded.RGood fuel' bins' vs' V' W') (hv : ∀ q, q ∈ V ↔ q ∈ V') (hg : Spec.NoFourOnEmptyCircle V) (out out' : List Out)
    (ho : triangulation2d fuel bins vs = .ok out) (ho' : triangulation2d fuel' bins' vs' = .ok out') (hne : out ≠ []) (hne' : out' ≠ [])
    (hs : Spec.HullSides V out) (hs' : Spec.HullSides V' out') (hl : Spec.LocallyDelaunay V [] out) (hl' : Spec.LocallyDelaunay V' [] out')
    (A B C : Vtx ℚ) : Spec.Occurs V out A B C ↔ Spec.Occurs V' out' A B C := by
  have hg' : Spec.NoFourOnEmptyCircle V' := by simpa only [Spec.NoFourOnEmptyCircle, hv] using hg
  rw [C75_exact_rounded fuel bins vs V W h out ho hne hs hl hg, C75_exact_rounded fuel' bins' vs' V' W' h' out' ho' hne' hs' hl' hg']
  simp only [hv]

end Main

section Example
open Rounded
local instance certUniqueCfg : IdCfg := u32Cfg

/-- The points of `certGrid` in another order. -/
def certGrid' : List (Int × Int) := certGrid.reverse

theorem cert_good' : RGood (F := Fl binary32) 506 (fun _ => 1) (flPts binary32 certGrid') (intPts certGrid') (2 ^ 4) :=
  C44_grid certGrid' 4 (by decide) (by decide) (by decide) ⟨by norm_num, by decide +kernel, by decide +kernel⟩
    (by decide) (by decide +kernel) (by decide) (by decide)

/-- The hypotheses of `C75_order` hold for `f64` with the default bins and for `f32`, one bin, other order. -/
example : ∃ out', triangulation2d (F := Fl binary32) 506 (fun _ => 1) (flPts binary32 certGrid') = .ok out' ∧
    ∀ A B C, Spec.Occurs (intPts certGrid) certOut A B C ↔ Spec.Occurs (intPts certGrid') out' A B C := by
  refine ⟨[(0, 5, 6), (1, 8, 4), (2, 9, 4), (2, 4, 8), (1, 4, 7), (3, 6, 9), (4, 5, 7), (0, 6, 3), (4, 6, 5), (4, 9, 6)] , by decide +kernel, fun A B C =>
    C75_order 506 506 _ _ _ _ _ _ _ _ cert_good cert_good' ?_ (general_of_check (by decide +kernel)) _ _ cert_run (by decide +kernel) (by decide) (by decide)
      cert_sides (hullSides_of_check (by decide +kernel)) (local_of_check (by decide +kernel)) (local_of_check (by decide +kernel)) A B C⟩
  intro q
  exact ⟨fun h => (by decide +kernel : ∀ q ∈ intPts certGrid, q ∈ intPts certGrid') q h,
     fun h => (by decide +kernel : ∀ q ∈ intPts certGrid', q ∈ intPts certGrid) q h⟩

end Example

end CDT

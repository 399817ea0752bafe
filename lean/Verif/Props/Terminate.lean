import Verif.Proofs.Terminate
import Verif.Proofs.GenericC
import Verif.Proofs.Fuel
import Verif.Witness.Upstream

/-! # C09: the unconstrained triangulation ends, in every arithmetic with the laws of zero -/

set_option linter.unusedSectionVars false

namespace CDT

variable {F : Type} [FloatOps F] [NullLaws F] [IdCfg]

/-- **C09** for every input, in every arithmetic in which the laws `NullLaws` of zero and NaN hold (exact arithmetic,
`f64`): collinear, coincident, huge, NaN, anything. `12 n + 16` iterations of each restoration loop are enough. The
only hypothesis bounds the number of vertices by the id type. -/
theorem C09_terminates (fuel : Nat) (bins : Nat → Nat) (vs : List (Vtx F)) (hn : vs.length + 3 ≤ IdCfg.maxId)
    (hf : 12 * vs.length + 16 ≤ fuel) : triangulation2d fuel bins vs ≠ .diverge := by
  unfold triangulation2d
  split
  · simp
  · exact Res.bind_ne_diverge (wrap_terminates fuel _ _ none (by rw [normalizeVerts_length]; exact hn)
      (by rw [normalizeVerts_length]; exact hf)) fun _ _ => by simp

/-- **C09**, parallel filtering. -/
theorem C09_terminates_par (fuel : Nat) (bins : Nat → Nat) (th : Nat) (sp : Split) (vs : List (Vtx F))
    (hn : vs.length + 3 ≤ IdCfg.maxId) (hf : 12 * vs.length + 16 ≤ fuel) :
    triangulation2dPar fuel bins th sp vs ≠ .diverge := by
  unfold triangulation2dPar
  split
  · simp
  · exact Res.bind_ne_diverge (wrap_terminates fuel _ _ none (by rw [normalizeVerts_length]; exact hn)
      (by rw [normalizeVerts_length]; exact hf)) fun _ _ => by simp

/-- **C09**, 3d input. -/
theorem C09_terminates_3d (fuel : Nat) (bins : Nat → Nat) (vs : List (Vtx3 F)) (nrm : Vtx3 F)
    (hn : vs.length + 3 ≤ IdCfg.maxId) (hf : 12 * vs.length + 16 ≤ fuel) :
    triangulation3d fuel bins vs nrm ≠ .diverge := by
  unfold triangulation3d
  split
  · simp
  · refine Res.bind_ne_diverge ?_ fun pv hpv => ?_
    · unfold transformTo2d
      exact Res.bind_ne_diverge (getI_ne_diverge _ _) fun _ _ => Res.bind_ne_diverge (getI_ne_diverge _ _) fun _ _ => by simp
    · have hl : pv.length = vs.length := by
        simp only [transformTo2d, Res.bind_eq_ok, Res.ok.injEq] at hpv
        obtain ⟨_, _, _, _, h⟩ := hpv
        rw [← h]; simp
      exact C09_terminates fuel bins pv (by rw [hl]; exact hn) (by rw [hl]; exact hf)

/-- **C09** in IEEE arithmetic of every precision and exponent range, infinities and NaN included: the three entry
points. -/
theorem C09_terminates_fl {f : Fmt} (fuel : Nat) (bins : Nat → Nat) :
    (∀ vs : List (Vtx (Fl f)), vs.length + 3 ≤ IdCfg.maxId → 12 * vs.length + 16 ≤ fuel →
      triangulation2d fuel bins vs ≠ .diverge ∧ ∀ th sp, triangulation2dPar fuel bins th sp vs ≠ .diverge) ∧
    ∀ (vs : List (Vtx3 (Fl f))) (nrm : Vtx3 (Fl f)), vs.length + 3 ≤ IdCfg.maxId → 12 * vs.length + 16 ≤ fuel →
      triangulation3d fuel bins vs nrm ≠ .diverge :=
  ⟨fun vs hn hf => ⟨C09_terminates fuel bins vs hn hf, fun th sp => C09_terminates_par fuel bins th sp vs hn hf⟩,
    fun vs nrm hn hf => C09_terminates_3d fuel bins vs nrm hn hf⟩

/-- The loop itself, for any mesh with any neighbor data and any stack: a bounded number of iterations. -/
theorem C09_restore_bound (vs : List (Vtx F)) (p : Nat) (hp : isFin p = true) (ts : List Tri) (st : List (Nat × Nat))
    (fuel : Nat) (h : st.length + 6 * ts.length ≤ fuel) : restore vs p fuel ts st ≠ .diverge :=
  restore_terminates vs p hp fuel ts st (by have := potential_le p ts; omega)

end CDT

namespace CDT
/-- Example configuration. -/
local instance terminateCfg : IdCfg := u32Cfg

/-- The hypotheses are met by infinite and NaN input, and the run is not trivial. -/
example : ([⟨.nan, .fin 1⟩, ⟨.inf true, .nan⟩, ⟨.fin 3, .fin 3⟩] : List (Vtx F64)).length + 3 ≤ IdCfg.maxId ∧
    triangulation2d (F := F64) 52 (fun _ => 1) [⟨.nan, .fin 1⟩, ⟨.inf true, .nan⟩, ⟨.fin 3, .fin 3⟩] ≠ .diverge :=
  ⟨by decide, C09_terminates 52 _ _ (by decide) (by decide)⟩

end CDT

import Verif.Props.Grid

/-!
# C67: integer coordinates in general position, any extent

In contrast to C44 the extent need not be a power of two, so the normalization rounds; the vertices must be in general position.
-/

set_option linter.unusedSectionVars false

namespace CDT
open Plane Rounded

/-- Three vertices on a line are on a horizontal or a vertical line (or two of them are equal), and no circle through the vertices of a
triangle passes through a vertex beyond one of its edges. -/
structure Plane.GeneralPosition {K : Type} [Field K] [LinearOrder K] (V : List (Vtx K)) : Prop where
  line : ∀ a ∈ V, ∀ b ∈ V, ∀ c ∈ V, area2 a b c = 0 → a = b ∨ b = c ∨ c = a ∨ (a.x = b.x ∧ b.x = c.x) ∨ (a.y = b.y ∧ b.y = c.y)
  circle : ∀ a ∈ V, ∀ b ∈ V, ∀ c ∈ V, ∀ p ∈ V, Clockwise a b c → Clockwise b a p → circleDet a b c p ≠ 0

section
variable {u : ℚ} {W : ℕ} {l : List (Int × Int)}

theorem one_le_of_int {q : ℚ} (h : ∃ z : ℤ, q = z) (h0 : q ≠ 0) : 1 ≤ |q| := by
  obtain ⟨z, rfl⟩ := h
  have : z ≠ 0 := by rintro rfl; exact h0 (by simp)
  exact_mod_cast Int.one_le_abs this

theorem robust_of_general (hu : 0 ≤ u) (hu' : 512 * (W : ℚ) ^ 4 * u ≤ 1) (hW : Extent (W : ℚ) (intPts l)) (h : GeneralPosition (intPts l)) :
    Robust u W (intPts l) := by
  have hW1 : (1 : ℚ) ≤ W := by
    have := hW.pos
    have : 0 < W := by exact_mod_cast this
    exact_mod_cast this
  have hp1 : (W : ℚ) ≤ (W : ℚ) ^ 4 := le_self_pow₀ hW1 (by norm_num)
  have hp2 : (W : ℚ) ^ 2 ≤ (W : ℚ) ^ 4 := pow_le_pow_right₀ hW1 (by norm_num)
  have k1 : 32 * u * W ≤ 1 := by nlinarith
  have k2 : 64 * u * (W : ℚ) ^ 2 ≤ 1 := by nlinarith
  have k4 : 512 * u * (W : ℚ) ^ 4 ≤ 1 := by linarith
  have int : ∀ v ∈ intPts l, ∃ i j : ℤ, v.x = i ∧ v.y = j := by
    intro v hv
    simp only [intPts, List.mem_map] at hv
    obtain ⟨p, -, rfl⟩ := hv
    exact ⟨p.1, p.2, rfl, rfl⟩
  refine { toExtent := hW, x := ?_, y := ?_, turn := ?_, circle := ?_ }
  · intro a ha b hb
    obtain ⟨a1, a2, e1, e2⟩ := int a ha
    obtain ⟨b1, b2, e3, e4⟩ := int b hb
    by_cases h0 : a.x = b.x
    · exact .inl h0
    · exact .inr (k1.trans (one_le_of_int ⟨a1 - b1, by rw [e1, e3]; push_cast; ring⟩ (sub_ne_zero.2 h0)))
  · intro a ha b hb
    obtain ⟨a1, a2, e1, e2⟩ := int a ha
    obtain ⟨b1, b2, e3, e4⟩ := int b hb
    by_cases h0 : a.y = b.y
    · exact .inl h0
    · exact .inr (k1.trans (one_le_of_int ⟨a2 - b2, by rw [e2, e4]; push_cast; ring⟩ (sub_ne_zero.2 h0)))
  · intro a ha b hb c hc
    obtain ⟨a1, a2, e1, e2⟩ := int a ha
    obtain ⟨b1, b2, e3, e4⟩ := int b hb
    obtain ⟨c1, c2, e5, e6⟩ := int c hc
    by_cases h0 : area2 a b c = 0
    · rcases h.line a ha b hb c hc h0 with rfl | rfl | rfl | ⟨q1, q2⟩ | ⟨q1, q2⟩
      · right; left; simp
      · exact .inl rfl
      · right; left; simp
      · right; left; simp [q1, q2]
      · right; left; simp [q1, q2]
    · exact .inr (.inr (k2.trans (one_le_of_int ⟨(b1 - a1) * (c2 - a2) - (c1 - a1) * (b2 - a2), by
        simp only [area2, e1, e2, e3, e4, e5, e6]; push_cast; ring⟩ h0)))
  · intro a ha b hb c hc p hp g1 g2
    obtain ⟨a1, a2, e1, e2⟩ := int a ha
    obtain ⟨b1, b2, e3, e4⟩ := int b hb
    obtain ⟨c1, c2, e5, e6⟩ := int c hc
    obtain ⟨p1, p2, e7, e8⟩ := int p hp
    refine k4.trans (one_le_of_int ⟨((a1 - p1) ^ 2 + (a2 - p2) ^ 2) * ((b1 - p1) * (c2 - p2) - (c1 - p1) * (b2 - p2)) -
      ((b1 - p1) ^ 2 + (b2 - p2) ^ 2) * ((a1 - p1) * (c2 - p2) - (c1 - p1) * (a2 - p2)) +
      ((c1 - p1) ^ 2 + (c2 - p2) ^ 2) * ((a1 - p1) * (b2 - p2) - (b1 - p1) * (a2 - p2)), ?_⟩ (h.circle a ha b hb c hc p hp g1 g2))
    simp only [circleDet, e1, e2, e3, e4, e5, e6, e7, e8]
    push_cast
    ring

/-- No line through two vertices passes exactly through the far end of the cut off unbounded edge of a third one, except along the edge. -/
def Plane.MissesRays {K : Type} [Field K] [LinearOrder K] (W : K) (V : List (Vtx K)) : Prop :=
  ∀ a ∈ V, ∀ b ∈ V, ∀ f ∈ V, f ≠ a → f ≠ b → ∀ d ∈ (axes : List (Vtx K)),
    area2 a b ⟨f.x + 142 / 100 * W * d.x, f.y + 142 / 100 * W * d.y⟩ = 0 →
      (b.x - a.x) * (f.y + 142 / 100 * W * d.y - b.y) = 0 ∧ (b.y - a.y) * (f.x + 142 / 100 * W * d.x - b.x) = 0

theorem clearRays_of_misses (hu : 4800 * (W : ℚ) ^ 2 * u ≤ 1) (h : MissesRays (W : ℚ) (intPts l)) : ClearRays u W (intPts l) := by
  intro a ha b hb f hf hfa hfb d hd
  by_cases h0 : area2 a b ⟨f.x + 142 / 100 * W * d.x, f.y + 142 / 100 * W * d.y⟩ = 0
  · exact .inl (h a ha b hb f hf hfa hfb d hd h0)
  right
  have hz : ∃ z : ℤ, area2 a b ⟨f.x + 142 / 100 * W * d.x, f.y + 142 / 100 * W * d.y⟩ * 50 = z := by
    simp only [intPts, List.mem_map] at ha hb hf
    obtain ⟨a, -, rfl⟩ := ha
    obtain ⟨b, -, rfl⟩ := hb
    obtain ⟨f, -, rfl⟩ := hf
    have hd' : ∃ i j : ℤ, d.x = i ∧ d.y = j := by
      simp only [axes, List.mem_cons, List.not_mem_nil, or_false] at hd
      rcases hd with rfl | rfl | rfl | rfl
      · exact ⟨-1, 0, by simp, by simp⟩
      · exact ⟨0, 1, by simp, by simp⟩
      · exact ⟨1, 0, by simp, by simp⟩
      · exact ⟨0, -1, by simp, by simp⟩
    obtain ⟨i, j, hi, hj⟩ := hd'
    refine ⟨(b.1 - a.1) * (50 * f.2 + 71 * W * j - 50 * a.2) - (50 * f.1 + 71 * W * i - 50 * a.1) * (b.2 - a.2), ?_⟩
    simp only [area2, hi, hj]
    push_cast
    ring
  have h1 := one_le_of_int hz (by simpa using h0)
  rw [abs_mul, abs_of_pos (by norm_num : (0 : ℚ) < 50)] at h1
  linarith

end

section
variable {f : Fmt} [Fl.Ok f] [IdCfg] {fuel : Nat} {bins : Nat → Nat}

/-- **C67**, the hypotheses of the theorems on rounded runs hold for integer input in general position. -/
theorem C67_general (l : List (Int × Int)) (W : ℕ) (hk : 512 * W ^ 4 ≤ 2 ^ f.prec) (he : f.prec ≤ f.emax)
    (hl : ∀ p ∈ l, |p.1| ≤ 2 ^ f.prec ∧ |p.2| ≤ 2 ^ f.prec) (hW : Extent (W : ℚ) (intPts l)) (hg : GeneralPosition (intPts l))
    (hb : 1 ≤ bins l.length) (hc : bins l.length < 2 ^ 64) (hi : 2 * l.length + 2 ≤ NONE) (hf : 6 * l.length + 10 ≤ fuel) :
    RGood fuel bins (flPts f l) (intPts l) W := by
  have hB : (2 : ℚ) ^ f.prec ≤ Fl.big f := (pow_le_pow_right₀ (by norm_num) he).trans (Fl.big_ge f)
  have cast : ∀ {z : ℤ}, |z| ≤ 2 ^ f.prec → |(z : ℚ)| ≤ Fl.big f := by
    intro z hz
    refine le_trans ?_ hB
    exact_mod_cast hz
  have hlen : (flPts f l).length = l.length := by simp [flPts]
  have hu : Rounded.u (Fl f) = 1 / 2 ^ f.prec := rfl
  refine { vals := flPts_vals l hl hB, range := ?_, ext := hW, fits := ?_, robust := .inl (robust_of_general ?_ ?_ hW hg), row := ?_, cap := ?_,
           ids := ?_, fuel := ?_ }
  · simp only [intPts, List.forall_mem_map]
    exact fun p hp => ⟨cast (hl p hp).1, cast (hl p hp).2⟩
  · refine le_trans ?_ hB
    have h1 : W ≤ W ^ 4 := Nat.le_self_pow (by norm_num) W
    have : W ≤ 2 ^ f.prec := by omega
    exact_mod_cast this
  · rw [hu]; positivity
  · rw [hu, mul_one_div, div_le_one (by positivity)]
    exact_mod_cast hk
  · rw [hlen]; exact hb
  · rw [hlen]
    show (bins l.length : ℚ) ≤ ((Fl.usizeMax : ℕ) : ℚ)
    have : bins l.length ≤ Fl.usizeMax := by unfold Fl.usizeMax; omega
    exact_mod_cast this
  · rw [hlen]; exact hi
  · rw [hlen]; exact hf

/-- **C67** (`f64`: `W ≤ 2048`, `f32`: `W ≤ 13`): integer input of extent `W` in general position. The run ends without panic; the triangles
are clockwise, their interiors are disjoint, no two of them are on the same side of an edge, there are at most `2n - 2` of them. -/
theorem C67_run (l : List (Int × Int)) (W : ℕ) (hk : 512 * W ^ 4 ≤ 2 ^ f.prec) (he : f.prec ≤ f.emax)
    (hl : ∀ p ∈ l, |p.1| ≤ 2 ^ f.prec ∧ |p.2| ≤ 2 ^ f.prec) (hW : Extent (W : ℚ) (intPts l)) (hg : GeneralPosition (intPts l))
    (hb : 1 ≤ bins l.length) (hc : bins l.length < 2 ^ 64) (hi : 2 * l.length + 2 ≤ NONE) (hf : 6 * l.length + 10 ≤ fuel) :
    ((∃ out, triangulation2d fuel bins (flPts f l) = .ok out) ∨
      triangulation2d fuel bins (flPts f l) = .err .placementNotFound) ∧
    ∀ out, triangulation2d fuel bins (flPts f l) = .ok out →
      (∀ a b c, (a, b, c) ∈ out → ∃ A B C, (intPts l)[a]? = some A ∧ (intPts l)[b]? = some B ∧ (intPts l)[c]? = some C ∧
        Clockwise A B C) ∧
      (∀ (i j : Nat), i ≠ j → ∀ a b c a' b' c', out[i]? = some (a, b, c) → out[j]? = some (a', b', c') →
        ∀ A B C A' B' C', (intPts l)[a]? = some A → (intPts l)[b]? = some B → (intPts l)[c]? = some C →
          (intPts l)[a']? = some A' → (intPts l)[b']? = some B' → (intPts l)[c']? = some C' →
          ∀ q, ¬ (InTriangle A B C q ∧ InTriangle A' B' C' q)) ∧
      (∀ (i j : Nat) (t u : Out), out[i]? = some t → out[j]? = some u → i ≠ j → ∀ e,
        ¬ (e ∈ Spec.outEdges t ∧ e ∈ Spec.outEdges u)) ∧ out.length ≤ 2 * l.length - 2 := by
  have h := C67_general (f := f) l W hk he hl hW hg hb hc hi hf
  refine ⟨C10_rounded_partial h, fun out ho => ⟨C03_rounded h out ho, ?_, (C05_rounded_partial h out ho).1, ?_⟩⟩
  · intro i j hij a b c a' b' c' hi hj A B C A' B' C' gA gB gC gA' gB' gC' q
    exact C04_rounded_partial h out ho i j hij a b c a' b' c' hi hj A B C A' B' C' gA gB gC gA' gB' gC' q
  · have := C11_rounded h out ho
    rwa [show (flPts f l).length = l.length by simp [flPts]] at this

/-- **C67**, constrained runs: the hypotheses of the theorems on rounded constrained runs. -/
theorem C67_constrained (l : List (Int × Int)) (W : ℕ) (hk : 512 * W ^ 4 ≤ 2 ^ f.prec) (hk' : 4800 * W ^ 2 ≤ 2 ^ f.prec) (he : f.prec ≤ f.emax)
    (hl : ∀ p ∈ l, |p.1| ≤ 2 ^ f.prec ∧ |p.2| ≤ 2 ^ f.prec) (hW : Extent (W : ℚ) (intPts l)) (hg : GeneralPosition (intPts l))
    (hb : 1 ≤ bins l.length) (hc : bins l.length < 2 ^ 64) (hi : 2 * l.length + 2 ≤ NONE)
    (hf : 6 * l.length + 10 ≤ fuel) (hf' : fuelFor l.length ≤ fuel) (h : MissesRays (W : ℚ) (intPts l)) :
    RGoodC fuel bins (flPts f l) (intPts l) W where
  toRGood := C67_general l W hk he hl hW hg hb hc hi hf
  ray := by
    refine clearRays_of_misses ?_ h
    show 4800 * (W : ℚ) ^ 2 * (1 / 2 ^ f.prec : ℚ) ≤ 1
    rw [mul_one_div, div_le_one (by positivity)]
    exact_mod_cast hk'
  fuelC := by rw [show (flPts f l).length = l.length by simp [flPts]]; exact hf'

end
end CDT

namespace CDT
open Witness Plane Rounded
local instance generalCfg : IdCfg := u32Cfg

example : 512 * 2048 ^ 4 ≤ 2 ^ binary64.prec ∧ 4800 * 2048 ^ 2 ≤ 2 ^ binary64.prec ∧ 512 * 13 ^ 4 ≤ 2 ^ binary32.prec ∧
    4800 * 13 ^ 2 ≤ 2 ^ binary32.prec := by decide

/-- Seven points of extent 1900. -/
def generalSample : List (Int × Int) := [(-800,311), (1100,905), (17,1203), (455,-201), (320,640), (-127,77), (733,702)]

theorem generalSample_position : GeneralPosition (intPts generalSample) :=
  ⟨by unfold area2; decide +kernel, by unfold Clockwise area2 circleDet; decide +kernel⟩

theorem generalSample_goodC : RGoodC (F := F64) 300 defaultBins (flPts binary64 generalSample) (intPts generalSample) (1900 : ℕ) :=
  C67_constrained generalSample 1900 (by decide) (by decide) (by decide) (by decide) ⟨by norm_num, by decide +kernel, by decide +kernel⟩
    generalSample_position (by decide +kernel) (by decide +kernel) (by decide +kernel) (by decide) (by decide +kernel)
    (by unfold MissesRays area2 axes; decide +kernel)

/-- The normalization of this sample is not exact. -/
example : ((normalizeVerts (flPts binary64 generalSample))[2]?.map fun v => v.x.value) ≠ some (some ((17 + 800) / 1900)) := by decide +kernel

/-- The run. -/
example : triangulation2d 100 defaultBins (flPts binary64 generalSample) =
    .ok [(2, 4, 5), (1, 3, 6), (2, 5, 0), (3, 4, 6), (3, 5, 4), (2, 6, 4), (2, 1, 6)] := by decide +kernel

end CDT

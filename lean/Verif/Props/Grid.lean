import Verif.Props.RoundedC

/-!
# C44: integer coordinates with a power of two as extent

Such input is triangulated without a single rounding error that matters, in `f64` up to the extent `2^12` and in `f32` up to
`2^5`. Collinear, cocircular and equal vertices are allowed, in contrast to `Plane.Robust`.
-/

set_option linter.unusedSectionVars false

namespace CDT
open Plane Rounded

/-- Vertices with integer coordinates. -/
def intPts (l : List (Int × Int)) : List (Vtx ℚ) := l.map fun p => ⟨p.1, p.2⟩

/-- The same vertices as floating point numbers. -/
def flPts (f : Fmt) (l : List (Int × Int)) : List (Vtx (Fl f)) := l.map fun p => ⟨.mk f p.1, .mk f p.2⟩

section
variable {f : Fmt} [Fl.Ok f]

theorem Fl.value_int {z : ℤ} (hz : |z| ≤ 2 ^ f.prec) (hb : |(z : ℚ)| ≤ Fl.big f) : (Fl.mk f (z : ℚ)).value = some (z : ℚ) := by
  rw [Fl.value_mk hb]
  have := Fl.rnd_dyadic_int f (by have := Fl.Ok.prec (f := f); omega) (m := z) (k := 0) hz (by omega)
  rw [zpow_zero, mul_one] at this
  rw [this]

theorem flPts_vals (l : List (Int × Int)) (hl : ∀ p ∈ l, |p.1| ≤ 2 ^ f.prec ∧ |p.2| ≤ 2 ^ f.prec) (hB : (2 : ℚ) ^ f.prec ≤ Fl.big f) :
    Vals (flPts f l) (intPts l) := by
  have cast : ∀ {z : ℤ}, |z| ≤ 2 ^ f.prec → |(z : ℚ)| ≤ Fl.big f := by
    intro z hz
    refine le_trans ?_ hB
    exact_mod_cast hz
  unfold Vals flPts intPts
  induction l with
  | nil => exact .nil
  | cons p l ih =>
    obtain ⟨h1, h2⟩ := hl p (by simp)
    exact .cons ⟨Fl.value_int h1 (cast h1), Fl.value_int h2 (cast h2)⟩ (ih fun q hq => hl q (by simp [hq]))

variable [IdCfg] {fuel : Nat} {bins : Nat → Nat}

/-- **C44**, the hypotheses of the theorems on rounded runs hold for integer input on a grid. -/
theorem C44_grid (l : List (Int × Int)) (k : Nat) (hk : 4 * k + 3 ≤ f.prec) (he : f.prec ≤ f.emax)
    (hl : ∀ p ∈ l, |p.1| ≤ 2 ^ f.prec ∧ |p.2| ≤ 2 ^ f.prec) (hW : Extent (2 ^ k) (intPts l)) (hb : 1 ≤ bins l.length)
    (hc : bins l.length < 2 ^ 64) (hi : 2 * l.length + 2 ≤ NONE) (hf : 6 * l.length + 10 ≤ fuel) :
    RGood fuel bins (flPts f l) (intPts l) (2 ^ k) := by
  have hB : (2 : ℚ) ^ f.prec ≤ Fl.big f := (pow_le_pow_right₀ (by norm_num) he).trans (Fl.big_ge f)
  have cast : ∀ {z : ℤ}, |z| ≤ 2 ^ f.prec → |(z : ℚ)| ≤ Fl.big f := by
    intro z hz
    refine le_trans ?_ hB
    exact_mod_cast hz
  have hlen : (flPts f l).length = l.length := by simp [flPts]
  refine { vals := ?_, range := ?_, ext := hW, fits := ?_, robust := .inr ⟨k, 0, by simp, ?_, ?_, ?_⟩, row := ?_, cap := ?_,
           ids := ?_, fuel := ?_ }
  · exact flPts_vals l hl hB
  · simp only [intPts, List.forall_mem_map]
    exact fun p hp => ⟨cast (hl p hp).1, cast (hl p hp).2⟩
  · refine le_trans (pow_le_pow_right₀ (by norm_num) ?_) hB
    omega
  · show 8 * 16 ^ k * (1 / 2 ^ f.prec : ℚ) ≤ 1
    rw [mul_one_div, div_le_one (by positivity)]
    have e : (8 : ℚ) * 16 ^ k = 2 ^ (4 * k + 3) := by rw [pow_add, pow_mul]; norm_num; ring
    rw [e]
    exact pow_le_pow_right₀ (by norm_num) hk
  · rw [zpow_zero]
    have := tiny_le (F := Fl f)
    have := u_le (F := Fl f)
    linarith
  · simp only [intPts, List.forall_mem_map]
    exact fun p hp => ⟨p.1, p.2, by simp, by simp⟩
  · rw [hlen]; exact hb
  · rw [hlen]
    show (bins l.length : ℚ) ≤ ((Fl.usizeMax : ℕ) : ℚ)
    have : bins l.length ≤ Fl.usizeMax := by unfold Fl.usizeMax; omega
    exact_mod_cast this
  · rw [hlen]; exact hi
  · rw [hlen]; exact hf

/-- **C44** (`f64`: `k ≤ 12`, `f32`: `k ≤ 5`): integer input of extent `2^k`. The run ends without panic; the triangles are clockwise, their
interiors are disjoint, no two of them are on the same side of an edge, there are at most `2n - 2` of them. -/
theorem C44_run (l : List (Int × Int)) (k : Nat) (hk : 4 * k + 3 ≤ f.prec) (he : f.prec ≤ f.emax)
    (hl : ∀ p ∈ l, |p.1| ≤ 2 ^ f.prec ∧ |p.2| ≤ 2 ^ f.prec)
    (hW : Extent (2 ^ k) (intPts l)) (hb : 1 ≤ bins l.length) (hc : bins l.length < 2 ^ 64) (hi : 2 * l.length + 2 ≤ NONE)
    (hf : 6 * l.length + 10 ≤ fuel) :
    ((∃ out, triangulation2d fuel bins (flPts f l) = .ok out) ∨
      triangulation2d fuel bins (flPts f l) = .err .placementNotFound) ∧
    ∀ out, triangulation2d fuel bins (flPts f l) = .ok out →
      (∀ a b c, (a, b, c) ∈ out → ∃ A B C, (intPts l)[a]? = some A ∧ (intPts l)[b]? = some B ∧ (intPts l)[c]? = some C ∧
        Clockwise A B C) ∧
      (∀ (i j : Nat), i ≠ j → ∀ a b c a' b' c', out[i]? = some (a, b, c) → out[j]? = some (a', b', c') →
        ∀ A B C A' B' C', (intPts l)[a]? = some A → (intPts l)[b]? = some B → (intPts l)[c]? = some C →
          (intPts l)[a']? = some A' → (intPts l)[b']? = some B' → (intPts l)[c']? = some C' →
          ∀ q, ¬ (InTriangle A B C q ∧ InTriangle A' B' C' q)) ∧
      (∀ (i j : Nat) (t u : Out), out[i]? = some t → out[j]? = some u → i ≠ j → ∀ e,
        ¬ (e ∈ Spec.outEdges t ∧ e ∈ Spec.outEdges u)) ∧ out.length ≤ 2 * l.length - 2 := by
  have h := C44_grid l k hk he hl hW hb hc hi hf
  refine ⟨C10_rounded_partial h, fun out ho => ⟨C03_rounded h out ho, ?_, (C05_rounded_partial h out ho).1, ?_⟩⟩
  · intro i j hij a b c a' b' c' hi hj A B C A' B' C' gA gB gC gA' gB' gC' q
    exact C04_rounded_partial h out ho i j hij a b c a' b' c' hi hj A B C A' B' C' gA gB gC gA' gB' gC' q
  · have := C11_rounded h out ho
    rwa [show (flPts f l).length = l.length by simp [flPts]] at this

/-- For integer input the condition on the far ends of unbounded edges is a condition on exact hits. -/
theorem clearRays_of_int {l : List (Int × Int)} {k : Nat} {u : ℚ} (hu : 4800 * 4 ^ k * u ≤ 1)
    (h : ∀ a ∈ intPts l, ∀ b ∈ intPts l, ∀ f ∈ intPts l, ∀ d ∈ (axes : List (Vtx ℚ)),
      area2 a b ⟨f.x + 142 / 100 * 2 ^ k * d.x, f.y + 142 / 100 * 2 ^ k * d.y⟩ = 0 →
      (b.x - a.x) * (f.y + 142 / 100 * 2 ^ k * d.y - b.y) = 0 ∧ (b.y - a.y) * (f.x + 142 / 100 * 2 ^ k * d.x - b.x) = 0) :
    ClearRays u (2 ^ k) (intPts l) := by
  intro a ha b hb f hf _ _ d hd
  by_cases h0 : area2 a b ⟨f.x + 142 / 100 * 2 ^ k * d.x, f.y + 142 / 100 * 2 ^ k * d.y⟩ = 0
  · exact .inl (h a ha b hb f hf d hd h0)
  right
  have hz : ∃ z : ℤ, area2 a b ⟨f.x + 142 / 100 * 2 ^ k * d.x, f.y + 142 / 100 * 2 ^ k * d.y⟩ * 50 = z := by
    simp only [intPts, List.mem_map] at ha hb hf
    obtain ⟨a, -, rfl⟩ := ha
    obtain ⟨b, -, rfl⟩ := hb
    obtain ⟨f, -, rfl⟩ := hf
    have hd' : ∃ i j : ℤ, d.x = i ∧ d.y = j := by
      simp only [axes, List.mem_cons, List.not_mem_nil, or_false] at hd
      rcases hd with rfl | rfl | rfl | rfl
      · exact ⟨-1, 0, by simp, by simp⟩
      · exact ⟨0, 1, by simp, by simp⟩
      · exact ⟨1, 0, by simp, by simp⟩
      · exact ⟨0, -1, by simp, by simp⟩
    obtain ⟨i, j, hi, hj⟩ := hd'
    refine ⟨(b.1 - a.1) * (50 * f.2 + 71 * 2 ^ k * j - 50 * a.2) - (50 * f.1 + 71 * 2 ^ k * i - 50 * a.1) * (b.2 - a.2), ?_⟩
    simp only [area2, hi, hj]
    push_cast
    ring
  obtain ⟨z, hz⟩ := hz
  have hz0 : z ≠ 0 := by
    rintro rfl
    simp at hz
    exact h0 hz
  have h1 : (1 : ℚ) ≤ |(z : ℚ)| := by exact_mod_cast Int.one_le_abs hz0
  rw [← hz, abs_mul, abs_of_pos (by norm_num : (0 : ℚ) < 50)] at h1
  have e : ((2 : ℚ) ^ k) ^ 2 = 4 ^ k := by rw [← pow_mul, mul_comm, pow_mul]; norm_num
  rw [e]
  linarith

/-- **C44**, constrained runs: the hypotheses of the theorems on rounded constrained runs (C27–C31) hold for integer
input of extent `2^k` (`f64`: `k ≤ 12`, `f32`: `k ≤ 5`), if no line through two vertices hits exactly the far end of an unbounded edge. -/
theorem C44_constrained (l : List (Int × Int)) (k : Nat) (hk : 4 * k + 3 ≤ f.prec) (hk' : 4800 * 4 ^ k ≤ 2 ^ f.prec) (he : f.prec ≤ f.emax)
    (hl : ∀ p ∈ l, |p.1| ≤ 2 ^ f.prec ∧ |p.2| ≤ 2 ^ f.prec)
    (hW : Extent (2 ^ k) (intPts l)) (hb : 1 ≤ bins l.length) (hc : bins l.length < 2 ^ 64) (hi : 2 * l.length + 2 ≤ NONE)
    (hf : 6 * l.length + 10 ≤ fuel) (hf' : fuelFor l.length ≤ fuel)
    (h : ∀ a ∈ intPts l, ∀ b ∈ intPts l, ∀ g ∈ intPts l, ∀ d ∈ (axes : List (Vtx ℚ)),
      area2 a b ⟨g.x + 142 / 100 * 2 ^ k * d.x, g.y + 142 / 100 * 2 ^ k * d.y⟩ = 0 →
      (b.x - a.x) * (g.y + 142 / 100 * 2 ^ k * d.y - b.y) = 0 ∧ (b.y - a.y) * (g.x + 142 / 100 * 2 ^ k * d.x - b.x) = 0) :
    RGoodC fuel bins (flPts f l) (intPts l) (2 ^ k) where
  toRGood := C44_grid l k hk he hl hW hb hc hi hf
  ray := by
    refine clearRays_of_int ?_ h
    show 4800 * 4 ^ k * (1 / 2 ^ f.prec : ℚ) ≤ 1
    rw [mul_one_div, div_le_one (by positivity)]
    exact_mod_cast hk'
  fuelC := by rw [show (flPts f l).length = l.length by simp [flPts]]; exact hf'

end
end CDT

namespace CDT
open Witness Plane Rounded
local instance gridCfg : IdCfg := u32Cfg

/-- Nine points of extent 16: three on an oblique line, a square (four points on a circle), two equal points. -/
def gridSample : List (Int × Int) := [(-8,3), (8,19), (0,11), (-8,19), (8,3), (0,11), (3,7), (-2,9), (-4,15)]

theorem gridSample_good : RGood (F := F64) 100 defaultBins (flPts binary64 gridSample) (intPts gridSample) (2 ^ 4) :=
  C44_grid gridSample 4 (by decide) (by decide) (by decide) ⟨by norm_num, by decide +kernel, by decide +kernel⟩
    (by decide +kernel) (by decide +kernel) (by decide +kernel) (by decide)

/-- The sample in `f32`, translated and of extent 32. -/
theorem gridSample32_good : RGood (F := F32) 100 defaultBins
    (flPts binary32 (gridSample.map fun p => (2 * p.1 + 1000, 2 * p.2 - 7)))
    (intPts (gridSample.map fun p => (2 * p.1 + 1000, 2 * p.2 - 7))) (2 ^ 5) :=
  C44_grid _ 5 (by decide) (by decide) (by decide) ⟨by norm_num, by decide +kernel, by decide +kernel⟩
    (by decide +kernel) (by decide +kernel) (by decide +kernel) (by decide)

example : 4 * 12 + 3 ≤ binary64.prec ∧ 4800 * 4 ^ 12 ≤ 2 ^ binary64.prec ∧ 4 * 5 + 3 ≤ binary32.prec ∧
    4800 * 4 ^ 5 ≤ 2 ^ binary32.prec := by decide

/-- The sample is not robust: collinear vertices. -/
example : ¬ Robust (u F64) 16 (intPts gridSample) := by
  intro h
  have := h.turn ⟨-8, 3⟩ (by decide +kernel) ⟨8, 19⟩ (by decide +kernel) ⟨0, 11⟩ (by decide +kernel)
  revert this
  unfold area2
  decide +kernel

/-- The run: all points of the square are covered; vertex 2 is merged with vertex 5. -/
example : triangulation2d 100 defaultBins (flPts binary64 gridSample) =
    .ok [(3,1,8),(1,4,6),(4,0,6),(8,5,7),(6,0,7),(6,7,5),(1,6,5),(8,1,5),(8,7,0),(3,8,0)] := by decide +kernel

/-- A constrained run on the sample meets the additional condition. -/
theorem gridSample_goodC : RGoodC (F := F64) 420 defaultBins (flPts binary64 gridSample) (intPts gridSample) (2 ^ 4) :=
  C44_constrained gridSample 4 (by decide) (by decide) (by decide) (by decide) ⟨by norm_num, by decide +kernel, by decide +kernel⟩
    (by decide +kernel) (by decide +kernel) (by decide +kernel) (by decide) (by decide +kernel)
    (by unfold area2 axes; decide +kernel)

end CDT

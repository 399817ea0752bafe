import Verif.Spec.Visible
import Verif.Spec.Unique
import Verif.Props.Delaunay

/-! # C60: framed points, the output is the Delaunay triangulation, all of it -/

set_option linter.unusedSectionVars false

namespace CDT
open Plane

section Plain
variable {K : Type} [Field K] [LinearOrder K] [IsStrictOrderedRing K]

/-- The circumcenter of a proper triangle is unique. -/
theorem circumcenter_unique {m m' A B C : Vtx K} (h : area2 A B C ≠ 0) (h1 : Circumcenter m A B C) (h2 : Circumcenter m' A B C) :
    m = m' := by
  obtain ⟨a1, a2⟩ := h1
  obtain ⟨b1, b2⟩ := h2
  have hx : area2 A B C * (m.x - m'.x) = 0 := by
    unfold dist2 at *; unfold area2
    linear_combination (C.y - A.y) / 2 * (a1 - b1) - (B.y - A.y) / 2 * (a2 - b2)
  have hy : area2 A B C * (m.y - m'.y) = 0 := by
    unfold dist2 at *; unfold area2
    linear_combination (B.x - A.x) / 2 * (a2 - b2) - (C.x - A.x) / 2 * (a1 - b1)
  have hx := (mul_eq_zero.1 hx).resolve_left h
  have hy := (mul_eq_zero.1 hy).resolve_left h
  cases m; cases m'
  simp only at hx hy
  congr 1 <;> linarith

/-- Difference of the powers of a point for two circles. -/
theorem power_affine (m m' a a' : Vtx K) : ∃ α β γ : K, ∀ q : Vtx K,
    (dist2 m q - dist2 m a) - (dist2 m' q - dist2 m' a') = α + β * q.x + γ * q.y :=
  ⟨m.x ^ 2 + m.y ^ 2 - m'.x ^ 2 - m'.y ^ 2 - dist2 m a + dist2 m' a', 2 * (m'.x - m.x), 2 * (m'.y - m.y), fun q => by
    unfold dist2; ring⟩

/-- Two overlapping triangles whose circles contain no corner of the other one have the same circle. -/
theorem same_circle {A B C A' B' C' m m' p : Vtx K} (hc : Clockwise A B C) (hc' : Clockwise A' B' C') (hm : Circumcenter m A B C)
    (hm' : Circumcenter m' A' B' C') (hx : 3 * p.x = A.x + B.x + C.x) (hy : 3 * p.y = A.y + B.y + C.y) (hin : Spec.InClosed A' B' C' p)
    (o1 : dist2 m' A' ≤ dist2 m' A) (o2 : dist2 m' A' ≤ dist2 m' B) (o3 : dist2 m' A' ≤ dist2 m' C)
    (o1' : dist2 m A ≤ dist2 m A') (o2' : dist2 m A ≤ dist2 m B') (o3' : dist2 m A ≤ dist2 m C') :
    m = m' ∧ dist2 m A = dist2 m A' := by
  obtain ⟨α, β, γ, hf⟩ := power_affine m m' A A'
  have fA := hf A; have fB := hf B; have fC := hf C; have fA' := hf A'; have fB' := hf B'; have fC' := hf C'
  obtain ⟨e1, e2⟩ := hm
  obtain ⟨e1', e2'⟩ := hm'
  have bary : area2 A' B' C' * (α + β * p.x + γ * p.y) = area2 B' C' p * (α + β * A'.x + γ * A'.y) +
      area2 C' A' p * (α + β * B'.x + γ * B'.y) + area2 A' B' p * (α + β * C'.x + γ * C'.y) := by
    unfold area2; ring
  obtain ⟨i1, i2, i3⟩ := hin
  have n1 : area2 B' C' p * (α + β * A'.x + γ * A'.y) ≤ 0 := mul_nonpos_of_nonpos_of_nonneg i2 (by linarith)
  have n2 : area2 C' A' p * (α + β * B'.x + γ * B'.y) ≤ 0 := mul_nonpos_of_nonpos_of_nonneg i3 (by linarith)
  have n3 : area2 A' B' p * (α + β * C'.x + γ * C'.y) ≤ 0 := mul_nonpos_of_nonpos_of_nonneg i1 (by linarith)
  have hp : 0 ≤ α + β * p.x + γ * p.y := by
    by_contra hn
    have := mul_pos_of_neg_of_neg hc' (not_le.1 hn)
    linarith
  have sum : 3 * (α + β * p.x + γ * p.y) = (α + β * A.x + γ * A.y) + (α + β * B.x + γ * B.y) + (α + β * C.x + γ * C.y) := by
    linear_combination β * hx + γ * hy
  have zA : dist2 m' A = dist2 m' A' := by linarith
  have zB : dist2 m' B = dist2 m' A' := by linarith
  have zC : dist2 m' C = dist2 m' A' := by linarith
  have hmm : m = m' := circumcenter_unique (ne_of_lt hc) ⟨e1, e2⟩ ⟨by linarith, by linarith⟩
  subst hmm
  exact ⟨rfl, zA⟩

/-- Two clockwise triangles with the same corners differ by a rotation. -/
theorem same_corners {A B C P Q R : Vtx K} (hc : Clockwise A B C) (hc' : Clockwise P Q R) (hP : P = A ∨ P = B ∨ P = C)
    (hQ : Q = A ∨ Q = B ∨ Q = C) (hR : R = A ∨ R = B ∨ R = C) :
    (P = A ∧ Q = B ∧ R = C) ∨ (P = B ∧ Q = C ∧ R = A) ∨ (P = C ∧ Q = A ∧ R = B) := by
  unfold Clockwise at hc hc'
  rcases hP with rfl | rfl | rfl <;> rcases hQ with rfl | rfl | rfl <;> rcases hR with rfl | rfl | rfl <;>
    first | (simp; done) | (exfalso; unfold area2 at *; linarith)

/-- A Delaunay triangulation contains every triangle with an empty disc whose center of gravity it covers. -/
theorem delaunay_has {vs : List (Vtx K)} {out : List Out} (hd : Spec.Delaunay vs out) {A B C : Vtx K} (hA : A ∈ vs)
    (hB : B ∈ vs) (hC : C ∈ vs) (hc : Clockwise A B C) (he : Spec.EmptyDisc vs A B C)
    (hcov : Spec.Covered vs out ⟨(A.x + B.x + C.x) / 3, (A.y + B.y + C.y) / 3⟩) : Spec.Occurs vs out A B C := by
  obtain ⟨m, hm⟩ := exists_circumcenter A B C (ne_of_lt hc)
  have he := he m hm
  obtain ⟨o, ho, P, Q, R, gP, gQ, gR, hin⟩ := hcov
  obtain ⟨P', Q', R', gP', gQ', gR', hc', hn⟩ := hd o ho
  rw [gP] at gP'; rw [gQ] at gQ'; rw [gR] at gR'
  cases gP'; cases gQ'; cases gR'
  obtain ⟨m', hm'⟩ := exists_circumcenter P Q R (ne_of_lt hc')
  have out' : ∀ q ∈ vs, dist2 m' P ≤ dist2 m' q := fun q hq => not_lt.1 fun h => hn q hq ⟨m', hm', h⟩
  have hP := List.mem_of_getElem? gP
  have hQ := List.mem_of_getElem? gQ
  have hR := List.mem_of_getElem? gR
  have outA : ∀ q ∈ vs, dist2 m A ≤ dist2 m q := by
    intro q hq
    rcases he q hq with rfl | rfl | rfl | h
    · exact le_rfl
    · exact hm.1.le
    · exact hm.2.le
    · exact h.le
  obtain ⟨rfl, hAP⟩ := same_circle hc hc' hm hm' (p := ⟨(A.x + B.x + C.x) / 3, (A.y + B.y + C.y) / 3⟩) (by simp only; ring)
    (by simp only; ring) hin (out' A hA) (out' B hB) (out' C hC) (outA P hP) (outA Q hQ) (outA R hR)
  have on : ∀ q ∈ vs, dist2 m q = dist2 m A → q = A ∨ q = B ∨ q = C := by
    intro q hq h
    rcases he q hq with h' | h' | h' | h'
    · exact .inl h'
    · exact .inr (.inl h')
    · exact .inr (.inr h')
    · linarith
  exact ⟨o, ho, P, Q, R, gP, gQ, gR, same_corners hc hc' (on P hP hAP.symm) (on Q hQ (by rw [← hm'.1, hAP])) (on R hR (by rw [← hm'.2, hAP]))⟩

/-- A Delaunay triangulation that covers a rectangle around the points contains every triangle with an empty disc. -/
theorem delaunay_complete {vs : List (Vtx K)} {out : List Out} {x0 x1 y0 y1 : K} (hd : Spec.Delaunay vs out)
    (hcov : Spec.Covers vs out x0 x1 y0 y1) (hr : ∀ q ∈ vs, x0 ≤ q.x ∧ q.x ≤ x1 ∧ y0 ≤ q.y ∧ q.y ≤ y1) {A B C : Vtx K} (hA : A ∈ vs)
    (hB : B ∈ vs) (hC : C ∈ vs) (hc : Clockwise A B C) (he : Spec.EmptyDisc vs A B C) : Spec.Occurs vs out A B C := by
  have rA := hr A hA; have rB := hr B hB; have rC := hr C hC
  have lt : ∀ {a b c u : K}, u ≤ a → u ≤ b → u ≤ c → ¬ (a = u ∧ b = u ∧ c = u) → u < (a + b + c) / 3 := by
    intro a b c u h1 h2 h3 hn
    rcases lt_or_eq_of_le h1 with h | h
    · linarith
    rcases lt_or_eq_of_le h2 with h' | h'
    · linarith
    rcases lt_or_eq_of_le h3 with h'' | h''
    · linarith
    exact absurd ⟨h.symm, h'.symm, h''.symm⟩ hn
  have nx : ∀ u, ¬ (A.x = u ∧ B.x = u ∧ C.x = u) := by
    rintro u ⟨e1, e2, e3⟩; unfold Clockwise area2 at hc; rw [e1, e2, e3] at hc; linarith
  have ny : ∀ u, ¬ (A.y = u ∧ B.y = u ∧ C.y = u) := by
    rintro u ⟨e1, e2, e3⟩; unfold Clockwise area2 at hc; rw [e1, e2, e3] at hc; linarith
  have px0 := lt rA.1 rB.1 rC.1 (nx x0)
  have py0 := lt rA.2.2.1 rB.2.2.1 rC.2.2.1 (ny y0)
  have px1 := lt (neg_le_neg rA.2.1) (neg_le_neg rB.2.1) (neg_le_neg rC.2.1) (fun h => nx x1 ⟨by linarith [h.1], by linarith [h.2.1], by linarith [h.2.2]⟩)
  have py1 := lt (neg_le_neg rA.2.2.2) (neg_le_neg rB.2.2.2) (neg_le_neg rC.2.2.2)
    (fun h => ny y1 ⟨by linarith [h.1], by linarith [h.2.1], by linarith [h.2.2]⟩)
  exact delaunay_has hd hA hB hC hc he (hcov ⟨(A.x + B.x + C.x) / 3, (A.y + B.y + C.y) / 3⟩ px0 (by simp only; linarith) py0
    (by simp only; linarith))

/-- Without four points on a circle an empty circle is an empty disc. -/
theorem emptyDisc_of_general {vs : List (Vtx K)} (hg : Spec.NoFourOnEmptyCircle vs) {A B C : Vtx K} (hA : A ∈ vs) (hB : B ∈ vs) (hC : C ∈ vs)
    (hc : Clockwise A B C) (hn : ∀ q ∈ vs, ¬ InCircle A B C q) : Spec.EmptyDisc vs A B C := by
  have n1 : A ≠ B := by rintro rfl; unfold Clockwise area2 at hc; linarith
  have n2 : B ≠ C := by rintro rfl; unfold Clockwise area2 at hc; linarith
  have n3 : C ≠ A := by rintro rfl; unfold Clockwise area2 at hc; linarith
  intro m hm q hq
  by_cases e1 : q = A
  · exact .inl e1
  by_cases e2 : q = B
  · exact .inr (.inl e2)
  by_cases e3 : q = C
  · exact .inr (.inr (.inl e3))
  refine .inr (.inr (.inr (lt_of_le_of_ne (not_lt.1 fun h => hn q hq ⟨m, hm, h⟩) ?_)))
  exact (hg A hA B hB C hC q hq n1 n2 n3 e1 e2 e3 m hm fun q' hq' => not_lt.1 fun h => hn q' hq' ⟨m, hm, h⟩).symm

/-- The triangles of a Delaunay triangulation with all triangles that have an empty disc, if no four points are on a circle. -/
theorem delaunay_exact {vs : List (Vtx K)} {out : List Out} (hd : Spec.Delaunay vs out)
    (hall : ∀ A ∈ vs, ∀ B ∈ vs, ∀ C ∈ vs, Clockwise A B C → Spec.EmptyDisc vs A B C → Spec.Occurs vs out A B C)
    (hg : Spec.NoFourOnEmptyCircle vs) (A B C : Vtx K) : Spec.Occurs vs out A B C ↔ A ∈ vs ∧ B ∈ vs ∧ C ∈ vs ∧ Clockwise A B C ∧ ∀ q ∈ vs, ¬ InCircle A B C q := by
  constructor
  · rintro ⟨o, ho, P, Q, R, gP, gQ, gR, h⟩
    obtain ⟨P', Q', R', gP', gQ', gR', hc', hn⟩ := hd o ho
    rw [gP] at gP'; rw [gQ] at gQ'; rw [gR] at gR'
    cases gP'; cases gQ'; cases gR'
    have hP := List.mem_of_getElem? gP
    have hQ := List.mem_of_getElem? gQ
    have hR := List.mem_of_getElem? gR
    unfold Clockwise at *
    rcases h with ⟨rfl, rfl, rfl⟩ | ⟨rfl, rfl, rfl⟩ | ⟨rfl, rfl, rfl⟩
    · exact ⟨hP, hQ, hR, hc', hn⟩
    · refine ⟨hR, hP, hQ, by rw [← area2_cyc]; exact hc', ?_⟩
      rintro q hq ⟨m, ⟨e1, e2⟩, h⟩
      exact hn q hq ⟨m, ⟨by rw [← e1, e2], e1.symm⟩, by rw [← e1]; exact h⟩
    · refine ⟨hQ, hR, hP, by rw [area2_cyc]; exact hc', ?_⟩
      rintro q hq ⟨m, ⟨e1, e2⟩, h⟩
      exact hn q hq ⟨m, ⟨e2.symm, by rw [← e2, e1]⟩, by rw [← e2]; exact h⟩
  · rintro ⟨hA, hB, hC, hc, hn⟩
    exact hall A hA B hB C hC hc (emptyDisc_of_general hg hA hB hC hc hn)

/-- The triangles of a Delaunay triangulation that covers the rectangle, if no four points are on a circle. -/
theorem delaunay_iff {vs : List (Vtx K)} {out : List Out} {x0 x1 y0 y1 : K} (hd : Spec.Delaunay vs out)
    (hcov : Spec.Covers vs out x0 x1 y0 y1) (hr : ∀ q ∈ vs, x0 ≤ q.x ∧ q.x ≤ x1 ∧ y0 ≤ q.y ∧ q.y ≤ y1) (hg : Spec.NoFourOnEmptyCircle vs)
    (A B C : Vtx K) : Spec.Occurs vs out A B C ↔ A ∈ vs ∧ B ∈ vs ∧ C ∈ vs ∧ Clockwise A B C ∧ ∀ q ∈ vs, ¬ InCircle A B C q :=
  delaunay_exact hd (fun _ hA _ hB _ hC hc he => delaunay_complete hd hcov hr hA hB hC hc he) hg A B C

theorem framed_range {vs : List (Vtx K)} {x0 x1 y0 y1 : K} (hf : Spec.Framed vs x0 x1 y0 y1) :
    ∀ q ∈ vs, x0 ≤ q.x ∧ q.x ≤ x1 ∧ y0 ≤ q.y ∧ q.y ≤ y1 := by
  obtain ⟨hx, hy, pts, corners, rfl, hperm, hp⟩ := hf
  intro q hq
  rcases List.mem_append.1 hq with h | h
  · have := hp q h; exact ⟨this.1.le, this.2.1.le, this.2.2.1.le, this.2.2.2.le⟩
  · have := hperm.subset h
    simp only [List.mem_cons, List.not_mem_nil, or_false] at this
    rcases this with rfl | rfl | rfl | rfl <;> simp [hx.le, hy.le]

end Plain

variable {K : Type} [Field K] [LinearOrder K] [IsStrictOrderedRing K] [ExactParams K] [IdCfg]

/-- **C60**: framed points, one bin. The output contains every triangle whose disc contains no other point. -/
theorem C60_complete (hcfg : RealCfg) (fuel : Nat) (bins : Nat → Nat) (vs : List (Vtx K)) (h : Good fuel bins vs) (h1 : bins vs.length = 1)
    (x0 x1 y0 y1 : K) (hf : Spec.Framed vs x0 x1 y0 y1) : ∃ out, triangulation2d fuel bins vs = .ok out ∧
      ∀ A ∈ vs, ∀ B ∈ vs, ∀ C ∈ vs, Clockwise A B C → Spec.EmptyDisc vs A B C → Spec.Occurs vs out A B C := by
  obtain ⟨out, ho, hd, hc⟩ := C53_framed hcfg fuel bins vs h h1 x0 x1 y0 y1 hf
  exact ⟨out, ho, fun A hA B hB C hC hcw he => delaunay_complete hd hc (framed_range hf) hA hB hC hcw he⟩

/-- **C60**: framed points of which no four are on an empty circle, one bin. The output consists exactly of the clockwise triangles
whose circle contains no point. -/
theorem C60_exact (hcfg : RealCfg) (fuel : Nat) (bins : Nat → Nat) (vs : List (Vtx K)) (h : Good fuel bins vs) (h1 : bins vs.length = 1)
    (x0 x1 y0 y1 : K) (hf : Spec.Framed vs x0 x1 y0 y1) (hg : Spec.NoFourOnEmptyCircle vs) : ∃ out, triangulation2d fuel bins vs = .ok out ∧
      ∀ A B C, Spec.Occurs vs out A B C ↔ A ∈ vs ∧ B ∈ vs ∧ C ∈ vs ∧ Clockwise A B C ∧ ∀ q ∈ vs, ¬ InCircle A B C q := by
  obtain ⟨out, ho, hd, hc⟩ := C53_framed hcfg fuel bins vs h h1 x0 x1 y0 y1 hf
  exact ⟨out, ho, delaunay_iff hd hc (framed_range hf) hg⟩

/-- **C60**, the order of the points does not matter: two lists of the same points in the same frame give the same triangles. -/
theorem C60_order (hcfg : RealCfg) (fuel fuel' : Nat) (bins bins' : Nat → Nat) (vs vs' : List (Vtx K)) (h : Good fuel bins vs)
    (h' : Good fuel' bins' vs') (h1 : bins vs.length = 1) (h1' : bins' vs'.length = 1) (x0 x1 y0 y1 : K) (hf : Spec.Framed vs x0 x1 y0 y1)
    (hf' : Spec.Framed vs' x0 x1 y0 y1) (hs : ∀ q, q ∈ vs ↔ q ∈ vs') (hg : Spec.NoFourOnEmptyCircle vs) :
    ∃ out out', triangulation2d fuel bins vs = .ok out ∧ triangulation2d fuel' bins' vs' = .ok out' ∧
      ∀ A B C, Spec.Occurs vs out A B C ↔ Spec.Occurs vs' out' A B C := by
  have hg' : Spec.NoFourOnEmptyCircle vs' := by simpa only [Spec.NoFourOnEmptyCircle, hs] using hg
  obtain ⟨out, ho, hi⟩ := C60_exact hcfg fuel bins vs h h1 x0 x1 y0 y1 hf hg
  obtain ⟨out', ho', hi'⟩ := C60_exact hcfg fuel' bins' vs' h' h1' x0 x1 y0 y1 hf' hg'
  exact ⟨out, out', ho, ho', fun A B C => by rw [hi, hi']; simp only [hs]⟩

/-- **C60** in rounded arithmetic (`f32`, `f64`) on robust inputs and on grids. -/
theorem C60_complete_rounded {F : Type} [FloatOps F] [Rounded F] (hcfg : RealCfg) (fuel : Nat) (bins : Nat → Nat) (vs : List (Vtx F))
    (V : List (Vtx ℚ)) (W : ℚ) (h : Rounded.RGood fuel bins vs V W) (h1 : bins vs.length = 1) (x0 x1 y0 y1 : ℚ)
    (hf : Spec.Framed V x0 x1 y0 y1) : ∃ out, triangulation2d fuel bins vs = .ok out ∧
      ∀ A ∈ V, ∀ B ∈ V, ∀ C ∈ V, Clockwise A B C → Spec.EmptyDisc V A B C → Spec.Occurs V out A B C := by
  obtain ⟨out, ho, hd, hc⟩ := C53_framed_rounded hcfg fuel bins vs V W h h1 x0 x1 y0 y1 hf
  exact ⟨out, ho, fun A hA B hB C hC hcw he => delaunay_complete hd hc (framed_range hf) hA hB hC hcw he⟩

/-- **C60** in rounded arithmetic (`f32`, `f64`) on robust inputs and on grids. In particular both formats give the same
triangles. -/
theorem C60_exact_rounded {F : Type} [FloatOps F] [Rounded F] (hcfg : RealCfg) (fuel : Nat) (bins : Nat → Nat) (vs : List (Vtx F))
    (V : List (Vtx ℚ)) (W : ℚ) (h : Rounded.RGood fuel bins vs V W) (h1 : bins vs.length = 1) (x0 x1 y0 y1 : ℚ)
    (hf : Spec.Framed V x0 x1 y0 y1) (hg : Spec.NoFourOnEmptyCircle V) : ∃ out, triangulation2d fuel bins vs = .ok out ∧
      ∀ A B C, Spec.Occurs V out A B C ↔ A ∈ V ∧ B ∈ V ∧ C ∈ V ∧ Clockwise A B C ∧ ∀ q ∈ V, ¬ InCircle A B C q := by
  obtain ⟨out, ho, hd, hc⟩ := C53_framed_rounded hcfg fuel bins vs V W h h1 x0 x1 y0 y1 hf
  exact ⟨out, ho, delaunay_iff hd hc (framed_range hf) hg⟩

section Test
variable {K : Type} [Field K] [LinearOrder K] [IsStrictOrderedRing K]

/-- The circumcenter. -/
def centerOf (a b c : Vtx K) : Vtx K :=
  ⟨a.x + ((c.y - a.y) * dist2 a b - (b.y - a.y) * dist2 a c) / (2 * area2 a b c),
   a.y + ((b.x - a.x) * dist2 a c - (c.x - a.x) * dist2 a b) / (2 * area2 a b c)⟩

theorem centerOf_spec (a b c : Vtx K) (h : area2 a b c ≠ 0) : Circumcenter (centerOf a b c) a b c := by
  have h2 : 2 * area2 a b c ≠ 0 := by simpa using h
  constructor
  · unfold centerOf dist2
    simp only
    field_simp
    unfold area2; ring
  · unfold centerOf dist2
    simp only
    field_simp
    unfold area2; ring

/-- Three different points on a circle are not on a line. -/
theorem area_ne_of_circle {m A B C : Vtx K} (hm : Circumcenter m A B C) (n1 : A ≠ B) (n2 : B ≠ C) (n3 : C ≠ A) : area2 A B C ≠ 0 := by
  intro h
  obtain ⟨h1, h2⟩ := hm
  have sq : ∀ {P Q : Vtx K}, P ≠ Q → dist2 P Q ≠ 0 := by
    intro P Q hn h0
    unfold dist2 at h0
    have hx : P.x - Q.x = 0 := by
      have := sq_nonneg (P.x - Q.x); have := sq_nonneg (P.y - Q.y)
      exact pow_eq_zero_iff (two_ne_zero) |>.1 (by linarith)
    have hy : P.y - Q.y = 0 := by
      have := sq_nonneg (P.x - Q.x); have := sq_nonneg (P.y - Q.y)
      exact pow_eq_zero_iff (two_ne_zero) |>.1 (by linarith)
    apply hn
    cases P; cases Q
    simp only at hx hy
    congr 1 <;> linarith
  have a1 : dist2 A B * dist2 A C = dist2 A B * ((B.x - A.x) * (C.x - A.x) + (B.y - A.y) * (C.y - A.y)) := by
    unfold dist2 area2 at *
    linear_combination -((B.x - A.x) ^ 2 + (B.y - A.y) ^ 2) * h2 + ((B.x - A.x) * (C.x - A.x) + (B.y - A.y) * (C.y - A.y)) * h1 +
      2 * ((B.x - A.x) * (m.y - A.y) - (B.y - A.y) * (m.x - A.x)) * h
  have a2 : dist2 A C * dist2 A B = dist2 A C * ((B.x - A.x) * (C.x - A.x) + (B.y - A.y) * (C.y - A.y)) := by
    unfold dist2 area2 at *
    linear_combination -((C.x - A.x) ^ 2 + (C.y - A.y) ^ 2) * h1 + ((B.x - A.x) * (C.x - A.x) + (B.y - A.y) * (C.y - A.y)) * h2 -
      2 * ((C.x - A.x) * (m.y - A.y) - (C.y - A.y) * (m.x - A.x)) * h
  have b1 := mul_left_cancel₀ (sq n1) a1
  have b2 := mul_left_cancel₀ (sq n3.symm) a2
  exact sq n2 (by unfold dist2 at *; linear_combination b1 + b2)

/-- Test of `Spec.NoFourOnEmptyCircle`. -/
def generalCheck (vs : List (Vtx K)) : Bool := vs.all fun A => vs.all fun B => vs.all fun C =>
  decide (area2 A B C = 0) || (vs.any fun q => decide (dist2 (centerOf A B C) q < dist2 (centerOf A B C) A)) ||
    (vs.all fun q => decide (q.x = A.x ∧ q.y = A.y) || decide (q.x = B.x ∧ q.y = B.y) || decide (q.x = C.x ∧ q.y = C.y) ||
      decide (dist2 (centerOf A B C) q ≠ dist2 (centerOf A B C) A))

theorem general_of_check {vs : List (Vtx K)} (h : generalCheck vs = true) : Spec.NoFourOnEmptyCircle vs := by
  intro A hA B hB C hC D hD n1 n2 n3 e1 e2 e3 m hm hem
  have ha := area_ne_of_circle hm n1 n2 n3
  have := circumcenter_unique ha hm (centerOf_spec A B C ha)
  have hk := List.all_eq_true.1 (List.all_eq_true.1 (List.all_eq_true.1 h A hA) B hB) C hC
  rw [← this] at hk
  simp only [Bool.or_eq_true, decide_eq_true_eq, List.any_eq_true, List.all_eq_true] at hk
  rcases hk with (hk | ⟨q, hq, hk⟩) | hk
  · exact absurd hk ha
  · exact absurd hk (not_lt.2 (hem q hq))
  · rcases hk D hD with ((hk | hk) | hk) | hk
    · exact absurd (by cases D; cases A; simp_all) e1
    · exact absurd (by cases D; cases B; simp_all) e2
    · exact absurd (by cases D; cases C; simp_all) e3
    · exact hk

end Test

end CDT

namespace CDT
section Example
open Rounded
local instance uniqueCfg : IdCfg := u32Cfg

/-- Six points in a frame, and the same points in another order. -/
def uniqueGrid : List (Int × Int) := [(2,7),(7,3),(6,2),(6,5),(2,4),(5,1),(0,0),(8,0),(8,8),(0,8)]
def uniqueGrid' : List (Int × Int) := [(5,1),(6,5),(2,7),(2,4),(6,2),(7,3),(8,8),(0,8),(0,0),(8,0)]

theorem unique_good : RGood (F := F64) 506 (fun _ => 1) (flPts binary64 uniqueGrid) (intPts uniqueGrid) (2 ^ 3) :=
  C44_grid uniqueGrid 3 (by decide) (by decide) (by decide) ⟨by norm_num, by decide +kernel, by decide +kernel⟩
      (by decide +kernel) (by decide +kernel) (by decide +kernel) (by decide)

theorem unique_good' : RGood (F := F64) 506 (fun _ => 1) (flPts binary64 uniqueGrid') (intPts uniqueGrid') (2 ^ 3) :=
  C44_grid uniqueGrid' 3 (by decide) (by decide) (by decide) ⟨by norm_num, by decide +kernel, by decide +kernel⟩
      (by decide +kernel) (by decide +kernel) (by decide +kernel) (by decide)

theorem unique_framed : Spec.Framed (intPts uniqueGrid) 0 8 0 8 :=
  ⟨by norm_num, by norm_num, intPts [(2,7),(7,3),(6,2),(6,5),(2,4),(5,1)], intPts [(0,0),(8,0),(8,8),(0,8)], rfl,
    by decide +kernel, by decide +kernel⟩

theorem unique_framed' : Spec.Framed (intPts uniqueGrid') 0 8 0 8 :=
  ⟨by norm_num, by norm_num, intPts [(5,1),(6,5),(2,7),(2,4),(6,2),(7,3)], intPts [(8,8),(0,8),(0,0),(8,0)], rfl,
    by decide +kernel, by decide +kernel⟩

/-- The hypotheses of `C60_exact_rounded` hold for both lists. -/
example : Spec.NoFourOnEmptyCircle (intPts uniqueGrid) ∧ Spec.NoFourOnEmptyCircle (intPts uniqueGrid') ∧
    ∀ q, q ∈ intPts uniqueGrid ↔ q ∈ intPts uniqueGrid' :=
  ⟨general_of_check (by decide +kernel), general_of_check (by decide +kernel), fun q =>
    ⟨fun h => (by decide +kernel : ∀ q ∈ intPts uniqueGrid, q ∈ intPts uniqueGrid') q h,
     fun h => (by decide +kernel : ∀ q ∈ intPts uniqueGrid', q ∈ intPts uniqueGrid) q h⟩⟩

/-- The two outputs, in `f64`. -/
example : triangulation2d 506 (fun _ => 1) (flPts binary64 uniqueGrid) ≠ triangulation2d 506 (fun _ => 1) (flPts binary64 uniqueGrid') := by
  decide +kernel

end Example
end CDT

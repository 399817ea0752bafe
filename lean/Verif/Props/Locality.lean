import Verif.Props.CertUnique

/-!
# C99: a change of the input changes the result only close to it

Two runs on different vertices, possibly in another order, with other bins or in another number format. The triangles whose circle
contains no vertex that belongs to one input only are the same. One more vertex replaces exactly the triangles whose circle contains it
by triangles at this vertex, which fill the same region.
-/

set_option linter.unusedSectionVars false

namespace CDT
open Plane

section Plain
variable {K : Type} [Field K] [LinearOrder K] [IsStrictOrderedRing K]

/-- `p` is on no line through two different positions. -/
def Spec.OffVertexLines (vs : List (Vtx K)) (p : Vtx K) : Prop := ∀ A ∈ vs, ∀ B ∈ vs, A ≠ B → area2 A B p ≠ 0

/-- The positions of the second list are those of the first and `Q`, which is new. -/
def Spec.OneMore (vs vs' : List (Vtx K)) (Q : Vtx K) : Prop := Q ∉ vs ∧ ∀ q, q ∈ vs' ↔ q ∈ vs ∨ q = Q

/-- A result that consists exactly of the triangles with an empty circle, covers the convex hull and does not overlap itself. -/
structure Exactly (vs : List (Vtx K)) (out : List Out) : Prop where
  iff : ∀ A B C, Spec.Occurs vs out A B C ↔ A ∈ vs ∧ B ∈ vs ∧ C ∈ vs ∧ Clockwise A B C ∧ ∀ q ∈ vs, ¬ InCircle A B C q
  cov : Spec.CoversConvex vs out
  dis : ∀ (i j : Nat), i ≠ j → ∀ a b c a' b' c' : Nat, out[i]? = some (a, b, c) → out[j]? = some (a', b', c') →
    ∀ A B C A' B' C' : Vtx K, vs[a]? = some A → vs[b]? = some B → vs[c]? = some C → vs[a']? = some A' → vs[b']? = some B' →
      vs[c']? = some C' → ∀ q, ¬ (InTriangle A B C q ∧ InTriangle A' B' C' q)

variable {vs vs' : List (Vtx K)} {out out' : List Out}

theorem occurs_cyc {A B C : Vtx K} (h : Spec.Occurs vs out A B C) : Spec.Occurs vs out B C A := by
  obtain ⟨o, ho, P, Q, R, h1, h2, h3, h4⟩ := h
  refine ⟨o, ho, P, Q, R, h1, h2, h3, ?_⟩
  rcases h4 with ⟨rfl, rfl, rfl⟩ | ⟨rfl, rfl, rfl⟩ | ⟨rfl, rfl, rfl⟩
  · exact .inr (.inr ⟨rfl, rfl, rfl⟩)
  · exact .inl ⟨rfl, rfl, rfl⟩
  · exact .inr (.inl ⟨rfl, rfl, rfl⟩)

/-- Triangles with a common inner point are the same. -/
theorem Exactly.same (h : Exactly vs out) {A B C A' B' C' p : Vtx K} (h1 : Spec.Occurs vs out A B C) (h2 : Spec.Occurs vs out A' B' C')
    (hp : InTriangle A B C p) (hp' : InTriangle A' B' C' p) :
    (A' = A ∧ B' = B ∧ C' = C) ∨ (A' = B ∧ B' = C ∧ C' = A) ∨ (A' = C ∧ B' = A ∧ C' = B) := by
  obtain ⟨o, ho, P, Q, R, g1, g2, g3, g4⟩ := h1
  obtain ⟨o', ho', P', Q', R', g1', g2', g3', g4'⟩ := h2
  obtain ⟨i, hi⟩ := List.mem_iff_getElem?.1 ho
  obtain ⟨j, hj⟩ := List.mem_iff_getElem?.1 ho'
  have hP : InTriangle P Q R p := by
    rcases g4 with ⟨rfl, rfl, rfl⟩ | ⟨rfl, rfl, rfl⟩ | ⟨rfl, rfl, rfl⟩
    · exact hp
    · exact ⟨hp.2.1, hp.2.2, hp.1⟩
    · exact ⟨hp.2.2, hp.1, hp.2.1⟩
  have hP' : InTriangle P' Q' R' p := by
    rcases g4' with ⟨rfl, rfl, rfl⟩ | ⟨rfl, rfl, rfl⟩ | ⟨rfl, rfl, rfl⟩
    · exact hp'
    · exact ⟨hp'.2.1, hp'.2.2, hp'.1⟩
    · exact ⟨hp'.2.2, hp'.1, hp'.2.1⟩
  by_cases hij : i = j
  · subst hij
    rw [hi] at hj
    cases hj
    rw [g1] at g1'; rw [g2] at g2'; rw [g3] at g3'
    cases g1'; cases g2'; cases g3'
    rcases g4 with ⟨rfl, rfl, rfl⟩ | ⟨rfl, rfl, rfl⟩ | ⟨rfl, rfl, rfl⟩ <;>
      rcases g4' with ⟨rfl, rfl, rfl⟩ | ⟨rfl, rfl, rfl⟩ | ⟨rfl, rfl, rfl⟩ <;> simp
  · exact absurd ⟨hP, hP'⟩ (h.dis i j hij _ _ _ _ _ _ hi hj _ _ _ _ _ _ g1 g2 g3 g1' g2' g3' p)

/-- A point of the convex hull that is on no line through two positions is strictly inside a triangle. -/
theorem Exactly.inside (h : Exactly vs out) {p : Vtx K} (hp : Spec.InHull vs p) (hg : Spec.OffVertexLines vs p) :
    ∃ A B C, Spec.Occurs vs out A B C ∧ InTriangle A B C p := by
  obtain ⟨o, ho, A, B, C, g1, g2, g3, g4, g5, g6⟩ := h.cov p hp
  have hocc : Spec.Occurs vs out A B C := ⟨o, ho, A, B, C, g1, g2, g3, .inl ⟨rfl, rfl, rfl⟩⟩
  obtain ⟨hA, hB, hC, hcw, -⟩ := (h.iff A B C).1 hocc
  have n1 : A ≠ B := by rintro rfl; unfold Clockwise area2 at hcw; ring_nf at hcw; exact lt_irrefl _ hcw
  have n2 : B ≠ C := by rintro rfl; unfold Clockwise area2 at hcw; ring_nf at hcw; exact lt_irrefl _ hcw
  have n3 : C ≠ A := by rintro rfl; unfold Clockwise area2 at hcw; ring_nf at hcw; exact lt_irrefl _ hcw
  exact ⟨A, B, C, hocc, lt_of_le_of_ne g4 (hg A hA B hB n1), lt_of_le_of_ne g5 (hg B hB C hC n2), lt_of_le_of_ne g6 (hg C hC A hA n3)⟩

/-- The triangles whose circle contains no changed position are the same. -/
theorem Exactly.local (h : Exactly vs out) (h' : Exactly vs' out') {A B C : Vtx K} (hA : A ∈ vs ↔ A ∈ vs') (hB : B ∈ vs ↔ B ∈ vs')
    (hC : C ∈ vs ↔ C ∈ vs') (hq : ∀ q, InCircle A B C q → (q ∈ vs ↔ q ∈ vs')) : Spec.Occurs vs out A B C ↔ Spec.Occurs vs' out' A B C := by
  rw [h.iff, h'.iff, hA, hB, hC]
  refine and_congr_right fun _ => and_congr_right fun _ => and_congr_right fun _ => and_congr_right fun _ => ?_
  exact ⟨fun g q hm hin => g q ((hq q hin).2 hm) hin, fun g q hm hin => g q ((hq q hin).1 hm) hin⟩

/-- One more position removes exactly the triangles whose circle contains it, and the new triangles are at this position. -/
theorem Exactly.oneMore (h : Exactly vs out) (h' : Exactly vs' out') {Q : Vtx K} (hm : Spec.OneMore vs vs' Q) (A B C : Vtx K) :
    (Spec.Occurs vs' out' A B C ∧ A ≠ Q ∧ B ≠ Q ∧ C ≠ Q) ↔ (Spec.Occurs vs out A B C ∧ ¬ InCircle A B C Q) := by
  obtain ⟨hQ, hv⟩ := hm
  rw [h.iff, h'.iff]
  constructor
  · rintro ⟨⟨hA, hB, hC, hc, he⟩, nA, nB, nC⟩
    refine ⟨⟨((hv A).1 hA).resolve_right nA, ((hv B).1 hB).resolve_right nB, ((hv C).1 hC).resolve_right nC, hc,
      fun q hq => he q ((hv q).2 (.inl hq))⟩, he Q ((hv Q).2 (.inr rfl))⟩
  · rintro ⟨⟨hA, hB, hC, hc, he⟩, hn⟩
    refine ⟨⟨(hv A).2 (.inl hA), (hv B).2 (.inl hB), (hv C).2 (.inl hC), hc, fun q hq => ?_⟩, ?_, ?_, ?_⟩
    · rcases (hv q).1 hq with hq | rfl
      · exact he q hq
      · exact hn
    · rintro rfl; exact hQ hA
    · rintro rfl; exact hQ hB
    · rintro rfl; exact hQ hC

/-- The removed triangles fill the same region as the new ones. -/
theorem Exactly.cavity (h : Exactly vs out) (h' : Exactly vs' out') {Q : Vtx K} (hm : Spec.OneMore vs vs' Q) {p : Vtx K}
    (hp : Spec.InHull vs p) (hg : Spec.OffVertexLines vs' p) :
    (∃ A B C, Spec.Occurs vs out A B C ∧ InCircle A B C Q ∧ InTriangle A B C p) ↔
      (∃ A B, Spec.Occurs vs' out' A B Q ∧ InTriangle A B Q p) := by
  have hv := hm.2
  have hg0 : Spec.OffVertexLines vs p := fun A hA B hB => hg A ((hv A).2 (.inl hA)) B ((hv B).2 (.inl hB))
  have hp' : Spec.InHull vs' p := fun A B hall => hp A B fun v hv' => hall v ((hv v).2 (.inl hv'))
  constructor
  · rintro ⟨A, B, C, hO, hin, hT⟩
    obtain ⟨A', B', C', hO', hT'⟩ := h'.inside hp' hg
    by_cases nA : A' = Q
    · subst nA; exact ⟨B', C', occurs_cyc hO', hT'.2.1, hT'.2.2, hT'.1⟩
    by_cases nB : B' = Q
    · subst nB; exact ⟨C', A', occurs_cyc (occurs_cyc hO'), hT'.2.2, hT'.1, hT'.2.1⟩
    by_cases nC : C' = Q
    · subst nC; exact ⟨A', B', hO', hT'⟩
    obtain ⟨hO2, hn⟩ := (h.oneMore h' hm A' B' C').1 ⟨hO', nA, nB, nC⟩
    refine absurd ?_ hn
    rcases h.same hO hO2 hT hT' with ⟨rfl, rfl, rfl⟩ | ⟨rfl, rfl, rfl⟩ | ⟨rfl, rfl, rfl⟩
    · exact hin
    · exact inCircle_cyc hin
    · exact inCircle_cyc (inCircle_cyc hin)
  · rintro ⟨A, B, hO, hT⟩
    obtain ⟨A', B', C', hO', hT'⟩ := h.inside hp hg0
    by_cases hin : InCircle A' B' C' Q
    · exact ⟨A', B', C', hO', hin, hT'⟩
    obtain ⟨hO2, nA, nB, nC⟩ := (h.oneMore h' hm A' B' C').2 ⟨hO', hin⟩
    rcases h'.same hO hO2 hT hT' with ⟨-, -, e⟩ | ⟨-, e, -⟩ | ⟨e, -, -⟩
    · exact absurd e nC
    · exact absurd e nB
    · exact absurd e nA

/-- The convex hull grows by triangles at the new position. -/
theorem Exactly.grow (h : Exactly vs out) (h' : Exactly vs' out') {Q : Vtx K} (hm : Spec.OneMore vs vs' Q) {p : Vtx K}
    (hp : Spec.InHull vs' p) (hn : ¬ Spec.InHull vs p) (hg : Spec.OffVertexLines vs' p) :
    ∃ A B, Spec.Occurs vs' out' A B Q ∧ InTriangle A B Q p := by
  obtain ⟨A', B', C', hO', hT'⟩ := h'.inside hp hg
  by_cases nA : A' = Q
  · subst nA; exact ⟨B', C', occurs_cyc hO', hT'.2.1, hT'.2.2, hT'.1⟩
  by_cases nB : B' = Q
  · subst nB; exact ⟨C', A', occurs_cyc (occurs_cyc hO'), hT'.2.2, hT'.1, hT'.2.1⟩
  by_cases nC : C' = Q
  · subst nC; exact ⟨A', B', hO', hT'⟩
  obtain ⟨hO2, -⟩ := (h.oneMore h' hm A' B' C').1 ⟨hO', nA, nB, nC⟩
  obtain ⟨hA, hB, hC, hcw, -⟩ := (h.iff A' B' C').1 hO2
  refine absurd (fun Y Z hall => ?_) hn
  have e : area2 Y Z p * area2 A' B' C' = area2 B' C' p * area2 Y Z A' + area2 C' A' p * area2 Y Z B' + area2 A' B' p * area2 Y Z C' := by
    unfold area2; ring
  have a1 := hall A' hA; have a2 := hall B' hB; have a3 := hall C' hC
  obtain ⟨t1, t2, t3⟩ := hT'
  unfold Clockwise at t1 t2 t3 hcw
  by_contra hlt
  rw [not_le] at hlt
  have k1 := mul_nonneg_of_nonpos_of_nonpos t2.le a1
  have k2 := mul_nonneg_of_nonpos_of_nonpos t3.le a2
  have k3 := mul_nonneg_of_nonpos_of_nonpos t1.le a3
  have k4 := mul_neg_of_pos_of_neg hlt hcw
  linarith

end Plain

section Main
variable {K : Type} [Field K] [LinearOrder K] [IsStrictOrderedRing K] [ExactParams K] [IdCfg]

/-- A run that passes the test of C74 on vertices in general position. -/
structure Spec.Passes (vs : List (Vtx K)) (out : List Out) : Prop where
  some : out ≠ []
  sides : Spec.HullSides vs out
  flat : Spec.LocallyDelaunay vs [] out
  general : Spec.NoFourOnEmptyCircle vs

theorem Good.exactly {fuel : Nat} {bins : Nat → Nat} {vs : List (Vtx K)} {out : List Out} (h : Good fuel bins vs)
    (ho : triangulation2d fuel bins vs = .ok out) (ht : Spec.Passes vs out) : Exactly vs out where
  iff := C75_exact fuel bins vs h out ho ht.some ht.sides ht.flat ht.general
  cov := C74_covers fuel bins vs h out ho ht.some ht.sides
  dis i j hij a b c a' b' c' hi hj A B C A' B' C' gA gB gC gA' gB' gC' q :=
    C04_disjoint_partial fuel bins vs h out ho i j hij a b c a' b' c' hi hj A B C A' B' C' gA gB gC gA' gB' gC' q

variable {fuel fuel' : Nat} {bins bins' : Nat → Nat} {vs vs' : List (Vtx K)} {out out' : List Out}

/-- **C99**: two results that pass the test have the same triangles between common positions, up to triangles whose circle contains a
position that is in one input only. -/
theorem C99_local (h : Good fuel bins vs) (h' : Good fuel' bins' vs') (ho : triangulation2d fuel bins vs = .ok out)
    (ho' : triangulation2d fuel' bins' vs' = .ok out') (ht : Spec.Passes vs out) (ht' : Spec.Passes vs' out') (A B C : Vtx K)
    (hA : A ∈ vs ↔ A ∈ vs') (hB : B ∈ vs ↔ B ∈ vs') (hC : C ∈ vs ↔ C ∈ vs') (hq : ∀ q, InCircle A B C q → (q ∈ vs ↔ q ∈ vs')) :
    Spec.Occurs vs out A B C ↔ Spec.Occurs vs' out' A B C := (h.exactly ho ht).local (h'.exactly ho' ht') hA hB hC hq

/-- **C99**: with one more position `Q`, the triangles without the corner `Q` are exactly the former triangles whose circle does not
contain `Q`. -/
theorem C99_insert (h : Good fuel bins vs) (h' : Good fuel' bins' vs') (ho : triangulation2d fuel bins vs = .ok out)
    (ho' : triangulation2d fuel' bins' vs' = .ok out') (ht : Spec.Passes vs out) (ht' : Spec.Passes vs' out') (Q : Vtx K)
    (hm : Spec.OneMore vs vs' Q) (A B C : Vtx K) :
    (Spec.Occurs vs' out' A B C ∧ A ≠ Q ∧ B ≠ Q ∧ C ≠ Q) ↔ (Spec.Occurs vs out A B C ∧ ¬ InCircle A B C Q) :=
  (h.exactly ho ht).oneMore (h'.exactly ho' ht') hm A B C

/-- **C99**: the triangles at the new position `Q` fill, within the former convex hull, exactly the region of the triangles whose circle
contains `Q`. -/
theorem C99_cavity (h : Good fuel bins vs) (h' : Good fuel' bins' vs') (ho : triangulation2d fuel bins vs = .ok out)
    (ho' : triangulation2d fuel' bins' vs' = .ok out') (ht : Spec.Passes vs out) (ht' : Spec.Passes vs' out') (Q : Vtx K)
    (hm : Spec.OneMore vs vs' Q) (p : Vtx K) (hp : Spec.InHull vs p) (hg : Spec.OffVertexLines vs' p) :
    (∃ A B C, Spec.Occurs vs out A B C ∧ InCircle A B C Q ∧ InTriangle A B C p) ↔
      (∃ A B, Spec.Occurs vs' out' A B Q ∧ InTriangle A B Q p) :=
  (h.exactly ho ht).cavity (h'.exactly ho' ht') hm hp hg

/-- **C99**: what the new position adds to the convex hull is filled by triangles at this position. -/
theorem C99_grow (h : Good fuel bins vs) (h' : Good fuel' bins' vs') (ho : triangulation2d fuel bins vs = .ok out)
    (ho' : triangulation2d fuel' bins' vs' = .ok out') (ht : Spec.Passes vs out) (ht' : Spec.Passes vs' out') (Q : Vtx K)
    (hm : Spec.OneMore vs vs' Q) (p : Vtx K) (hp : Spec.InHull vs' p) (hn : ¬ Spec.InHull vs p) (hg : Spec.OffVertexLines vs' p) :
    ∃ A B, Spec.Occurs vs' out' A B Q ∧ InTriangle A B Q p :=
  (h.exactly ho ht).grow (h'.exactly ho' ht') hm hp hn hg

/-- **C99** for framed points and one bin, where nothing has to be tested. -/
theorem C99_framed (hcfg : RealCfg) (h : Good fuel bins vs) (h' : Good fuel' bins' vs') (h1 : bins vs.length = 1)
    (h1' : bins' vs'.length = 1) (x0 x1 y0 y1 x0' x1' y0' y1' : K) (hf : Spec.Framed vs x0 x1 y0 y1)
    (hf' : Spec.Framed vs' x0' x1' y0' y1') (hg : Spec.NoFourOnEmptyCircle vs) (hg' : Spec.NoFourOnEmptyCircle vs') :
    ∃ out out', triangulation2d fuel bins vs = .ok out ∧ triangulation2d fuel' bins' vs' = .ok out' ∧
      ∀ A B C, (A ∈ vs ↔ A ∈ vs') → (B ∈ vs ↔ B ∈ vs') → (C ∈ vs ↔ C ∈ vs') → (∀ q, InCircle A B C q → (q ∈ vs ↔ q ∈ vs')) →
        (Spec.Occurs vs out A B C ↔ Spec.Occurs vs' out' A B C) := by
  obtain ⟨out, ho, hi⟩ := C60_exact hcfg fuel bins vs h h1 x0 x1 y0 y1 hf hg
  obtain ⟨out', ho', hi'⟩ := C60_exact hcfg fuel' bins' vs' h' h1' x0' x1' y0' y1' hf' hg'
  refine ⟨out, out', ho, ho', fun A B C hA hB hC hq => ?_⟩
  rw [hi, hi', hA, hB, hC]
  refine and_congr_right fun _ => and_congr_right fun _ => and_congr_right fun _ => and_congr_right fun _ => ?_
  exact ⟨fun g q hm hin => g q ((hq q hin).2 hm) hin, fun g q hm hin => g q ((hq q hin).1 hm) hin⟩

end Main

/-! ## Rounded arithmetic -/

section
open Rounded
variable {F F' : Type} [FloatOps F] [Rounded F] [FloatOps F'] [Rounded F'] [IdCfg] (fuel fuel' : Nat) (bins bins' : Nat → Nat)
  (vs : List (Vtx F)) (vs' : List (Vtx F')) (V V' : List (Vtx ℚ)) (W W' : ℚ) (out out' : List Out)

theorem Rounded.RGood.exactly {vs : List (Vtx F)} {fuel : Nat} {bins : Nat → Nat} {V : List (Vtx ℚ)} {W : ℚ} {out : List Out}
    (h : RGood fuel bins vs V W) (ho : triangulation2d fuel bins vs = .ok out) (ht : Spec.Passes V out) : Exactly V out := by
  let P := params F (bins vs.length) W (scaleVal vs)
  rw [h.run] at ho
  exact h.good.exactly ho ht

/-- **C99** in rounded arithmetic, also between number formats. -/
theorem C99_local_rounded (h : RGood fuel bins vs V W) (h' : RGood fuel' bins' vs' V' W') (ho : triangulation2d fuel bins vs = .ok out)
    (ho' : triangulation2d fuel' bins' vs' = .ok out') (ht : Spec.Passes V out) (ht' : Spec.Passes V' out') (A B C : Vtx ℚ)
    (hA : A ∈ V ↔ A ∈ V') (hB : B ∈ V ↔ B ∈ V') (hC : C ∈ V ↔ C ∈ V') (hq : ∀ q, InCircle A B C q → (q ∈ V ↔ q ∈ V')) :
    Spec.Occurs V out A B C ↔ Spec.Occurs V' out' A B C := (h.exactly ho ht).local (h'.exactly ho' ht') hA hB hC hq

/-- **C99** in rounded arithmetic: one more position. -/
theorem C99_insert_rounded (h : RGood fuel bins vs V W) (h' : RGood fuel' bins' vs' V' W') (ho : triangulation2d fuel bins vs = .ok out)
    (ho' : triangulation2d fuel' bins' vs' = .ok out') (ht : Spec.Passes V out) (ht' : Spec.Passes V' out') (Q : Vtx ℚ)
    (hm : Spec.OneMore V V' Q) (A B C : Vtx ℚ) :
    (Spec.Occurs V' out' A B C ∧ A ≠ Q ∧ B ≠ Q ∧ C ≠ Q) ↔ (Spec.Occurs V out A B C ∧ ¬ InCircle A B C Q) :=
  (h.exactly ho ht).oneMore (h'.exactly ho' ht') hm A B C

/-- **C99** in rounded arithmetic: the region that changes. -/
theorem C99_cavity_rounded (h : RGood fuel bins vs V W) (h' : RGood fuel' bins' vs' V' W') (ho : triangulation2d fuel bins vs = .ok out)
    (ho' : triangulation2d fuel' bins' vs' = .ok out') (ht : Spec.Passes V out) (ht' : Spec.Passes V' out') (Q : Vtx ℚ)
    (hm : Spec.OneMore V V' Q) (p : Vtx ℚ) (hp : Spec.InHull V p) (hg : Spec.OffVertexLines V' p) :
    (∃ A B C, Spec.Occurs V out A B C ∧ InCircle A B C Q ∧ InTriangle A B C p) ↔
      (∃ A B, Spec.Occurs V' out' A B Q ∧ InTriangle A B Q p) :=
  (h.exactly ho ht).cavity (h'.exactly ho' ht') hm hp hg

end

/-! ## Example -/

section Example
open Rounded
local instance localityCfg : IdCfg := u32Cfg

/-- The points of `certGrid` and one more in the middle, in another order. -/
def moreGrid : List (Int × Int) := (9, 8) :: certGrid.reverse

theorem more_good : RGood (F := Fl binary32) 506 (fun _ => 1) (flPts binary32 moreGrid) (intPts moreGrid) (2 ^ 4) :=
  C44_grid moreGrid 4 (by decide) (by decide) (by decide) ⟨by norm_num, by decide +kernel, by decide +kernel⟩
    (by decide) (by decide +kernel) (by decide) (by decide)

def moreOut : List Out := [(1, 6, 7), (2, 9, 5), (3, 10, 5), (3, 5, 9), (0, 2, 5), (4, 7, 10), (0, 8, 2), (1, 7, 4), (0, 7, 6),
  (5, 10, 7), (0, 6, 8), (0, 5, 7)]

theorem more_run : triangulation2d (F := Fl binary32) 506 (fun _ => 1) (flPts binary32 moreGrid) = .ok moreOut := by decide +kernel

theorem cert_passes : Spec.Passes (intPts certGrid) certOut :=
  ⟨by decide, cert_sides, local_of_check (by decide +kernel), general_of_check (by decide +kernel)⟩

theorem more_passes : Spec.Passes (intPts moreGrid) moreOut :=
  ⟨by decide, hullSides_of_check (by decide +kernel), local_of_check (by decide +kernel), general_of_check (by decide +kernel)⟩

theorem more_oneMore : Spec.OneMore (intPts certGrid) (intPts moreGrid) (⟨9, 8⟩ : Vtx ℚ) := by
  refine ⟨by decide +kernel, fun q => ⟨fun h => ?_, fun h => ?_⟩⟩
  · exact (by decide +kernel : ∀ q ∈ intPts moreGrid, q ∈ intPts certGrid ∨ q = (⟨9, 8⟩ : Vtx ℚ)) q h
  · rcases h with h | rfl
    · exact (by decide +kernel : ∀ q ∈ intPts certGrid, q ∈ intPts moreGrid) q h
    · decide +kernel

/-- The result of the ten points in binary64 and that of the eleven in binary32, in another order and with another number
    of bins, differ exactly by the triangles whose circle holds the new point. -/
example (A B C : Vtx ℚ) : (Spec.Occurs (intPts moreGrid) moreOut A B C ∧ A ≠ ⟨9, 8⟩ ∧ B ≠ ⟨9, 8⟩ ∧ C ≠ ⟨9, 8⟩) ↔
    (Spec.Occurs (intPts certGrid) certOut A B C ∧ ¬ InCircle A B C ⟨9, 8⟩) :=
  C99_insert_rounded 506 506 _ _ _ _ _ _ _ _ _ _ cert_good more_good cert_run more_run cert_passes more_passes _ more_oneMore A B C

/-- The point `(6, 8)` is off all lines between vertices: the triangle of the first result around it disappears. -/
example : ∃ A B C, Spec.Occurs (intPts certGrid) certOut A B C ∧ InCircle A B C ⟨9, 8⟩ ∧ InTriangle A B C (⟨6, 8⟩ : Vtx ℚ) := by
  have hh : Spec.InHull (intPts certGrid) (⟨6, 8⟩ : Vtx ℚ) := by
    have := centroid_inHull (vs := intPts certGrid) (A := ⟨2, 3⟩) (B := ⟨5, 9⟩) (C := ⟨11, 12⟩) (by decide +kernel) (by decide +kernel)
      (by decide +kernel)
    norm_num at this
    exact this
  refine (C99_cavity_rounded 506 506 _ _ _ _ _ _ _ _ _ _ cert_good more_good cert_run more_run cert_passes more_passes _ more_oneMore
    _ hh ?_).2 ⟨⟨7, 5⟩, ⟨5, 9⟩, ⟨(0, 5, 7), by decide, ⟨9, 8⟩, ⟨7, 5⟩, ⟨5, 9⟩, by decide +kernel⟩, ?_⟩
  · unfold Spec.OffVertexLines
    decide +kernel
  · unfold InTriangle Clockwise
    decide +kernel

end Example

end CDT

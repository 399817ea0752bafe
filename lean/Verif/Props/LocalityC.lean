import Verif.Props.UniqueC
import Verif.Props.Certificate

/-!
# C100: additional constraints and vertices change a constrained result only where they are

Two constrained Delaunay results, the second one with more vertices, more constraints and a smaller region.
-/

set_option linter.unusedSectionVars false
set_option linter.unusedVariables false

namespace CDT
open Plane

section Plain
variable {K : Type} [Field K] [LinearOrder K] [IsStrictOrderedRing K]

/-- The second input has all vertices of the first and perhaps more, its constraints cover those of the first, and they enclose no more. -/
structure Spec.Finer (vs : List (Vtx K)) (es : List Edge) (vs' : List (Vtx K)) (es' : List Edge) : Prop where
  vertices : ∀ q ∈ vs, q ∈ vs'
  edges : ∀ q, OffEdges (Spec.segments vs' es') q → OffEdges (Spec.segments vs es) q
  region : ∀ q, OffEdges (Spec.segments vs' es') q → winding (Spec.segments vs' es') q = 1 → winding (Spec.segments vs es) q = 1

/-- No constraint of the second input meets the inside of the triangle, and no additional vertex is in or on its circle. -/
def Spec.Untouched (vs vs' : List (Vtx K)) (es' : List Edge) (A B C : Vtx K) : Prop :=
  (∀ x, InTriangle A B C x → OffEdges (Spec.segments vs' es') x) ∧
    ∀ m, Circumcenter m A B C → ∀ X ∈ vs', X ∈ vs ∨ dist2 m A < dist2 m X

/-- The inside of a triangle is inside its circle. -/
theorem inTriangle_dist {A B C m x : Vtx K} (hm : Circumcenter m A B C) (hx : InTriangle A B C x) : dist2 m x < dist2 m A := by
  obtain ⟨h1, h2, h3⟩ := hx
  obtain ⟨e1, e2⟩ := hm
  unfold Clockwise at *
  have hS : area2 A B C = area2 A B x + area2 B C x + area2 C A x := by unfold area2; ring
  have key : (area2 A B C) ^ 2 * dist2 m x = area2 A B C * (area2 B C x * dist2 m A + area2 C A x * dist2 m B + area2 A B x * dist2 m C) -
      (area2 B C x * area2 C A x * dist2 A B + area2 C A x * area2 A B x * dist2 B C + area2 A B x * area2 B C x * dist2 C A) := by
    unfold area2 dist2; ring
  rw [← e2, ← e1] at key
  have hd : ∀ P Q : Vtx K, 0 ≤ dist2 P Q := fun P Q => by unfold dist2; positivity
  have hAB : 0 < dist2 A B := by
    refine lt_of_le_of_ne (hd A B) fun h0 => ?_
    unfold dist2 at h0
    have hx0 : B.x - A.x = 0 := by nlinarith [sq_nonneg (B.x - A.x), sq_nonneg (B.y - A.y)]
    have hy0 : B.y - A.y = 0 := by nlinarith [sq_nonneg (B.x - A.x), sq_nonneg (B.y - A.y)]
    unfold area2 at h1
    rw [hx0, hy0] at h1
    linarith
  have p1 := mul_pos (mul_pos_of_neg_of_neg h2 h3) hAB
  have p2 := mul_nonneg (mul_pos_of_neg_of_neg h3 h1).le (hd B C)
  have p3 := mul_nonneg (mul_pos_of_neg_of_neg h1 h2).le (hd C A)
  have hneg : area2 A B C < 0 := by rw [hS]; linarith
  have e : (area2 A B C) ^ 2 * (dist2 m x - dist2 m A) = -(area2 B C x * area2 C A x * dist2 A B + area2 C A x * area2 A B x * dist2 B C +
      area2 A B x * area2 B C x * dist2 C A) := by
    rw [mul_sub, key]
    have : area2 A B C ^ 2 * dist2 m A = area2 A B C * ((area2 A B x + area2 B C x + area2 C A x) * dist2 m A) := by rw [← hS]; ring
    rw [this]; ring
  have hsq : 0 < area2 A B C ^ 2 := by rw [sq]; exact mul_pos_of_neg_of_neg hneg hneg
  by_contra hn
  have := mul_nonneg hsq.le (sub_nonneg.2 (not_lt.1 hn))
  linarith

theorem inTriangle_between {A B C q q' x : Vtx K} (hq : InTriangle A B C q) (hq' : InTriangle A B C q') (hx : OnSegment q q' x) :
    InTriangle A B C x := by
  obtain ⟨s, s0, s1, ex, ey⟩ := hx
  have key : ∀ X Y : Vtx K, area2 X Y q < 0 → area2 X Y q' < 0 → area2 X Y x < 0 := by
    intro X Y h h'
    have e : area2 X Y x = (1 - s) * area2 X Y q + s * area2 X Y q' := by unfold area2; rw [ex, ey]; ring
    rw [e]
    rcases eq_or_lt_of_le s0 with rfl | hp
    · linarith
    · have := mul_neg_of_pos_of_neg hp h'
      have := mul_nonpos_of_nonneg_of_nonpos (sub_nonneg.2 s1) h.le
      linarith
  exact ⟨key _ _ hq.1 hq'.1, key _ _ hq.2.1 hq'.2.1, key _ _ hq.2.2 hq'.2.2⟩

/-- Between a point inside a triangle and any of its corners there are only points inside. -/
theorem inTriangle_corners {A B C q : Vtx K} (hc : Clockwise A B C) (hq : InTriangle A B C q) {X x : Vtx K} (hX : X = A ∨ X = B ∨ X = C)
    (hx : InsideSegment q X x) : InTriangle A B C x := by
  rcases hX with rfl | rfl | rfl
  · exact inTriangle_toward hc hq hx
  · exact inTriangle_cyc (inTriangle_cyc (inTriangle_toward (by unfold Clockwise at *; rw [area2_cyc]; exact hc) (inTriangle_cyc hq) hx))
  · exact inTriangle_cyc (inTriangle_toward (by unfold Clockwise at *; rw [← area2_cyc]; exact hc) (inTriangle_cyc (inTriangle_cyc hq)) hx)

/-- The winding number is constant inside a triangle that no edge meets. -/
theorem winding_triangle {l : List (Vtx K × Vtx K)} (hb : Balanced l) {A B C : Vtx K} (hc : Clockwise A B C)
    (hoff : ∀ x, InTriangle A B C x → OffEdges l x) {q q' : Vtx K} (hq : InTriangle A B C q) (hq' : InTriangle A B C q') :
    winding l q = winding l q' := by
  have base : ∀ {p p' : Vtx K}, InTriangle A B C p → InTriangle A B C p' → p.y ≠ p'.y → winding l p = winding l p' := by
    intro p p' hp hp' hne
    refine winding_const hb hne fun e he hm => ?_
    obtain ⟨x, hx, hx'⟩ := hm
    exact hoff x (inTriangle_between hp hp' hx) e he hx'
  by_cases hy : q.y = q'.y
  swap
  · exact base hq hq' hy
  have hex : ∃ X, (X = A ∨ X = B ∨ X = C) ∧ X.y ≠ q.y := by
    by_contra hn
    push Not at hn
    have a := hn A (.inl rfl); have b := hn B (.inr (.inl rfl)); have c := hn C (.inr (.inr rfl))
    unfold Clockwise area2 at hc
    rw [a, b, c] at hc
    linarith
  obtain ⟨X, hX, hne⟩ := hex
  have hi : InTriangle A B C ⟨q.x + 1 / 2 * (X.x - q.x), q.y + 1 / 2 * (X.y - q.y)⟩ :=
    inTriangle_corners hc hq hX ⟨1 / 2, by norm_num, by norm_num, rfl, rfl⟩
  have hd : (q.y + 1 / 2 * (X.y - q.y)) ≠ q.y := fun h => hne (by linarith)
  rw [base hq hi fun h => hd h.symm]
  exact base hi hq' fun h => hd (h.trans hy.symm)

/-- Test of the first part of `Spec.Untouched`: every edge is on the outer side of a side of the triangle. -/
def meetCheck (l : List (Vtx K × Vtx K)) (A B C : Vtx K) : Bool := l.all fun e =>
  decide (0 ≤ area2 A B e.1 ∧ 0 ≤ area2 A B e.2) || decide (0 ≤ area2 B C e.1 ∧ 0 ≤ area2 B C e.2) ||
    decide (0 ≤ area2 C A e.1 ∧ 0 ≤ area2 C A e.2)

theorem offEdges_of_check {l : List (Vtx K × Vtx K)} {A B C : Vtx K} (h : meetCheck l A B C = true) (x : Vtx K) (hx : InTriangle A B C x) :
    OffEdges l x := by
  intro e he hon
  obtain ⟨s, s0, s1, ex, ey⟩ := hon
  have key : ∀ X Y : Vtx K, area2 X Y x < 0 → ¬ (0 ≤ area2 X Y e.1 ∧ 0 ≤ area2 X Y e.2) := by
    rintro X Y hn ⟨h1, h2⟩
    have e : area2 X Y x = (1 - s) * area2 X Y e.1 + s * area2 X Y e.2 := by unfold area2; rw [ex, ey]; ring
    have := mul_nonneg (sub_nonneg.2 s1) h1
    have := mul_nonneg s0 h2
    linarith
  have hk := List.all_eq_true.1 h e he
  simp only [Bool.or_eq_true, decide_eq_true_eq] at hk
  rcases hk with (hk | hk) | hk
  · exact key _ _ hx.1 hk
  · exact key _ _ hx.2.1 hk
  · exact key _ _ hx.2.2 hk

variable {vs vs' : List (Vtx K)} {es es' : List Edge} {out out' : List (Nat × Nat × Nat)}

theorem local_of_none (h : Spec.LocallyDelaunay vs [] out) : Spec.LocallyDelaunay vs es out :=
  fun t ht u hu a b c d hc hd A B C D gA gB gC gD _ => h t ht u hu a b c d hc hd A B C D gA gB gC gD (by rintro ⟨e, he, -⟩; simp at he)

/-- A triangle of the first result that is not touched, and a triangle of the second one with a common inner point, are the same. -/
theorem CdtOf.overlap (h : CdtOf vs es out) (h' : CdtOf vs' es' out') (hF : Spec.Finer vs es vs' es') (hg : Spec.NoneOnCircle vs es out)
    {t t' : Nat × Nat × Nat} (ht : t ∈ out) (ht' : t' ∈ out') {P Q R P' Q' R' q : Vtx K} (gP : vs[t.1]? = some P) (gQ : vs[t.2.1]? = some Q)
    (gR : vs[t.2.2]? = some R) (gP' : vs'[t'.1]? = some P') (gQ' : vs'[t'.2.1]? = some Q') (gR' : vs'[t'.2.2]? = some R')
    (hc : Clockwise P Q R) (hc' : Clockwise P' Q' R') (hu : Spec.Untouched vs vs' es' P Q R) (hq : InTriangle P Q R q)
    (hq' : InTriangle P' Q' R' q) :
    (P' = P ∧ Q' = Q ∧ R' = R) ∨ (P' = Q ∧ Q' = R ∧ R' = P) ∨ (P' = R ∧ Q' = P ∧ R' = Q) := by
  obtain ⟨m, hm⟩ := exists_circumcenter P Q R (ne_of_lt hc)
  obtain ⟨m', hm'⟩ := exists_circumcenter P' Q' R' (ne_of_lt hc')
  have cov' : ∀ x, InTriangle P' Q' R' x → Spec.Covered vs' out' x := fun x hx =>
    ⟨t', ht', P', Q', R', gP', gQ', gR', hx.1.le, hx.2.1.le, hx.2.2.le⟩
  have wq : winding (Spec.segments vs' es') q = 1 := (h'.cover q (hu.1 q hq)).1 (cov' q hq')
  -- the corners of the second triangle, seen in the first result
  have see : ∀ X, (X = P' ∨ X = Q' ∨ X = R') → Spec.Visible vs es out q X := by
    intro X hX x hx
    have hi := inTriangle_corners hc' hq' hX hx
    obtain ⟨f1, f2⟩ := h'.free t' ht' P' Q' R' gP' gQ' gR' x hi
    have f3 := hF.edges x f2
    refine ⟨fun hv => f1 (hF.vertices x hv), (h.cover x f3).2 (hF.region x f2 ((h'.cover x f2).1 (cov' x hi))), ?_⟩
    intro e he Y Z gY gZ
    exact f3 (Y, Z) (segments_mem he gY gZ)
  -- the corners of the first triangle, seen in the second result
  have see' : ∀ X, (X = P ∨ X = Q ∨ X = R) → Spec.Visible vs' es' out' q X := by
    intro X hX x hx
    have hi := inTriangle_corners hc hq hX hx
    have f1 := (h.free t ht P Q R gP gQ gR x hi).1
    have f2 := hu.1 x hi
    refine ⟨fun hv => ?_, (h'.cover x f2).2 ?_, ?_⟩
    · rcases hu.2 m hm x hv with hv | hv
      · exact f1 hv
      · exact absurd hv (inTriangle_dist hm hi).not_gt
    · rw [← winding_triangle h'.border.bal hc hu.1 hq hi]; exact wq
    · intro e he Y Z gY gZ
      exact f2 (Y, Z) (segments_mem he gY gZ)
  have o' : ∀ X, X ∈ vs → (X = P ∨ X = Q ∨ X = R) → dist2 m' P' ≤ dist2 m' X := fun X hX hv =>
    not_lt.1 fun hl => h'.cdt t' ht' P' Q' R' gP' gQ' gR' q hq' X (hF.vertices X hX) (see' X hv) ⟨m', hm', hl⟩
  have o : ∀ X, X ∈ vs' → (X = P' ∨ X = Q' ∨ X = R') → dist2 m P ≤ dist2 m X := by
    intro X hX hv
    rcases hu.2 m hm X hX with hX' | hX'
    · exact not_lt.1 fun hl => h.cdt t ht P Q R gP gQ gR q hq X hX' (see X hv) ⟨m, hm, hl⟩
    · exact hX'.le
  have mem := fun {i : Nat} {X : Vtx K} (g : vs[i]? = some X) => List.mem_of_getElem? g
  have mem' := fun {i : Nat} {X : Vtx K} (g : vs'[i]? = some X) => List.mem_of_getElem? g
  obtain ⟨rfl, heq⟩ := same_circle_in hc hc' hm hm' hq hq' (o' _ (mem gP) (.inl rfl)) (o' _ (mem gQ) (.inr (.inl rfl)))
    (o' _ (mem gR) (.inr (.inr rfl))) (o _ (mem' gP') (.inl rfl)) (o _ (mem' gQ') (.inr (.inl rfl))) (o _ (mem' gR') (.inr (.inr rfl)))
  have on : ∀ X, X ∈ vs' → (X = P' ∨ X = Q' ∨ X = R') → dist2 m X = dist2 m P → X = P ∨ X = Q ∨ X = R := by
    intro X hX hv hd
    rcases hu.2 m hm X hX with hX' | hX'
    · exact hg t ht P Q R gP gQ gR q hq X hX' (see X hv) m hm hd
    · exact absurd hd hX'.ne'
  exact same_corners hc hc' (on P' (mem' gP') (.inl rfl) heq.symm) (on Q' (mem' gQ') (.inr (.inl rfl)) (by rw [← hm'.1, heq]))
    (on R' (mem' gR') (.inr (.inr rfl)) (by rw [← hm'.2, heq]))

/-- A triangle that is not touched stays exactly if it is inside the new region. -/
theorem CdtOf.stays (h : CdtOf vs es out) (h' : CdtOf vs' es' out') (hF : Spec.Finer vs es vs' es') (hg : Spec.NoneOnCircle vs es out)
    {t : Nat × Nat × Nat} (ht : t ∈ out) {A B C : Vtx K} (gA : vs[t.1]? = some A) (gB : vs[t.2.1]? = some B) (gC : vs[t.2.2]? = some C)
    (hu : Spec.Untouched vs vs' es' A B C) {q : Vtx K} (hq : InTriangle A B C q) :
    Spec.Occurs vs' out' A B C ↔ winding (Spec.segments vs' es') q = 1 := by
  obtain ⟨A', B', C', gA', gB', gC', hc⟩ := h.cw t ht
  rw [gA] at gA'; rw [gB] at gB'; rw [gC] at gC'; cases gA'; cases gB'; cases gC'
  constructor
  · rintro ⟨t', ht', P, Q, R, gP, gQ, gR, hrot⟩
    refine (h'.cover q (hu.1 q hq)).1 ⟨t', ht', P, Q, R, gP, gQ, gR, ?_⟩
    obtain ⟨h1, h2, h3⟩ := hq
    rcases hrot with ⟨rfl, rfl, rfl⟩ | ⟨rfl, rfl, rfl⟩ | ⟨rfl, rfl, rfl⟩
    · exact ⟨h1.le, h2.le, h3.le⟩
    · exact ⟨h2.le, h3.le, h1.le⟩
    · exact ⟨h3.le, h1.le, h2.le⟩
  · intro hw
    obtain ⟨t', ht', P', Q', R', gP', gQ', gR', hcl⟩ := (h'.cover q (hu.1 q hq)).2 hw
    obtain ⟨P, Q, R, gP, gQ, gR, hc'⟩ := h'.cw t' ht'
    rw [gP'] at gP; rw [gQ'] at gQ; rw [gR'] at gR; cases gP; cases gQ; cases gR
    obtain ⟨p, hp, hp'⟩ := common_point hc' hq hcl
    have := h.overlap h' hF hg ht ht' gA gB gC gP' gQ' gR' hc hc' hu hp hp'
    refine ⟨t', ht', P', Q', R', gP', gQ', gR', ?_⟩
    rcases this with ⟨rfl, rfl, rfl⟩ | ⟨rfl, rfl, rfl⟩ | ⟨rfl, rfl, rfl⟩ <;> simp

/-- Every triangle of the second result is a triangle of the first, or all triangles of the first that overlap it are touched, and there is one. -/
theorem CdtOf.fresh (h : CdtOf vs es out) (h' : CdtOf vs' es' out') (hF : Spec.Finer vs es vs' es') (hg : Spec.NoneOnCircle vs es out)
    {A' B' C' : Vtx K} (ho : Spec.Occurs vs' out' A' B' C') (hn : ¬ Spec.Occurs vs out A' B' C') {q : Vtx K} (hq : InTriangle A' B' C' q) :
    ∃ t ∈ out, ∃ A B C, vs[t.1]? = some A ∧ vs[t.2.1]? = some B ∧ vs[t.2.2]? = some C ∧ InClosedTriangle A B C q ∧
      ¬ Spec.Untouched vs vs' es' A B C := by
  obtain ⟨t', ht', P, Q, R, gP, gQ, gR, hrot⟩ := ho
  obtain ⟨P', Q', R', gP', gQ', gR', hc'⟩ := h'.cw t' ht'
  rw [gP] at gP'; rw [gQ] at gQ'; rw [gR] at gR'; cases gP'; cases gQ'; cases gR'
  have hq' : InTriangle P Q R q := by
    rcases hrot with ⟨rfl, rfl, rfl⟩ | ⟨rfl, rfl, rfl⟩ | ⟨rfl, rfl, rfl⟩
    · exact hq
    · exact inTriangle_cyc hq
    · exact inTriangle_cyc (inTriangle_cyc hq)
  obtain ⟨-, hoff⟩ := h'.free t' ht' P Q R gP gQ gR q hq'
  have hw := (h'.cover q hoff).1 ⟨t', ht', P, Q, R, gP, gQ, gR, hq'.1.le, hq'.2.1.le, hq'.2.2.le⟩
  obtain ⟨t, ht, A, B, C, gA, gB, gC, hcl⟩ := (h.cover q (hF.edges q hoff)).2 (hF.region q hoff hw)
  refine ⟨t, ht, A, B, C, gA, gB, gC, hcl, fun hu => hn ?_⟩
  obtain ⟨A1, B1, C1, gA1, gB1, gC1, hc⟩ := h.cw t ht
  rw [gA] at gA1; rw [gB] at gB1; rw [gC] at gC1; cases gA1; cases gB1; cases gC1
  obtain ⟨p, hp', hp⟩ := common_point hc hq' hcl
  have := h.overlap h' hF hg ht ht' gA gB gC gP gQ gR hc hc' hu hp hp'
  refine ⟨t, ht, A, B, C, gA, gB, gC, ?_⟩
  rcases hrot with ⟨rfl, rfl, rfl⟩ | ⟨rfl, rfl, rfl⟩ | ⟨rfl, rfl, rfl⟩ <;>
    rcases this with ⟨rfl, rfl, rfl⟩ | ⟨rfl, rfl, rfl⟩ | ⟨rfl, rfl, rfl⟩ <;> simp

end Plain

section Run
variable {K : Type} [Field K] [LinearOrder K] [IsStrictOrderedRing K] [ExactParams K] [IdCfg]

/-- **C100** (exact arithmetic): take two runs with border constraints that both end locally Delaunay, the second one with more vertices,
more constraints and a smaller region. A triangle of the first result whose inside is met by no constraint of the second input and
whose circle contains no additional vertex is a triangle of the second result, if the constraints of the second input wind around a
point inside of it, and only then. -/
theorem C100_stays (fuel fuel' : Nat) (bins bins' : Nat → Nat) (vs vs' : List (Vtx K)) (h : Good fuel bins vs)
    (h' : Good fuel' bins' vs') (hf : fuelFor vs.length ≤ fuel) (hf' : fuelFor vs'.length ≤ fuel') (es es' : List Edge)
    (hx : Spec.NonCrossing vs es) (hx' : Spec.NonCrossing vs' es') (hb : Spec.Border vs es) (hb' : Spec.Border vs' es')
    (hF : Spec.Finer vs es vs' es') (out out' : List Out)
    (ho : constrained2d fuel bins vs es = .ok out) (ho' : constrained2d fuel' bins' vs' es' = .ok out')
    (hl : Spec.LocallyDelaunay vs es out) (hl' : Spec.LocallyDelaunay vs' es' out') (hg : Spec.NoneOnCircle vs es out)
    (t : Out) (ht : t ∈ out) (A B C : Vtx K) (gA : vs[t.1]? = some A) (gB : vs[t.2.1]? = some B) (gC : vs[t.2.2]? = some C)
    (hu : Spec.Untouched vs vs' es' A B C) (q : Vtx K) (hq : InTriangle A B C q) :
    Spec.Occurs vs' out' A B C ↔ winding (Spec.segments vs' es') q = 1 :=
  (h.cdtOf hf hx hb ho hl).stays (h'.cdtOf hf' hx' hb' ho' hl') hF hg ht gA gB gC hu hq

/-- **C100** (exact arithmetic): a new triangle lies in triangles of the first result that were met by a constraint of the second input, or
have an additional vertex in or on their circle. -/
theorem C100_new (fuel fuel' : Nat) (bins bins' : Nat → Nat) (vs vs' : List (Vtx K)) (h : Good fuel bins vs)
    (h' : Good fuel' bins' vs') (hf : fuelFor vs.length ≤ fuel) (hf' : fuelFor vs'.length ≤ fuel') (es es' : List Edge)
    (hx : Spec.NonCrossing vs es) (hx' : Spec.NonCrossing vs' es') (hb : Spec.Border vs es) (hb' : Spec.Border vs' es')
    (hF : Spec.Finer vs es vs' es') (out out' : List Out)
    (ho : constrained2d fuel bins vs es = .ok out) (ho' : constrained2d fuel' bins' vs' es' = .ok out')
    (hl : Spec.LocallyDelaunay vs es out) (hl' : Spec.LocallyDelaunay vs' es' out') (hg : Spec.NoneOnCircle vs es out)
    (A' B' C' : Vtx K) (hO : Spec.Occurs vs' out' A' B' C') (hn : ¬ Spec.Occurs vs out A' B' C') (q : Vtx K) (hq : InTriangle A' B' C' q) :
    ∃ t ∈ out, ∃ A B C, vs[t.1]? = some A ∧ vs[t.2.1]? = some B ∧ vs[t.2.2]? = some C ∧ InClosedTriangle A B C q ∧
      ¬ Spec.Untouched vs vs' es' A B C :=
  (h.cdtOf hf hx hb ho hl).fresh (h'.cdtOf hf' hx' hb' ho' hl') hF hg hO hn hq

end Run

/-- **C100** in rounded arithmetic on robust inputs and on grids, also between number formats; `V`, `V'` are the exact positions. -/
theorem C100_stays_rounded {F F' : Type} [FloatOps F] [Rounded F] [FloatOps F'] [Rounded F'] [IdCfg] (fuel fuel' : Nat) (bins bins' : Nat → Nat)
    (vs : List (Vtx F)) (vs' : List (Vtx F')) (V V' : List (Vtx ℚ)) (W W' : ℚ) (h : Rounded.RGoodC fuel bins vs V W)
    (h' : Rounded.RGoodC fuel' bins' vs' V' W') (es es' : List Edge) (hx : Spec.NonCrossing V es) (hx' : Spec.NonCrossing V' es')
    (hb : Spec.Border V es) (hb' : Spec.Border V' es') (hF : Spec.Finer V es V' es') (out out' : List Out)
    (ho : constrained2d fuel bins vs es = .ok out) (ho' : constrained2d fuel' bins' vs' es' = .ok out')
    (hl : Spec.LocallyDelaunay V es out) (hl' : Spec.LocallyDelaunay V' es' out') (hg : Spec.NoneOnCircle V es out)
    (t : Out) (ht : t ∈ out) (A B C : Vtx ℚ) (gA : V[t.1]? = some A) (gB : V[t.2.1]? = some B) (gC : V[t.2.2]? = some C)
    (hu : Spec.Untouched V V' es' A B C) (q : Vtx ℚ) (hq : InTriangle A B C q) :
    Spec.Occurs V' out' A B C ↔ winding (Spec.segments V' es') q = 1 :=
  (h.cdtOf hx hb ho hl).stays (h'.cdtOf hx' hb' ho' hl') hF hg ht gA gB gC hu hq

/-- **C100** in rounded arithmetic: where the new triangles are. -/
theorem C100_new_rounded {F F' : Type} [FloatOps F] [Rounded F] [FloatOps F'] [Rounded F'] [IdCfg] (fuel fuel' : Nat) (bins bins' : Nat → Nat)
    (vs : List (Vtx F)) (vs' : List (Vtx F')) (V V' : List (Vtx ℚ)) (W W' : ℚ) (h : Rounded.RGoodC fuel bins vs V W)
    (h' : Rounded.RGoodC fuel' bins' vs' V' W') (es es' : List Edge) (hx : Spec.NonCrossing V es) (hx' : Spec.NonCrossing V' es')
    (hb : Spec.Border V es) (hb' : Spec.Border V' es') (hF : Spec.Finer V es V' es') (out out' : List Out)
    (ho : constrained2d fuel bins vs es = .ok out) (ho' : constrained2d fuel' bins' vs' es' = .ok out')
    (hl : Spec.LocallyDelaunay V es out) (hl' : Spec.LocallyDelaunay V' es' out') (hg : Spec.NoneOnCircle V es out)
    (A' B' C' : Vtx ℚ) (hO : Spec.Occurs V' out' A' B' C') (hn : ¬ Spec.Occurs V out A' B' C') (q : Vtx ℚ) (hq : InTriangle A' B' C' q) :
    ∃ t ∈ out, ∃ A B C, V[t.1]? = some A ∧ V[t.2.1]? = some B ∧ V[t.2.2]? = some C ∧ InClosedTriangle A B C q ∧
      ¬ Spec.Untouched V V' es' A B C :=
  (h.cdtOf hx hb ho hl).fresh (h'.cdtOf hx' hb' ho' hl') hF hg hO hn hq

section Example
open Rounded
local instance localityCCfg : IdCfg := u32Cfg

/-- The square of `ringEdges` without the hole. -/
def plateEdges : List Edge := [⟨7,8⟩,⟨8,9⟩,⟨9,10⟩,⟨10,7⟩]

def plateOut : List Out := [(2,9,10),(1,2,10),(1,10,5),(1,5,3),(1,3,2),(2,3,6),(2,6,9),(6,8,9),(4,8,6),(3,4,6),(0,4,3),(0,3,5),(0,5,7),
  (0,7,4),(4,7,8),(5,10,7)]

def ringOut : List Out := [(2,9,10),(1,2,10),(1,10,5),(1,5,0),(0,5,7),(0,7,4),(4,7,8),(4,8,6),(3,4,6),(2,3,6),(2,6,9),(6,8,9),(5,10,7)]

theorem plate_segments : Spec.segments (intPts ringGrid) plateEdges =
    [(⟨0,0⟩,⟨0,16⟩),(⟨0,16⟩,⟨16,16⟩),(⟨16,16⟩,⟨16,0⟩),(⟨16,0⟩,⟨0,0⟩)] := by
  decide +kernel

theorem plate_border : Spec.Border (intPts ringGrid) plateEdges := by
  refine ⟨?_, ?_, ?_, ?_, ?_⟩
  · rw [plate_segments]; decide +kernel
  · rw [plate_segments]; decide +kernel
  · rw [plate_segments]; decide +kernel
  · rw [plate_segments]; unfold Balanced; decide +kernel
  · rw [plate_segments]
    rintro ⟨x, y⟩ -
    simp only [winding, List.map_cons, List.map_nil, List.sum_cons, List.sum_nil, crossing_flat]
    rw [crossing_up 0 0 16 (by norm_num), crossing_down 16 16 0 (by norm_num)]
    simp only
    split_ifs with h1 h2 <;> first | decide | grind

/-- The hole is an additional constraint. -/
theorem ring_finer : Spec.Finer (intPts ringGrid) plateEdges (intPts ringGrid) ringEdges := by
  refine ⟨fun q h => h, fun q h s hs => h s ?_, ?_⟩
  · rw [plate_segments] at hs
    rw [ring_segments]
    simp only [List.mem_cons, List.not_mem_nil, or_false] at hs ⊢
    tauto
  · rw [plate_segments, ring_segments]
    rintro ⟨x, y⟩ - hw
    simp only [winding, List.map_cons, List.map_nil, List.sum_cons, List.sum_nil, crossing_flat] at hw ⊢
    rw [crossing_up 0 0 16 (by norm_num), crossing_down 16 16 0 (by norm_num), crossing_up 11 5 9 (by norm_num),
      crossing_down 3 9 5 (by norm_num)] at hw
    rw [crossing_up 0 0 16 (by norm_num), crossing_down 16 16 0 (by norm_num)]
    simp only at hw ⊢
    split_ifs at hw ⊢ <;> first | rfl | (exfalso; grind)

/-- Of the sixteen triangles of the square, all that are not met by the border of the hole stay if they are outside of it. Here it is
the triangle (3, 9), (0, 0), (0, 16). -/
example : Spec.Occurs (intPts ringGrid) ringOut ⟨3, 9⟩ ⟨0, 0⟩ ⟨0, 16⟩ := by
  refine (C100_stays_rounded 600 600 (fun _ => 1) (fun _ => 1) _ _ _ _ _ _ ring_good ring_good plateEdges ringEdges
    (nonCrossing_of_check (by decide +kernel)) (nonCrossing_of_check (by decide +kernel)) plate_border ring_border ring_finer plateOut ringOut
    (by decide +kernel) (by decide +kernel) (local_of_none (local_of_check (by decide +kernel))) (local_of_none (local_of_check (by decide +kernel)))
    (noneOnCircle_of_check (by decide +kernel)) (4, 7, 8) (by decide) _ _ _ rfl rfl rfl
    ⟨offEdges_of_check (by decide +kernel), fun _ _ X hX => .inl hX⟩ ⟨1, 8⟩ ?_).2 ?_
  · unfold InTriangle Clockwise; decide +kernel
  · decide +kernel

/-- The triangle (11, 5), (10, 3), (3, 5) is new, so around its point (9, 4) there is a triangle of the square that is met by the hole. -/
example : ∃ t ∈ plateOut, ∃ A B C : Vtx ℚ, (intPts ringGrid)[t.1]? = some A ∧ (intPts ringGrid)[t.2.1]? = some B ∧
    (intPts ringGrid)[t.2.2]? = some C ∧ InClosedTriangle A B C ⟨9, 4⟩ ∧ ¬ Spec.Untouched (intPts ringGrid) (intPts ringGrid) ringEdges A B C := by
  refine C100_new_rounded 600 600 (fun _ => 1) (fun _ => 1) _ _ _ _ _ _ ring_good ring_good plateEdges ringEdges
    (nonCrossing_of_check (by decide +kernel)) (nonCrossing_of_check (by decide +kernel)) plate_border ring_border ring_finer plateOut ringOut
    (by decide +kernel) (by decide +kernel) (local_of_none (local_of_check (by decide +kernel))) (local_of_none (local_of_check (by decide +kernel)))
    (noneOnCircle_of_check (by decide +kernel)) ⟨11, 5⟩ ⟨10, 3⟩ ⟨3, 5⟩ ⟨(1, 5, 0), by decide, _, _, _, rfl, rfl, rfl, .inl ⟨rfl, rfl, rfl⟩⟩ ?_ ⟨9, 4⟩ ?_
  · rintro ⟨o, ho, P, Q, R, gP, gQ, gR, h⟩
    have hk : ∀ o ∈ plateOut, ∀ i ∈ [o.1, o.2.1, o.2.2], ∀ j ∈ [o.1, o.2.1, o.2.2], ∀ k ∈ [o.1, o.2.1, o.2.2],
        ¬ ((intPts ringGrid)[i]? = some (⟨11, 5⟩ : Vtx ℚ) ∧ (intPts ringGrid)[j]? = some (⟨10, 3⟩ : Vtx ℚ) ∧
          (intPts ringGrid)[k]? = some (⟨3, 5⟩ : Vtx ℚ)) := by decide +kernel
    rcases h with ⟨rfl, rfl, rfl⟩ | ⟨rfl, rfl, rfl⟩ | ⟨rfl, rfl, rfl⟩
    · exact hk o ho _ (by simp) _ (by simp) _ (by simp) ⟨gP, gQ, gR⟩
    · exact hk o ho _ (by simp) _ (by simp) _ (by simp) ⟨gR, gP, gQ⟩
    · exact hk o ho _ (by simp) _ (by simp) _ (by simp) ⟨gQ, gR, gP⟩
  · unfold InTriangle Clockwise; decide +kernel

end Example

end CDT

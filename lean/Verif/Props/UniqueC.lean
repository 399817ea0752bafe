import Verif.Props.Visible
import Verif.Props.Unique

/-!
# C69: the constrained Delaunay triangulation is unique, so the output does not depend on the order of vertices and constraints
-/

set_option linter.unusedSectionVars false
set_option linter.unusedVariables false

namespace CDT
open Plane

section Plain
variable {K : Type} [Field K] [LinearOrder K] [IsStrictOrderedRing K]

theorem segments_mem {vs : List (Vtx K)} {es : List Edge} {e : Edge} (he : e ∈ es) {A B : Vtx K} (gA : vs[e.src]? = some A)
    (gB : vs[e.dst]? = some B) : (A, B) ∈ Spec.segments vs es := by
  unfold Spec.segments
  exact List.mem_filterMap.2 ⟨e, he, by simp [gA, gB]⟩

/-- No vertex and no point of a constraint is inside a triangle. -/
def Spec.OpenFree (vs : List (Vtx K)) (es : List Edge) (out : List (Nat × Nat × Nat)) : Prop :=
  ∀ t ∈ out, ∀ A B C, vs[t.1]? = some A → vs[t.2.1]? = some B → vs[t.2.2]? = some C → ∀ x, InTriangle A B C x →
    x ∉ vs ∧ OffEdges (Spec.segments vs es) x

theorem bary_pow {A B C q : Vtx K} (α β γ : K) : area2 A B C * (α + β * q.x + γ * q.y) = area2 B C q * (α + β * A.x + γ * A.y) +
    area2 C A q * (α + β * B.x + γ * B.y) + area2 A B q * (α + β * C.x + γ * C.y) := by
  unfold area2; ring

/-- Two triangles with a common inner point whose circles contain no corner of the other one have the same circle. -/
theorem same_circle_in {A B C A' B' C' m m' q : Vtx K} (hc : Clockwise A B C) (hc' : Clockwise A' B' C') (hm : Circumcenter m A B C)
    (hm' : Circumcenter m' A' B' C') (hq : InTriangle A B C q) (hq' : InTriangle A' B' C' q)
    (o1 : dist2 m' A' ≤ dist2 m' A) (o2 : dist2 m' A' ≤ dist2 m' B) (o3 : dist2 m' A' ≤ dist2 m' C)
    (o1' : dist2 m A ≤ dist2 m A') (o2' : dist2 m A ≤ dist2 m B') (o3' : dist2 m A ≤ dist2 m C') :
    m = m' ∧ dist2 m A = dist2 m A' := by
  obtain ⟨α, β, γ, hf⟩ := power_affine m m' A A'
  have fA := hf A; have fB := hf B; have fC := hf C; have fA' := hf A'; have fB' := hf B'; have fC' := hf C'
  obtain ⟨e1, e2⟩ := hm
  obtain ⟨e1', e2'⟩ := hm'
  have b := bary_pow (A := A) (B := B) (C := C) (q := q) α β γ
  have b' := bary_pow (A := A') (B := B') (C := C') (q := q) α β γ
  obtain ⟨i1, i2, i3⟩ := hq
  obtain ⟨j1, j2, j3⟩ := hq'
  unfold Clockwise at *
  have n1 := mul_nonneg_of_nonpos_of_nonpos i2.le (show α + β * A.x + γ * A.y ≤ 0 by linarith)
  have n2 := mul_nonneg_of_nonpos_of_nonpos i3.le (show α + β * B.x + γ * B.y ≤ 0 by linarith)
  have n3 := mul_nonneg_of_nonpos_of_nonpos i1.le (show α + β * C.x + γ * C.y ≤ 0 by linarith)
  have n1' := mul_nonpos_of_nonpos_of_nonneg j2.le (show 0 ≤ α + β * A'.x + γ * A'.y by linarith)
  have n2' := mul_nonpos_of_nonpos_of_nonneg j3.le (show 0 ≤ α + β * B'.x + γ * B'.y by linarith)
  have n3' := mul_nonpos_of_nonpos_of_nonneg j1.le (show 0 ≤ α + β * C'.x + γ * C'.y by linarith)
  have hp : 0 ≤ α + β * q.x + γ * q.y := by
    by_contra hn
    have := mul_pos_of_neg_of_neg hc' (not_le.1 hn)
    linarith
  have hp' := mul_nonpos_of_nonpos_of_nonneg hc.le hp
  have zA := (mul_eq_zero.1 (show area2 B C q * (α + β * A.x + γ * A.y) = 0 by linarith)).resolve_left i2.ne
  have zB := (mul_eq_zero.1 (show area2 C A q * (α + β * B.x + γ * B.y) = 0 by linarith)).resolve_left i3.ne
  have zC := (mul_eq_zero.1 (show area2 A B q * (α + β * C.x + γ * C.y) = 0 by linarith)).resolve_left i1.ne
  have hmm : m = m' := circumcenter_unique (ne_of_lt hc) ⟨e1, e2⟩ ⟨by linarith, by linarith⟩
  subst hmm
  exact ⟨rfl, by linarith⟩

theorem inTriangle_cyc {a b c x : Vtx K} (h : InTriangle a b c x) : InTriangle b c a x := ⟨h.2.1, h.2.2, h.1⟩

/-- Between a point inside a triangle and a corner there are only points inside. -/
theorem inTriangle_toward {A B C q x : Vtx K} (hc : Clockwise A B C) (hq : InTriangle A B C q) (hx : InsideSegment q A x) : InTriangle A B C x := by
  obtain ⟨s, s0, s1, ex, ey⟩ := hx
  obtain ⟨h1, h2, h3⟩ := hq
  unfold InTriangle Clockwise at *
  have e1 : area2 A B x = (1 - s) * area2 A B q := by unfold area2; rw [ex, ey]; ring
  have e2 : area2 B C x = (1 - s) * area2 B C q + s * area2 A B C := by unfold area2; rw [ex, ey]; ring
  have e3 : area2 C A x = (1 - s) * area2 C A q := by unfold area2; rw [ex, ey]; ring
  have p := sub_pos.2 s1
  have := mul_neg_of_pos_of_neg p h1
  have := mul_neg_of_pos_of_neg p h2
  have := mul_neg_of_pos_of_neg p h3
  have := mul_neg_of_pos_of_neg s0 hc
  exact ⟨by rw [e1]; assumption, by rw [e2]; linarith, by rw [e3]; assumption⟩

/-- A point inside the first triangle and in the closed second one: there is a common inner point. -/
theorem common_point {A B C A' B' C' p : Vtx K} (hc' : Clockwise A' B' C') (h : InTriangle A B C p) (h' : InClosedTriangle A' B' C' p) :
    ∃ q, InTriangle A B C q ∧ InTriangle A' B' C' q := by
  set g : Vtx K := ⟨(A'.x + B'.x + C'.x) / 3, (A'.y + B'.y + C'.y) / 3⟩ with hg
  have g1 : area2 A' B' g < 0 := by
    have : area2 A' B' g = area2 A' B' C' / 3 := by unfold area2; simp only [hg]; field_simp; ring
    rw [this]; unfold Clockwise at hc'; linarith
  have g2 : area2 B' C' g < 0 := by
    have : area2 B' C' g = area2 A' B' C' / 3 := by unfold area2; simp only [hg]; field_simp; ring
    rw [this]; unfold Clockwise at hc'; linarith
  have g3 : area2 C' A' g < 0 := by
    have : area2 C' A' g = area2 A' B' C' / 3 := by unfold area2; simp only [hg]; field_simp; ring
    rw [this]; unfold Clockwise at hc'; linarith
  have near : ∀ X Y : Vtx K, area2 X Y p < 0 → ∃ d, 0 < d ∧ ∀ e, 0 < e → e < d → area2 X Y (along p g e) < 0 := by
    intro X Y hXY
    rcases le_or_gt (area2 X Y g - area2 X Y p) 0 with hd | hd
    · refine ⟨1, one_pos, fun e he _ => ?_⟩
      rw [area2_along]
      have := mul_nonpos_of_nonneg_of_nonpos he.le hd
      linarith
    · refine ⟨-area2 X Y p / (area2 X Y g - area2 X Y p), div_pos (by linarith) hd, fun e he hed => ?_⟩
      rw [area2_along]
      rw [lt_div_iff₀ hd] at hed
      linarith
  obtain ⟨d1, p1, n1⟩ := near _ _ h.1
  obtain ⟨d2, p2, n2⟩ := near _ _ h.2.1
  obtain ⟨d3, p3, n3⟩ := near _ _ h.2.2
  obtain ⟨e, he, hed⟩ := exists_between (show (0 : K) < min 1 (min d1 (min d2 d3)) by positivity)
  simp only [lt_min_iff] at hed
  refine ⟨along p g e, ⟨n1 e he hed.2.1, n2 e he hed.2.2.1, n3 e he hed.2.2.2⟩, ?_⟩
  have key : ∀ X Y : Vtx K, area2 X Y p ≤ 0 → area2 X Y g < 0 → area2 X Y (along p g e) < 0 := by
    intro X Y h1 h2
    rw [area2_along]
    have := mul_nonpos_of_nonneg_of_nonpos (sub_nonneg.2 hed.1.le) h1
    have := mul_neg_of_pos_of_neg he h2
    linarith
  exact ⟨key _ _ h'.1 g1, key _ _ h'.2.1 g2, key _ _ h'.2.2 g3⟩

/-- The corners of a triangle can be seen from its inside, also with respect to another triangulation of the same region. -/
theorem corners_visible {vs vs' : List (Vtx K)} {es es' : List Edge} {out out' : List (Nat × Nat × Nat)}
    (hs : ∀ q, q ∈ vs ↔ q ∈ vs') (hseg : ∀ q, OffEdges (Spec.segments vs' es') q → OffEdges (Spec.segments vs es) q)
    (hcov : ∀ q, OffEdges (Spec.segments vs es) q → Spec.Covered vs' out' q → Spec.Covered vs out q)
    (hfree : Spec.OpenFree vs' es' out') {t : Nat × Nat × Nat} (ht : t ∈ out') {A B C : Vtx K} (gA : vs'[t.1]? = some A)
    (gB : vs'[t.2.1]? = some B) (gC : vs'[t.2.2]? = some C) (hc : Clockwise A B C) {q : Vtx K} (hq : InTriangle A B C q) :
    Spec.Visible vs es out q A ∧ Spec.Visible vs es out q B ∧ Spec.Visible vs es out q C := by
  have key : ∀ x, InTriangle A B C x → x ∉ vs ∧ Spec.Covered vs out x ∧
      ∀ e ∈ es, ∀ A B, vs[e.src]? = some A → vs[e.dst]? = some B → ¬ OnSegment A B x := by
    intro x hx
    obtain ⟨f1, f2⟩ := hfree t ht A B C gA gB gC x hx
    have f2 := hseg x f2
    refine ⟨fun hm => f1 ((hs x).1 hm), hcov x f2 ⟨t, ht, A, B, C, gA, gB, gC, hx.1.le, hx.2.1.le, hx.2.2.le⟩, ?_⟩
    intro e he X Y gX gY
    exact f2 (X, Y) (segments_mem he gX gY)
  refine ⟨fun x hx => key x (inTriangle_toward hc hq hx), fun x hx => key x ?_, fun x hx => key x ?_⟩
  · exact inTriangle_cyc (inTriangle_cyc (inTriangle_toward (A := B) (B := C) (C := A) (by unfold Clockwise at *; rw [area2_cyc]; exact hc) (inTriangle_cyc hq) hx))
  · exact inTriangle_cyc (inTriangle_toward (A := C) (B := A) (C := B) (by unfold Clockwise at *; rw [← area2_cyc]; exact hc)
      (inTriangle_cyc (inTriangle_cyc hq)) hx)

/-- Overlapping triangles of two constrained Delaunay triangulations of the same region, vertices and constraints are the same,
if the first one is strictly Delaunay. -/
theorem overlap_same {vs vs' : List (Vtx K)} {es es' : List Edge} {out out' : List (Nat × Nat × Nat)}
    (hs : ∀ q, q ∈ vs ↔ q ∈ vs') (hseg : ∀ q, OffEdges (Spec.segments vs es) q ↔ OffEdges (Spec.segments vs' es') q)
    (hcov : ∀ q, OffEdges (Spec.segments vs es) q → (Spec.Covered vs out q ↔ Spec.Covered vs' out' q))
    (hg : Spec.NoneOnCircle vs es out) (hfree : Spec.OpenFree vs es out) (hfree' : Spec.OpenFree vs' es' out')
    (hD : Spec.ConstrainedDelaunay vs es out) (hD' : Spec.ConstrainedDelaunay vs' es' out') {t t' : Nat × Nat × Nat} (ht : t ∈ out)
    (ht' : t' ∈ out') {P Q R P' Q' R' q : Vtx K} (gP : vs[t.1]? = some P) (gQ : vs[t.2.1]? = some Q) (gR : vs[t.2.2]? = some R)
    (gP' : vs'[t'.1]? = some P') (gQ' : vs'[t'.2.1]? = some Q') (gR' : vs'[t'.2.2]? = some R') (hc : Clockwise P Q R)
    (hc' : Clockwise P' Q' R') (hq : InTriangle P Q R q) (hq' : InTriangle P' Q' R' q) :
    (P' = P ∧ Q' = Q ∧ R' = R) ∨ (P' = Q ∧ Q' = R ∧ R' = P) ∨ (P' = R ∧ Q' = P ∧ R' = Q) := by
  obtain ⟨v1, v2, v3⟩ := corners_visible (vs := vs) (es := es) (out := out) hs (fun x h => (hseg x).2 h) (fun x h => (hcov x h).2) hfree'
    ht' gP' gQ' gR' hc' hq'
  obtain ⟨v1', v2', v3'⟩ := corners_visible (vs := vs') (es := es') (out := out') (fun q => (hs q).symm) (fun x h => (hseg x).1 h)
    (fun x h => (hcov x ((hseg x).2 h)).1) hfree ht gP gQ gR hc hq
  obtain ⟨m, hm⟩ := exists_circumcenter P Q R (ne_of_lt hc)
  obtain ⟨m', hm'⟩ := exists_circumcenter P' Q' R' (ne_of_lt hc')
  have mem := fun {i : Nat} {X : Vtx K} (g : vs[i]? = some X) => List.mem_of_getElem? g
  have mem' := fun {i : Nat} {X : Vtx K} (g : vs'[i]? = some X) => (hs X).2 (List.mem_of_getElem? g)
  have o' : ∀ X, X ∈ vs → Spec.Visible vs' es' out' q X → dist2 m' P' ≤ dist2 m' X := fun X hX hv =>
    not_lt.1 fun hl => hD' t' ht' P' Q' R' gP' gQ' gR' q hq' X ((hs X).1 hX) hv ⟨m', hm', hl⟩
  have o : ∀ X, X ∈ vs → Spec.Visible vs es out q X → dist2 m P ≤ dist2 m X := fun X hX hv =>
    not_lt.1 fun hl => hD t ht P Q R gP gQ gR q hq X hX hv ⟨m, hm, hl⟩
  obtain ⟨rfl, heq⟩ := same_circle_in hc hc' hm hm' hq hq' (o' _ (mem gP) v1') (o' _ (mem gQ) v2') (o' _ (mem gR) v3')
    (o _ (mem' gP') v1) (o _ (mem' gQ') v2) (o _ (mem' gR') v3)
  have on := fun X hX hv hd => hg t ht P Q R gP gQ gR q hq X hX hv m hm hd
  exact same_corners hc hc' (on P' (mem' gP') v1 heq.symm) (on Q' (mem' gQ') v2 (by rw [← hm'.1, heq]))
    (on R' (mem' gR') v3 (by rw [← hm'.2, heq]))

theorem centroid_in {P Q R : Vtx K} (hc : Clockwise P Q R) : InTriangle P Q R ⟨(P.x + Q.x + R.x) / 3, (P.y + Q.y + R.y) / 3⟩ := by
  have : ∀ z, z = area2 P Q R / 3 → z < 0 := by rintro z rfl; unfold Clockwise at hc; linarith
  refine ⟨this _ ?_, this _ ?_, this _ ?_⟩ <;> (unfold area2; field_simp; ring)

/-- Two constrained Delaunay triangulations of the same region, vertices and constraints have the same triangles, if one of them is
strictly Delaunay. -/
theorem cdt_unique {vs vs' : List (Vtx K)} {es es' : List Edge} {out out' : List (Nat × Nat × Nat)}
    (hs : ∀ q, q ∈ vs ↔ q ∈ vs') (hseg : ∀ q, OffEdges (Spec.segments vs es) q ↔ OffEdges (Spec.segments vs' es') q)
    (hcov : ∀ q, OffEdges (Spec.segments vs es) q → (Spec.Covered vs out q ↔ Spec.Covered vs' out' q))
    (hg : Spec.NoneOnCircle vs es out)
    (hcw : ∀ t ∈ out, ∃ A B C, vs[t.1]? = some A ∧ vs[t.2.1]? = some B ∧ vs[t.2.2]? = some C ∧ Clockwise A B C)
    (hcw' : ∀ t ∈ out', ∃ A B C, vs'[t.1]? = some A ∧ vs'[t.2.1]? = some B ∧ vs'[t.2.2]? = some C ∧ Clockwise A B C)
    (hfree : Spec.OpenFree vs es out) (hfree' : Spec.OpenFree vs' es' out')
    (hD : Spec.ConstrainedDelaunay vs es out) (hD' : Spec.ConstrainedDelaunay vs' es' out') (A B C : Vtx K) :
    Spec.Occurs vs out A B C ↔ Spec.Occurs vs' out' A B C := by
  constructor
  · rintro ⟨t, ht, P, Q, R, gP, gQ, gR, hrot⟩
    obtain ⟨P', Q', R', gP', gQ', gR', hc⟩ := hcw t ht
    rw [gP] at gP'; rw [gQ] at gQ'; rw [gR] at gR'; cases gP'; cases gQ'; cases gR'
    have hcen := centroid_in hc
    obtain ⟨-, hoff⟩ := hfree t ht P Q R gP gQ gR _ hcen
    obtain ⟨t', ht', P', Q', R', gP', gQ', gR', hcl⟩ := (hcov _ hoff).1 ⟨t, ht, P, Q, R, gP, gQ, gR, hcen.1.le, hcen.2.1.le, hcen.2.2.le⟩
    obtain ⟨P'', Q'', R'', gP'', gQ'', gR'', hc'⟩ := hcw' t' ht'
    rw [gP'] at gP''; rw [gQ'] at gQ''; rw [gR'] at gR''; cases gP''; cases gQ''; cases gR''
    obtain ⟨q, hq, hq'⟩ := common_point hc' hcen hcl
    have := overlap_same hs hseg hcov hg hfree hfree' hD hD' ht ht' gP gQ gR gP' gQ' gR' hc hc' hq hq'
    refine ⟨t', ht', P', Q', R', gP', gQ', gR', ?_⟩
    rcases hrot with ⟨rfl, rfl, rfl⟩ | ⟨rfl, rfl, rfl⟩ | ⟨rfl, rfl, rfl⟩ <;>
      rcases this with ⟨rfl, rfl, rfl⟩ | ⟨rfl, rfl, rfl⟩ | ⟨rfl, rfl, rfl⟩ <;> simp
  · rintro ⟨t', ht', P', Q', R', gP', gQ', gR', hrot⟩
    obtain ⟨P, Q, R, gP, gQ, gR, hc'⟩ := hcw' t' ht'
    rw [gP'] at gP; rw [gQ'] at gQ; rw [gR'] at gR; cases gP; cases gQ; cases gR
    have hcen := centroid_in hc'
    obtain ⟨-, hoff⟩ := hfree' t' ht' P' Q' R' gP' gQ' gR' _ hcen
    obtain ⟨t, ht, P, Q, R, gP, gQ, gR, hcl⟩ := (hcov _ ((hseg _).2 hoff)).2
      ⟨t', ht', P', Q', R', gP', gQ', gR', hcen.1.le, hcen.2.1.le, hcen.2.2.le⟩
    obtain ⟨P'', Q'', R'', gP'', gQ'', gR'', hc⟩ := hcw t ht
    rw [gP] at gP''; rw [gQ] at gQ''; rw [gR] at gR''; cases gP''; cases gQ''; cases gR''
    obtain ⟨q, hq', hq⟩ := common_point hc hcen hcl
    have := overlap_same hs hseg hcov hg hfree hfree' hD hD' ht ht' gP gQ gR gP' gQ' gR' hc hc' hq hq'
    refine ⟨t, ht, P, Q, R, gP, gQ, gR, ?_⟩
    rcases hrot with ⟨rfl, rfl, rfl⟩ | ⟨rfl, rfl, rfl⟩ | ⟨rfl, rfl, rfl⟩ <;>
      rcases this with ⟨rfl, rfl, rfl⟩ | ⟨rfl, rfl, rfl⟩ | ⟨rfl, rfl, rfl⟩ <;> simp

end Plain

section Run
variable {K : Type} [Field K] [LinearOrder K] [IsStrictOrderedRing K] [ExactParams K] [IdCfg]

/-- No vertex and no point of a constraint is inside an output triangle. -/
theorem Good.open_free {fuel : Nat} {bins : Nat → Nat} {vs : List (Vtx K)} (h : Good fuel bins vs) (hf : fuelFor vs.length ≤ fuel)
    {es : List Edge} (hx : Spec.NonCrossing vs es) (hb : ∀ s ∈ Spec.segments vs es, s.1 ≠ s.2) {out : List Out}
    (ho : constrained2d fuel bins vs es = .ok out) : Spec.OpenFree vs es out := by
  intro t ht A B C gA gB gC x hin
  have hni := h.ids_inf
  have hscale := h.scale
  have hs2 : 0 < scaleFactor vs ^ 2 := by positivity
  constructor
  · intro hm
    rcases h.output_empty ho t ht _ _ _ A B C x (.inl rfl) gA gB gC hm ⟨hin.1.le, hin.2.1.le, hin.2.2.le⟩ with rfl | rfl | rfl
    · obtain ⟨h1, -, -⟩ := hin; unfold Clockwise area2 at h1; linarith
    · obtain ⟨h1, -, -⟩ := hin; unfold Clockwise area2 at h1; linarith
    · obtain ⟨-, h1, -⟩ := hin; unfold Clockwise area2 at h1; linarith
  by_cases h3 : 3 ≤ vs.length
  swap
  · rw [output_small h3 ho] at ht; simp at ht
  obtain ⟨r, ids, s, v2t, hr, hd, hs, hv2, hA, hmi, hml, hpos, hrun, tri⟩ := h.output_run h3 ho
  obtain ⟨hv, hok, hT⟩ := h.cmesh_inv hr
  obtain ⟨i, T, hTi, rfl, -, -⟩ := tri _ ht
  change vs[T.v1]? = _ at gA
  change vs[T.v2]? = _ at gB
  change vs[T.v3]? = _ at gC
  have hinAt : InAt (hp (normalizeVerts vs)) r.ts (HP.ofVtx (toNorm vs x)) i := by
    refine ⟨T, hTi, ?_, ?_, ?_⟩
    · rw [side_norm hscale hni gA gB, neg_pos]; exact div_neg_of_neg_of_pos hin.1 hs2
    · rw [side_norm hscale hni gB gC, neg_pos]; exact div_neg_of_neg_of_pos hin.2.1 hs2
    · rw [side_norm hscale hni gC gA, neg_pos]; exact div_neg_of_neg_of_pos hin.2.2 hs2
  intro sg hsg hon
  obtain ⟨e, he, g1, g2⟩ := mem_segments.1 hsg
  obtain ⟨a, ha⟩ : ∃ w, (s.merge.getD [])[e.src]? = some w := ⟨_, List.getElem?_eq_getElem (hml ▸ lt_of_getElem? g1)⟩
  obtain ⟨b, hb'⟩ : ∃ w, (s.merge.getD [])[e.dst]? = some w := ⟨_, List.getElem?_eq_getElem (hml ▸ lt_of_getElem? g2)⟩
  have ga := (hpos _ _ ha).trans g1
  have gb := (hpos _ _ hb').trans g2
  have hab : a ≠ b := by
    rintro rfl
    rw [ga] at gb; simp at gb
    exact hb sg hsg gb
  have hl : (normalizeVerts vs).length = vs.length := by rw [normalizeVerts_eq]; simp
  have la : a < INF0 := by have := lt_of_getElem? ga; omega
  have lb : b < INF0 := by have := lt_of_getElem? gb; omega
  have pa : pt (normalizeVerts vs) a = toNorm vs sg.1 := by unfold pt; rw [hp_norm_eq hni ga]; rfl
  have pb : pt (normalizeVerts vs) b = toNorm vs sg.2 := by unfold pt; rw [hp_norm_eq hni gb]; rfl
  obtain ⟨k, l, hent⟩ := h.merged_edge hf hx hs hv2 hrun he ha hb' hab
  refine inAt_off hv hT hinAt la lb hent ?_
  rw [pa, pb]
  exact (onSegment_aff hscale _ _ _).2 hon

end Run

section Plain
variable {K : Type} [Field K] [LinearOrder K] [IsStrictOrderedRing K]

/-- What the other properties say about the result of a run. -/
structure CdtOf (vs : List (Vtx K)) (es : List Edge) (out : List (Nat × Nat × Nat)) : Prop where
  border : Spec.Border vs es
  cw : ∀ t ∈ out, ∃ A B C, vs[t.1]? = some A ∧ vs[t.2.1]? = some B ∧ vs[t.2.2]? = some C ∧ Clockwise A B C
  free : Spec.OpenFree vs es out
  cover : ∀ q, OffEdges (Spec.segments vs es) q → (Spec.Covered vs out q ↔ winding (Spec.segments vs es) q = 1)
  cdt : Spec.ConstrainedDelaunay vs es out

theorem CdtOf.unique {vs vs' : List (Vtx K)} {es es' : List Edge} {out out' : List (Nat × Nat × Nat)} (h : CdtOf vs es out)
    (h' : CdtOf vs' es' out') (hs : ∀ q, q ∈ vs ↔ q ∈ vs') (he : ∀ s, s ∈ Spec.segments vs es ↔ s ∈ Spec.segments vs' es')
    (hg : Spec.NoneOnCircle vs es out) (A B C : Vtx K) : Spec.Occurs vs out A B C ↔ Spec.Occurs vs' out' A B C := by
  have hp : (Spec.segments vs es).Perm (Spec.segments vs' es') := (List.perm_ext_iff_of_nodup h.border.nodup h'.border.nodup).2 he
  have ho : ∀ q, OffEdges (Spec.segments vs es) q ↔ OffEdges (Spec.segments vs' es') q := fun q =>
    ⟨fun h s hs => h s ((he s).2 hs), fun h s hs => h s ((he s).1 hs)⟩
  refine cdt_unique hs ho (fun q hq => ?_) hg h.cw h'.cw h.free h'.free h.cdt h'.cdt A B C
  rw [h.cover q hq, h'.cover q ((ho q).1 hq)]
  unfold winding
  rw [(hp.map _).sum_eq]

theorem noneOnCircle_of_general {vs : List (Vtx K)} (hg : Spec.NoFourOnCircle vs) {es : List Edge} {out : List (Nat × Nat × Nat)}
    (hcw : ∀ t ∈ out, ∃ A B C, vs[t.1]? = some A ∧ vs[t.2.1]? = some B ∧ vs[t.2.2]? = some C ∧ Clockwise A B C) :
    Spec.NoneOnCircle vs es out := by
  intro t ht P Q R gP gQ gR q hq X hX hv m hm hd
  obtain ⟨P', Q', R', gP', gQ', gR', hc⟩ := hcw t ht
  rw [gP] at gP'; rw [gQ] at gQ'; rw [gR] at gR'; cases gP'; cases gQ'; cases gR'
  have n1 : P ≠ Q := by rintro rfl; unfold Clockwise area2 at hc; linarith
  have n2 : Q ≠ R := by rintro rfl; unfold Clockwise area2 at hc; linarith
  have n3 : R ≠ P := by rintro rfl; unfold Clockwise area2 at hc; linarith
  by_contra hn
  push Not at hn
  exact hg P (List.mem_of_getElem? gP) Q (List.mem_of_getElem? gQ) R (List.mem_of_getElem? gR) X hX n1 n2 n3 hn.1 hn.2.1 hn.2.2 m hm hd

end Plain

section Run
variable {K : Type} [Field K] [LinearOrder K] [IsStrictOrderedRing K] [ExactParams K] [IdCfg]

theorem Good.cdtOf {fuel : Nat} {bins : Nat → Nat} {vs : List (Vtx K)} (h : Good fuel bins vs) (hf : fuelFor vs.length ≤ fuel)
    {es : List Edge} (hx : Spec.NonCrossing vs es) (hb : Spec.Border vs es) {out : List Out}
    (ho : constrained2d fuel bins vs es = .ok out) (hl : Spec.LocallyDelaunay vs es out) : CdtOf vs es out where
  border := hb
  cw := fun t ht => C30_output_clockwise fuel bins vs h es out ho _ _ _ (show (t.1, t.2.1, t.2.2) ∈ out from ht)
  free := h.open_free hf hx hb.ne ho
  cover := fun q hq => C57_polygon fuel bins vs h hf es hx hb out ho q hq
  cdt := C68_global fuel bins vs h es out ho hl

/-- **C69** (exact arithmetic): two runs on the same points and the same border constraints, numbered and ordered in any way and with
any bin counts, that both end locally Delaunay, return the same triangles, unless a vertex that can be seen from a triangle is on
its circumcircle. -/
theorem C69_unique (fuel fuel' : Nat) (bins bins' : Nat → Nat) (vs vs' : List (Vtx K)) (h : Good fuel bins vs)
    (h' : Good fuel' bins' vs') (hf : fuelFor vs.length ≤ fuel) (hf' : fuelFor vs'.length ≤ fuel') (es es' : List Edge)
    (hx : Spec.NonCrossing vs es) (hx' : Spec.NonCrossing vs' es') (hb : Spec.Border vs es) (hb' : Spec.Border vs' es')
    (hs : ∀ q, q ∈ vs ↔ q ∈ vs') (he : ∀ s, s ∈ Spec.segments vs es ↔ s ∈ Spec.segments vs' es') (out out' : List Out)
    (ho : constrained2d fuel bins vs es = .ok out) (ho' : constrained2d fuel' bins' vs' es' = .ok out')
    (hl : Spec.LocallyDelaunay vs es out) (hl' : Spec.LocallyDelaunay vs' es' out') (hg : Spec.NoneOnCircle vs es out) (A B C : Vtx K) :
    Spec.Occurs vs out A B C ↔ Spec.Occurs vs' out' A B C :=
  (h.cdtOf hf hx hb ho hl).unique (h'.cdtOf hf' hx' hb' ho' hl') hs he hg A B C

/-- **C69** for framed points, one bin, and constraints that cross at most one edge each: both runs succeed, and they return the same triangles
unless a vertex that can be seen from a triangle is on its circumcircle. -/
theorem C69_single (hcfg : RealCfg) (fuel fuel' : Nat) (bins bins' : Nat → Nat) (vs vs' : List (Vtx K)) (h : Good fuel bins vs)
    (h' : Good fuel' bins' vs') (hf : fuelFor vs.length ≤ fuel) (hf' : fuelFor vs'.length ≤ fuel') (h1 : bins vs.length = 1)
    (h1' : bins' vs'.length = 1) (x0 x1 y0 y1 x0' x1' y0' y1' : K) (hfr : Spec.Framed vs x0 x1 y0 y1) (hfr' : Spec.Framed vs' x0' x1' y0' y1')
    (es es' : List Edge) (hc : Spec.ClearOfVertices vs es) (hc' : Spec.ClearOfVertices vs' es')
    (hx : Spec.NonCrossing vs es) (hx' : Spec.NonCrossing vs' es') (hb : Spec.Border vs es) (hb' : Spec.Border vs' es')
    (hs : ∀ q, q ∈ vs ↔ q ∈ vs') (he : ∀ s, s ∈ Spec.segments vs es ↔ s ∈ Spec.segments vs' es') (out0 out0' : List Out)
    (h0 : triangulation2d fuel bins vs = .ok out0) (h0' : triangulation2d fuel' bins' vs' = .ok out0') (hone : Spec.SingleCross vs es out0)
    (hone' : Spec.SingleCross vs' es' out0') :
    ∃ out out', constrained2d fuel bins vs es = .ok out ∧ constrained2d fuel' bins' vs' es' = .ok out' ∧
      (Spec.NoneOnCircle vs es out → ∀ A B C, Spec.Occurs vs out A B C ↔ Spec.Occurs vs' out' A B C) := by
  obtain ⟨out, ho, hl⟩ := C59_single_partial hcfg fuel bins vs h hf h1 x0 x1 y0 y1 hfr es hc hx out0 h0 hone
  obtain ⟨out', ho', hl'⟩ := C59_single_partial hcfg fuel' bins' vs' h' hf' h1' x0' x1' y0' y1' hfr' es' hc' hx' out0' h0' hone'
  exact ⟨out, out', ho, ho', fun hg => C69_unique fuel fuel' bins bins' vs vs' h h' hf hf' es es' hx hx' hb hb' hs he out out' ho ho' hl hl' hg⟩

end Run

theorem Rounded.RGoodC.cdtOf {F : Type} [FloatOps F] [Rounded F] [IdCfg] {fuel : Nat} {bins : Nat → Nat} {vs : List (Vtx F)}
    {V : List (Vtx ℚ)} {W : ℚ} (h : Rounded.RGoodC fuel bins vs V W) {es : List Edge} (hx : Spec.NonCrossing V es) (hb : Spec.Border V es)
    {out : List Out} (ho : constrained2d fuel bins vs es = .ok out) (hl : Spec.LocallyDelaunay V es out) : CdtOf V es out := by
  let P := Rounded.params F (bins vs.length) W (Rounded.scaleVal vs)
  rw [h.run] at ho
  exact Good.cdtOf h.good (by rw [h.len]; exact h.fuelC) hx hb ho hl

/-- **C69** in rounded arithmetic on robust inputs and on grids; `V`, `V'` are the exact positions. The two runs may even use
different float types. -/
theorem C69_rounded {F F' : Type} [FloatOps F] [Rounded F] [FloatOps F'] [Rounded F'] [IdCfg] (fuel fuel' : Nat) (bins bins' : Nat → Nat)
    (vs : List (Vtx F)) (vs' : List (Vtx F')) (V V' : List (Vtx ℚ)) (W W' : ℚ) (h : Rounded.RGoodC fuel bins vs V W)
    (h' : Rounded.RGoodC fuel' bins' vs' V' W') (es es' : List Edge) (hx : Spec.NonCrossing V es) (hx' : Spec.NonCrossing V' es')
    (hb : Spec.Border V es) (hb' : Spec.Border V' es') (hs : ∀ q, q ∈ V ↔ q ∈ V')
    (he : ∀ s, s ∈ Spec.segments V es ↔ s ∈ Spec.segments V' es') (out out' : List Out)
    (ho : constrained2d fuel bins vs es = .ok out) (ho' : constrained2d fuel' bins' vs' es' = .ok out')
    (hl : Spec.LocallyDelaunay V es out) (hl' : Spec.LocallyDelaunay V' es' out') (hg : Spec.NoneOnCircle V es out) (A B C : Vtx ℚ) :
    Spec.Occurs V out A B C ↔ Spec.Occurs V' out' A B C :=
  (h.cdtOf hx hb ho hl).unique (h'.cdtOf hx' hb' ho' hl') hs he hg A B C

/-- **C69** in rounded arithmetic, for framed points and constraints that cross at most one edge each. -/
theorem C69_single_rounded {F F' : Type} [FloatOps F] [Rounded F] [FloatOps F'] [Rounded F'] [IdCfg] (hcfg : RealCfg) (fuel fuel' : Nat)
    (bins bins' : Nat → Nat) (vs : List (Vtx F)) (vs' : List (Vtx F')) (V V' : List (Vtx ℚ)) (W W' : ℚ)
    (h : Rounded.RGoodC fuel bins vs V W) (h' : Rounded.RGoodC fuel' bins' vs' V' W') (h1 : bins vs.length = 1) (h1' : bins' vs'.length = 1)
    (x0 x1 y0 y1 x0' x1' y0' y1' : ℚ) (hfr : Spec.Framed V x0 x1 y0 y1) (hfr' : Spec.Framed V' x0' x1' y0' y1') (es es' : List Edge)
    (hc : Spec.ClearOfVertices V es) (hc' : Spec.ClearOfVertices V' es') (hx : Spec.NonCrossing V es) (hx' : Spec.NonCrossing V' es')
    (hb : Spec.Border V es) (hb' : Spec.Border V' es') (hs : ∀ q, q ∈ V ↔ q ∈ V')
    (he : ∀ s, s ∈ Spec.segments V es ↔ s ∈ Spec.segments V' es') (out0 out0' : List Out)
    (h0 : triangulation2d fuel bins vs = .ok out0) (h0' : triangulation2d fuel' bins' vs' = .ok out0') (hone : Spec.SingleCross V es out0)
    (hone' : Spec.SingleCross V' es' out0') :
    ∃ out out', constrained2d fuel bins vs es = .ok out ∧ constrained2d fuel' bins' vs' es' = .ok out' ∧
      (Spec.NoneOnCircle V es out → ∀ A B C, Spec.Occurs V out A B C ↔ Spec.Occurs V' out' A B C) := by
  obtain ⟨out, ho, hl⟩ := C59_single_rounded_partial hcfg fuel bins vs V W h h1 x0 x1 y0 y1 hfr es hc hx out0 h0 hone
  obtain ⟨out', ho', hl'⟩ := C59_single_rounded_partial hcfg fuel' bins' vs' V' W' h' h1' x0' x1' y0' y1' hfr' es' hc' hx' out0' h0' hone'
  exact ⟨out, out', ho, ho', fun hg => C69_rounded fuel fuel' bins bins' vs vs' V V' W W' h h' es es' hx hx' hb hb' hs he out out' ho ho' hl hl' hg⟩

section Test
variable {K : Type} [Field K] [LinearOrder K] [IsStrictOrderedRing K]

/-- Test of `Spec.NoneOnCircle`. -/
def circleCheck (vs : List (Vtx K)) (out : List Out) : Bool := out.all fun t =>
  match vs[t.1]?, vs[t.2.1]?, vs[t.2.2]? with
  | some A, some B, some C => vs.all fun q => decide (q.x = A.x ∧ q.y = A.y) || decide (q.x = B.x ∧ q.y = B.y) ||
      decide (q.x = C.x ∧ q.y = C.y) || decide (dist2 (centerOf A B C) q ≠ dist2 (centerOf A B C) A)
  | _, _, _ => true

theorem noneOnCircle_of_check [IdCfg] {vs : List (Vtx K)} {es : List Edge} {out : List Out} (h : circleCheck vs out = true) :
    Spec.NoneOnCircle vs es out := by
  intro t ht A B C gA gB gC q hq p hp _ m hm hd
  have hk := List.all_eq_true.1 h t ht
  simp only [gA, gB, gC] at hk
  have hk := List.all_eq_true.1 hk p hp
  have ha : area2 A B C ≠ 0 := by
    have e : area2 A B C = area2 A B q + area2 B C q + area2 C A q := by unfold area2; ring
    obtain ⟨h1, h2, h3⟩ := hq
    unfold Clockwise at h1 h2 h3
    exact (show area2 A B C < 0 by rw [e]; linarith).ne
  rw [← circumcenter_unique ha hm (centerOf_spec A B C ha)] at hk
  simp only [Bool.or_eq_true, decide_eq_true_eq] at hk
  rcases hk with ((hk | hk) | hk) | hk
  · exact .inl (by cases p; cases A; simp_all)
  · exact .inr (.inl (by cases p; cases B; simp_all))
  · exact .inr (.inr (by cases p; cases C; simp_all))
  · exact absurd hd hk

end Test

section Example
open Rounded
local instance uniqueCCfg : IdCfg := u32Cfg

/-- A square with a hole that has five vertices, and two more points. -/
def ringGrid : List (Int × Int) := [(3,5),(11,5),(11,9),(8,9),(3,9),(10,3),(11,13),(0,0),(0,16),(16,16),(16,0)]

def ringEdges : List Edge := [⟨7,8⟩,⟨8,9⟩,⟨9,10⟩,⟨10,7⟩,⟨0,1⟩,⟨1,2⟩,⟨2,3⟩,⟨3,4⟩,⟨4,0⟩]

/-- The same points in another order. -/
def ringGrid' : List (Int × Int) := [(11,13),(10,3),(3,9),(8,9),(11,9),(11,5),(3,5),(16,0),(0,0),(0,16),(16,16)]

/-- The same constraints in another order. -/
def ringEdges' : List Edge := [⟨2,6⟩,⟨10,7⟩,⟨3,2⟩,⟨4,3⟩,⟨5,4⟩,⟨6,5⟩,⟨9,10⟩,⟨8,9⟩,⟨7,8⟩]

theorem ring_segments : Spec.segments (intPts ringGrid) ringEdges =
    [(⟨0,0⟩,⟨0,16⟩),(⟨0,16⟩,⟨16,16⟩),(⟨16,16⟩,⟨16,0⟩),(⟨16,0⟩,⟨0,0⟩),(⟨3,5⟩,⟨11,5⟩),(⟨11,5⟩,⟨11,9⟩),(⟨11,9⟩,⟨8,9⟩),(⟨8,9⟩,⟨3,9⟩),
      (⟨3,9⟩,⟨3,5⟩)] := by
  decide +kernel

theorem ring_border : Spec.Border (intPts ringGrid) ringEdges := by
  refine ⟨?_, ?_, ?_, ?_, ?_⟩
  · rw [ring_segments]; decide +kernel
  · rw [ring_segments]; decide +kernel
  · rw [ring_segments]; decide +kernel
  · rw [ring_segments]; unfold Balanced; decide +kernel
  · rw [ring_segments]
    rintro ⟨x, y⟩ -
    simp only [winding, List.map_cons, List.map_nil, List.sum_cons, List.sum_nil, crossing_flat]
    rw [crossing_up 0 0 16 (by norm_num), crossing_down 16 16 0 (by norm_num), crossing_up 11 5 9 (by norm_num), crossing_down 3 9 5 (by norm_num)]
    simp only
    split_ifs with h1 h2 h3 h4 <;> first | decide | grind

theorem ring_perm : (Spec.segments (intPts ringGrid) ringEdges).Perm (Spec.segments (intPts ringGrid') ringEdges') := by decide +kernel

theorem ring_border' : Spec.Border (intPts ringGrid') ringEdges' := by
  have hp := ring_perm
  have hb := ring_border
  refine ⟨fun s hs => hb.ne s (hp.mem_iff.2 hs), hp.nodup_iff.1 hb.nodup, fun s hs h => hb.norev s (hp.mem_iff.2 hs) (hp.mem_iff.2 h),
    balanced_perm hp hb.bal, fun q hq => ?_⟩
  rw [← winding_perm hp]
  exact hb.win q fun s hs => hq s (hp.mem_iff.1 hs)

theorem ring_good : RGoodC (F := F64) 600 (fun _ => 1) (flPts binary64 ringGrid) (intPts ringGrid) (2 ^ 4) :=
  { toRGood := C44_grid ringGrid 4 (by decide) (by decide) (by decide) ⟨by norm_num, by decide +kernel, by decide +kernel⟩
      (by decide +kernel) (by decide +kernel) (by decide +kernel) (by decide)
    ray := by unfold Plane.ClearRays Plane.area2 Plane.axes; decide +kernel
    fuelC := by decide }

theorem ring_good' : RGoodC (F := Fl binary32) 600 (fun _ => 1) (flPts binary32 ringGrid') (intPts ringGrid') (2 ^ 4) :=
  { toRGood := C44_grid ringGrid' 4 (by decide) (by decide) (by decide) ⟨by norm_num, by decide +kernel, by decide +kernel⟩
      (by decide +kernel) (by decide +kernel) (by decide +kernel) (by decide)
    ray := by unfold Plane.ClearRays Plane.area2 Plane.axes; decide +kernel
    fuelC := by decide }

theorem ring_framed : Spec.Framed (intPts ringGrid) 0 16 0 16 :=
  ⟨by norm_num, by norm_num, intPts [(3,5),(11,5),(11,9),(8,9),(3,9),(10,3),(11,13)], intPts [(0,0),(0,16),(16,16),(16,0)], rfl,
    by decide +kernel, by decide +kernel⟩

theorem ring_framed' : Spec.Framed (intPts ringGrid') 0 16 0 16 :=
  ⟨by norm_num, by norm_num, intPts [(11,13),(10,3),(3,9),(8,9),(11,9),(11,5),(3,5)], intPts [(16,0),(0,0),(0,16),(16,16)], rfl,
    by decide +kernel, by decide +kernel⟩

/-- The hypotheses of `C69_single_rounded` hold, for a run in `f64` and a run in `f32` on the points and constraints in another
order; the constraint from (3, 5) to (11, 5) is no edge of the unconstrained triangulation. The two runs return the same triangles. -/
theorem ring_same : ∃ out out', constrained2d (F := F64) 600 (fun _ => 1) (flPts binary64 ringGrid) ringEdges = .ok out ∧
    constrained2d (F := Fl binary32) 600 (fun _ => 1) (flPts binary32 ringGrid') ringEdges' = .ok out' ∧
    out.length = 13 ∧ ∀ A B C, Spec.Occurs (intPts ringGrid) out A B C ↔ Spec.Occurs (intPts ringGrid') out' A B C := by
  obtain ⟨out, out', ho, ho', hg⟩ := C69_single_rounded (.inl rfl) 600 600 (fun _ => 1) (fun _ => 1) _ _ _ _ _ _ ring_good ring_good' rfl rfl
    0 16 0 16 0 16 0 16 ring_framed ring_framed' ringEdges ringEdges' (clear_of_check (by decide +kernel)) (clear_of_check (by decide +kernel))
    (nonCrossing_of_check (by decide +kernel)) (nonCrossing_of_check (by decide +kernel)) ring_border ring_border'
    (fun q => List.Perm.mem_iff (show (intPts ringGrid).Perm (intPts ringGrid') by decide +kernel)) (fun s => ring_perm.mem_iff)
    [(0,3,5),(4,8,6),(2,9,10),(6,8,9),(5,10,7),(1,5,3),(4,7,8),(0,7,4),(2,3,6),(3,4,6),(2,6,9),(1,3,2),(1,10,5),(1,2,10),(0,5,7),(0,4,3)]
    [(1,6,3),(1,8,6),(4,10,7),(2,8,9),(4,7,5),(0,10,4),(0,4,3),(1,3,5),(0,2,9),(3,4,5),(2,6,8),(2,3,6),(1,7,8),(1,5,7),(0,9,10),(0,3,2)]
    (by decide +kernel) (by decide +kernel) (single_of_check (by decide +kernel)) (single_of_check (by decide +kernel))
  have e : constrained2d (F := F64) 600 (fun _ => 1) (flPts binary64 ringGrid) ringEdges =
      .ok [(2,9,10),(1,2,10),(1,10,5),(1,5,0),(0,5,7),(0,7,4),(4,7,8),(4,8,6),(3,4,6),(2,3,6),(2,6,9),(6,8,9),(5,10,7)] := by decide +kernel
  have ho2 := ho
  rw [e] at ho2
  simp only [Res.ok.injEq] at ho2
  subst ho2
  exact ⟨_, out', ho, ho', rfl, hg (noneOnCircle_of_check (by decide +kernel))⟩

end Example

end CDT

import Verif.Props.Gabriel

/-! # C94: interpolation and search in a Delaunay result -/

set_option linter.unusedSectionVars false

namespace CDT
open Plane

section Main

section Plain
variable {K : Type} [Field K] [LinearOrder K] [IsStrictOrderedRing K]

/-- `x` is the mean of the points with the weights of `l`. -/
def Spec.MeanOf (l : List (K × Vtx K)) (x : Vtx K) : Prop :=
  (∀ p ∈ l, 0 ≤ p.1) ∧ (l.map (·.1)).sum = 1 ∧ (l.map fun p => p.1 * p.2.x).sum = x.x ∧ (l.map fun p => p.1 * p.2.y).sum = x.y

/-- The weighted mean of the squared distances to `x`. -/
def Spec.spread (l : List (K × Vtx K)) (x : Vtx K) : K := (l.map fun p => p.1 * dist2 x p.2).sum

theorem spread_shift (l : List (K × Vtx K)) (O x : Vtx K) : Spec.spread l O = Spec.spread l x + (l.map (·.1)).sum * dist2 O x +
    2 * (O.x - x.x) * ((l.map (·.1)).sum * x.x - (l.map fun p => p.1 * p.2.x).sum) +
    2 * (O.y - x.y) * ((l.map (·.1)).sum * x.y - (l.map fun p => p.1 * p.2.y).sum) := by
  induction l with
  | nil => simp [Spec.spread]
  | cons p l ih =>
    simp only [Spec.spread, List.map_cons, List.sum_cons] at ih ⊢
    rw [ih]
    unfold dist2
    ring

theorem spread_mean {l : List (K × Vtx K)} {x : Vtx K} (h : Spec.MeanOf l x) (O : Vtx K) :
    Spec.spread l O = Spec.spread l x + dist2 O x := by
  rw [spread_shift l O x, h.2.1, h.2.2.1, h.2.2.2]; ring

theorem spread_ge {l : List (K × Vtx K)} {x : Vtx K} (h : Spec.MeanOf l x) {O : Vtx K} {r : K} (hr : ∀ p ∈ l, r ≤ dist2 O p.2) :
    r ≤ Spec.spread l O := by
  have key : ∀ m : List (K × Vtx K), (∀ p ∈ m, 0 ≤ p.1) → (∀ p ∈ m, r ≤ dist2 O p.2) → (m.map (·.1)).sum * r ≤ Spec.spread m O := by
    intro m
    induction m with
    | nil => intro _ _; simp [Spec.spread]
    | cons p m ih =>
      intro h1 h2
      have := ih (fun q hq => h1 q (by simp [hq])) fun q hq => h2 q (by simp [hq])
      have := mul_le_mul_of_nonneg_left (h2 p (by simp)) (h1 p (by simp))
      simp only [Spec.spread, List.map_cons, List.sum_cons] at *
      linarith
  have := key l h.1 hr
  rwa [h.2.1, one_mul] at this

/-- Of all ways to write a point as a mean of vertices, the corners of the triangle of a Delaunay triangulation that contains it are the
ones with the least mean squared distance. -/
def Spec.BestInterpolation (vs : List (Vtx K)) (out : List (Nat × Nat × Nat)) : Prop :=
  ∀ t ∈ out, ∀ A B C, vs[t.1]? = some A → vs[t.2.1]? = some B → vs[t.2.2]? = some C → ∀ (a b c : K) (x : Vtx K),
    Spec.MeanOf [(a, A), (b, B), (c, C)] x → ∀ l : List (K × Vtx K), (∀ p ∈ l, p.2 ∈ vs) → Spec.MeanOf l x →
      Spec.spread [(a, A), (b, B), (c, C)] x ≤ Spec.spread l x

theorem best_of_delaunay {vs : List (Vtx K)} {out : List Out} (hd : Spec.Delaunay vs out) : Spec.BestInterpolation vs out := by
  intro t ht A B C gA gB gC a b c x hm l hl hx
  obtain ⟨A', B', C', gA', gB', gC', hcw, hemp⟩ := hd t ht
  rw [gA] at gA'; rw [gB] at gB'; rw [gC] at gC'; cases gA'; cases gB'; cases gC'
  obtain ⟨O, hO⟩ := exists_circumcenter A B C hcw.ne
  have hge := spread_ge hx (O := O) (r := dist2 O A) fun p hp => not_lt.1 fun h => hemp _ (hl p hp) ⟨O, hO, h⟩
  have heq : Spec.spread [(a, A), (b, B), (c, C)] O = dist2 O A := by
    have h1 := hm.2.1
    obtain ⟨e1, e2⟩ := hO
    simp only [Spec.spread, List.map_cons, List.map_nil, List.sum_cons, List.sum_nil, add_zero] at h1 ⊢
    rw [← e1, ← e2]
    linear_combination dist2 O A * h1
  have h1 := spread_mean hm O
  have h2 := spread_mean hx O
  linarith

/-- A vertex in a closed triangle of a Delaunay triangulation is a corner of it. -/
theorem corner_of_delaunay {vs : List (Vtx K)} {out : List Out} (hd : Spec.Delaunay vs out) {t : Out} (ht : t ∈ out) {A B C P : Vtx K}
    (gA : vs[t.1]? = some A) (gB : vs[t.2.1]? = some B) (gC : vs[t.2.2]? = some C) (hP : P ∈ vs) (hin : InClosedTriangle A B C P) :
    P = A ∨ P = B ∨ P = C := by
  obtain ⟨A', B', C', gA', gB', gC', hcw, hemp⟩ := hd t ht
  rw [gA] at gA'; rw [gB] at gB'; rw [gC] at gC'; cases gA'; cases gB'; cases gC'
  obtain ⟨O, hO⟩ := exists_circumcenter A B C hcw.ne
  have hge : dist2 O A ≤ dist2 O P := not_lt.1 fun h => hemp P hP ⟨O, hO, h⟩
  obtain ⟨e1, e2⟩ := hO
  obtain ⟨c1, c2, c3⟩ := hin
  have key : area2 A B C * (dist2 O A - dist2 O P) = area2 B C P * dist2 P A + area2 C A P * dist2 P B + area2 A B P * dist2 P C := by
    have e : area2 A B C * dist2 O P = area2 B C P * (dist2 O A - dist2 P A) + area2 C A P * (dist2 O B - dist2 P B) +
        area2 A B P * (dist2 O C - dist2 P C) := by unfold dist2 area2; ring
    have s : area2 A B C = area2 B C P + area2 C A P + area2 A B P := by unfold area2; ring
    rw [← e1, ← e2] at e
    linear_combination dist2 O A * s - e
  have d0 : ∀ R : Vtx K, 0 ≤ dist2 P R := fun R => by unfold dist2; positivity
  have k0 : 0 ≤ area2 A B C * (dist2 O A - dist2 O P) := mul_nonneg_of_nonpos_of_nonpos hcw.le (by linarith)
  have n1 := mul_nonpos_of_nonpos_of_nonneg c2 (d0 A)
  have n2 := mul_nonpos_of_nonpos_of_nonneg c3 (d0 B)
  have n3 := mul_nonpos_of_nonpos_of_nonneg c1 (d0 C)
  have z1 : area2 B C P * dist2 P A = 0 := by linarith
  have z2 : area2 C A P * dist2 P B = 0 := by linarith
  have z3 : area2 A B P * dist2 P C = 0 := by linarith
  have eq0 : ∀ R : Vtx K, dist2 P R = 0 → P = R := by
    intro R h
    unfold dist2 at h
    have a1 : (P.x - R.x) ^ 2 = 0 := by nlinarith [sq_nonneg (P.x - R.x), sq_nonneg (P.y - R.y)]
    have a2 : (P.y - R.y) ^ 2 = 0 := by nlinarith [sq_nonneg (P.x - R.x), sq_nonneg (P.y - R.y)]
    exact vtx_ext (sub_eq_zero.1 ((pow_eq_zero_iff two_ne_zero).1 a1)) (sub_eq_zero.1 ((pow_eq_zero_iff two_ne_zero).1 a2))
  have s : area2 A B C = area2 B C P + area2 C A P + area2 A B P := by unfold area2; ring
  rcases mul_eq_zero.1 z1 with h1 | h1
  · rcases mul_eq_zero.1 z2 with h2 | h2
    · rcases mul_eq_zero.1 z3 with h3 | h3
      · exact absurd (by rw [s, h1, h2, h3]; ring) (ne_of_lt hcw : area2 A B C ≠ 0)
      · exact .inr (.inr (eq0 C h3))
    · exact .inr (.inl (eq0 B h2))
  · exact .inl (eq0 A h1)

/-- A point close to `P` in the direction of `Q` is only in triangles that contain `P`. -/
theorem exists_small {vs : List (Vtx K)} (out : List Out) (P Q : Vtx K) : ∃ e : K, 0 < e ∧ e < 1 ∧ ∀ t ∈ out, ∀ A B C,
    vs[t.1]? = some A → vs[t.2.1]? = some B → vs[t.2.2]? = some C →
    InClosedTriangle A B C ⟨P.x + e * (Q.x - P.x), P.y + e * (Q.y - P.y)⟩ → InClosedTriangle A B C P := by
  -- for one affine function
  have one : ∀ u w : K, ∃ e : K, 0 < e ∧ e < 1 ∧ ∀ z, 0 < z → z ≤ e → u + z * (w - u) ≤ 0 → u ≤ 0 := by
    intro u w
    rcases le_or_gt u 0 with h | h
    · exact ⟨1 / 2, by norm_num, by norm_num, fun _ _ _ _ => h⟩
    · rcases le_or_gt 0 (w - u) with h' | h'
      · exact ⟨1 / 2, by norm_num, by norm_num, fun z z0 _ hz => absurd hz (by nlinarith [mul_nonneg z0.le h'])⟩
      · have hp : 0 < 2 * (u - (w - u)) := by linarith
        refine ⟨u / (2 * (u - (w - u))), div_pos h hp, by rw [div_lt_one hp]; linarith, fun z z0 hz hle => ?_⟩
        rw [le_div_iff₀ hp] at hz
        nlinarith
  -- for a triangle
  have tri : ∀ t : Out, ∃ e : K, 0 < e ∧ e < 1 ∧ ∀ z, 0 < z → z ≤ e → ∀ A B C,
      vs[t.1]? = some A → vs[t.2.1]? = some B → vs[t.2.2]? = some C →
      InClosedTriangle A B C ⟨P.x + z * (Q.x - P.x), P.y + z * (Q.y - P.y)⟩ → InClosedTriangle A B C P := by
    intro t
    by_cases hg : ∃ A B C, vs[t.1]? = some A ∧ vs[t.2.1]? = some B ∧ vs[t.2.2]? = some C
    · obtain ⟨A, B, C, gA, gB, gC⟩ := hg
      obtain ⟨e1, p1, q1, h1⟩ := one (area2 A B P) (area2 A B Q)
      obtain ⟨e2, p2, q2, h2⟩ := one (area2 B C P) (area2 B C Q)
      obtain ⟨e3, p3, q3, h3⟩ := one (area2 C A P) (area2 C A Q)
      refine ⟨min e1 (min e2 e3), lt_min p1 (lt_min p2 p3), (min_le_left _ _).trans_lt q1, ?_⟩
      intro z z0 hz A' B' C' gA' gB' gC' hin
      rw [gA] at gA'; rw [gB] at gB'; rw [gC] at gC'; cases gA'; cases gB'; cases gC'
      obtain ⟨i1, i2, i3⟩ := hin
      have al : ∀ X Y : Vtx K, area2 X Y ⟨P.x + z * (Q.x - P.x), P.y + z * (Q.y - P.y)⟩ = area2 X Y P + z * (area2 X Y Q - area2 X Y P) := by
        intro X Y; unfold area2; ring
      rw [al] at i1 i2 i3
      exact ⟨h1 z z0 (hz.trans (min_le_left _ _)) i1, h2 z z0 (hz.trans ((min_le_right _ _).trans (min_le_left _ _))) i2,
        h3 z z0 (hz.trans ((min_le_right _ _).trans (min_le_right _ _))) i3⟩
    · exact ⟨1 / 2, by norm_num, by norm_num, fun z _ _ A B C gA gB gC => absurd ⟨A, B, C, gA, gB, gC⟩ hg⟩
  -- for all of them
  have all : ∃ e : K, 0 < e ∧ e < 1 ∧ ∀ t ∈ out, ∀ z, 0 < z → z ≤ e → ∀ A B C,
      vs[t.1]? = some A → vs[t.2.1]? = some B → vs[t.2.2]? = some C →
      InClosedTriangle A B C ⟨P.x + z * (Q.x - P.x), P.y + z * (Q.y - P.y)⟩ → InClosedTriangle A B C P := by
    induction out with
    | nil => exact ⟨1 / 2, by norm_num, by norm_num, by simp⟩
    | cons t l ih =>
      obtain ⟨e, p, q, h⟩ := ih
      obtain ⟨e', p', q', h'⟩ := tri t
      refine ⟨min e e', lt_min p p', (min_le_left _ _).trans_lt q, fun u hu z z0 hz => ?_⟩
      rcases List.mem_cons.1 hu with rfl | hu
      · exact h' z z0 (hz.trans (min_le_right _ _))
      · exact h u hu z z0 (hz.trans (min_le_left _ _))
  obtain ⟨e, p, q, h⟩ := all
  exact ⟨e, p, q, fun t ht => h t ht e p le_rfl⟩

/-- A vertex that is not nearest to `q` is joined to one that is nearer to `q`. -/
theorem nearer_neighbor {vs : List (Vtx K)} {out : List Out} (hd : Spec.Delaunay vs out) (hcov : Spec.CoversConvex vs out)
    {P Q q : Vtx K} (hP : P ∈ vs) (hQ : Q ∈ vs) (hlt : dist2 q Q < dist2 q P) : ∃ R ∈ vs, Spec.Joined vs out P R ∧ dist2 q R < dist2 q P := by
  obtain ⟨e, e0, e1, hsm⟩ := exists_small (vs := vs) out P Q
  set x : Vtx K := ⟨P.x + e * (Q.x - P.x), P.y + e * (Q.y - P.y)⟩ with hx
  have hull : Spec.InHull vs x := by
    intro Y Z hall
    have al : area2 Y Z x = (1 - e) * area2 Y Z P + e * area2 Y Z Q := by simp only [hx]; unfold area2; ring
    rw [al]
    have := hall P hP; have := hall Q hQ
    nlinarith
  obtain ⟨t, ht, A, B, C, gA, gB, gC, hin⟩ := hcov x hull
  have hPin := hsm t ht A B C gA gB gC hin
  have hcor := corner_of_delaunay hd ht gA gB gC hP hPin
  obtain ⟨A', B', C', gA', gB', gC', hcw, -⟩ := hd t ht
  rw [gA] at gA'; rw [gB] at gB'; rw [gC] at gC'; cases gA'; cases gB'; cases gC'
  obtain ⟨c1, c2, c3⟩ := hin
  have s : area2 A B C = area2 B C x + area2 C A x + area2 A B x := by unfold area2; ring
  have ne0 : area2 A B C ≠ 0 := hcw.ne
  have hm : Spec.MeanOf [(area2 B C x / area2 A B C, A), (area2 C A x / area2 A B C, B), (area2 A B x / area2 A B C, C)] x := by
    refine ⟨?_, ?_, ?_, ?_⟩
    · simp only [List.mem_cons, List.not_mem_nil, or_false, forall_eq_or_imp, forall_eq]
      exact ⟨div_nonneg_of_nonpos c2 hcw.le, div_nonneg_of_nonpos c3 hcw.le, div_nonneg_of_nonpos c1 hcw.le⟩
    · simp only [List.map_cons, List.map_nil, List.sum_cons, List.sum_nil, add_zero]
      rw [← add_div, ← add_div, ← add_assoc, ← s, div_self ne0]
    · simp only [List.map_cons, List.map_nil, List.sum_cons, List.sum_nil, add_zero]
      field_simp
      unfold area2; ring
    · simp only [List.map_cons, List.map_nil, List.sum_cons, List.sum_nil, add_zero]
      field_simp
      unfold area2; ring
  have hl : Spec.MeanOf [(1 - e, P), (e, Q)] x := by
    refine ⟨?_, ?_, ?_, ?_⟩
    · simp only [List.mem_cons, List.not_mem_nil, or_false, forall_eq_or_imp, forall_eq]
      exact ⟨by linarith, e0.le⟩
    all_goals simp only [List.map_cons, List.map_nil, List.sum_cons, List.sum_nil, add_zero, hx]; ring
  have best := best_of_delaunay hd t ht A B C gA gB gC _ _ _ x hm _ (by simp [hP, hQ]) hl
  have i1 := spread_mean hm q
  have i2 := spread_mean hl q
  have lt : Spec.spread [(1 - e, P), (e, Q)] q < dist2 q P := by
    simp only [Spec.spread, List.map_cons, List.map_nil, List.sum_cons, List.sum_nil, add_zero]
    nlinarith
  -- one of the corners is nearer
  have hcase : dist2 q A < dist2 q P ∨ dist2 q B < dist2 q P ∨ dist2 q C < dist2 q P := by
    by_contra hn
    push Not at hn
    have := spread_ge hm (O := q) (r := dist2 q P) (by
      simp only [List.mem_cons, List.not_mem_nil, or_false, forall_eq_or_imp, forall_eq]; exact hn)
    linarith
  obtain ⟨a, b, c⟩ := t
  have k1 : Spec.CornersOf (a, b, c) a b c := .inl rfl
  have k2 : Spec.CornersOf (a, b, c) b c a := .inr (.inr rfl)
  have k3 : Spec.CornersOf (a, b, c) c a b := .inr (.inl rfl)
  rcases hcor with rfl | rfl | rfl <;> rcases hcase with h | h | h
  · exact absurd h (lt_irrefl _)
  · exact ⟨B, List.mem_of_getElem? gB, ⟨_, ht, a, b, c, k1, .inl ⟨gA, gB⟩⟩, h⟩
  · exact ⟨C, List.mem_of_getElem? gC, ⟨_, ht, c, a, b, k3, .inr ⟨gC, gA⟩⟩, h⟩
  · exact ⟨A, List.mem_of_getElem? gA, ⟨_, ht, a, b, c, k1, .inr ⟨gA, gB⟩⟩, h⟩
  · exact absurd h (lt_irrefl _)
  · exact ⟨C, List.mem_of_getElem? gC, ⟨_, ht, b, c, a, k2, .inl ⟨gB, gC⟩⟩, h⟩
  · exact ⟨A, List.mem_of_getElem? gA, ⟨_, ht, c, a, b, k3, .inl ⟨gC, gA⟩⟩, h⟩
  · exact ⟨B, List.mem_of_getElem? gB, ⟨_, ht, b, c, a, k2, .inr ⟨gB, gC⟩⟩, h⟩
  · exact absurd h (lt_irrefl _)

/-- The step of a search for `q`: along an edge to a vertex nearer to `q`. -/
def Spec.Approach (vs : List (Vtx K)) (out : List (Nat × Nat × Nat)) (q P R : Vtx K) : Prop :=
  R ∈ vs ∧ Spec.Joined vs out P R ∧ dist2 q R < dist2 q P

/-- Searching for the nearest vertex along the edges: a vertex from which no step is possible is nearest to `q`, every sequence of steps has
fewer steps than there are vertices, and a nearest vertex is reached from everywhere. -/
def Spec.Searchable (vs : List (Vtx K)) (out : List (Nat × Nat × Nat)) : Prop :=
  ∀ q : Vtx K, (∀ P ∈ vs, (¬ ∃ R, Spec.Approach vs out q P R) → ∀ V ∈ vs, dist2 q P ≤ dist2 q V) ∧
    (∀ path : List (Vtx K), (∀ P ∈ path, P ∈ vs) → path.IsChain (Spec.Approach vs out q) → path.length ≤ vs.length) ∧
    ∀ P ∈ vs, ∃ N ∈ vs, (∀ V ∈ vs, dist2 q N ≤ dist2 q V) ∧ Relation.ReflTransGen (Spec.Approach vs out q) P N

theorem chain_le {vs : List (Vtx K)} {out : List Out} {q : Vtx K} {path : List (Vtx K)} (hm : ∀ P ∈ path, P ∈ vs)
    (hc : path.IsChain (Spec.Approach vs out q)) : path.length ≤ vs.length := by
  have hp : path.Pairwise fun P R => dist2 q R < dist2 q P := by
    have := hc.imp (S := fun P R : Vtx K => dist2 q R < dist2 q P) fun _ _ h => h.2.2
    have ht : IsTrans (Vtx K) fun P R : Vtx K => dist2 q R < dist2 q P := ⟨fun _ _ _ h1 h2 => lt_trans h2 h1⟩
    exact List.isChain_iff_pairwise.1 this
  have nd : path.Nodup := hp.imp fun h => by rintro rfl; exact lt_irrefl _ h
  exact (nd.subperm hm).length_le

theorem searchable_of_delaunay {vs : List (Vtx K)} {out : List Out} (hd : Spec.Delaunay vs out) (hcov : Spec.CoversConvex vs out) :
    Spec.Searchable vs out := by
  intro q
  have stuck : ∀ P ∈ vs, (¬ ∃ R, Spec.Approach vs out q P R) → ∀ V ∈ vs, dist2 q P ≤ dist2 q V := by
    intro P hP hn V hV
    by_contra hlt
    obtain ⟨R, hR, hj, hr⟩ := nearer_neighbor hd hcov hP hV (not_le.1 hlt)
    exact hn ⟨R, hR, hj, hr⟩
  refine ⟨stuck, fun path hm hc => chain_le hm hc, fun P hP => ?_⟩
  -- among the vertices that can be reached, one nearest to `q`
  classical
  obtain ⟨N, hN, hmin⟩ := exists_least (fun V => dist2 q V) (vs.filter fun V => Relation.ReflTransGen (Spec.Approach vs out q) P V)
    (List.ne_nil_of_mem (a := P) (List.mem_filter.2 ⟨hP, by simp only [decide_eq_true_eq]; exact Relation.ReflTransGen.refl⟩))
  obtain ⟨hNm, hNr⟩ := List.mem_filter.1 hN
  simp only [decide_eq_true_eq] at hNr
  refine ⟨N, hNm, stuck N hNm ?_, hNr⟩
  rintro ⟨R, hR⟩
  have := hmin R (List.mem_filter.2 ⟨hR.1, by simp only [decide_eq_true_eq]; exact hNr.tail hR⟩)
  exact absurd hR.2.2 (not_lt.2 this)

end Plain

variable {K : Type} [Field K] [LinearOrder K] [IsStrictOrderedRing K] [ExactParams K] [IdCfg]

/-- **C94**. Results that pass the test of C74. -/
theorem C94_search (fuel : Nat) (bins : Nat → Nat) (vs : List (Vtx K)) (h : Good fuel bins vs) (out : List Out)
    (ho : triangulation2d fuel bins vs = .ok out) (hne : out ≠ []) (hs : Spec.HullSides vs out) (hl : Spec.LocallyDelaunay vs [] out) :
    Spec.BestInterpolation vs out ∧ Spec.Searchable vs out :=
  have ⟨hcov, hd⟩ := (C74_certificate fuel bins vs h out ho hne).1 ⟨hs, hl⟩
  ⟨best_of_delaunay hd, searchable_of_delaunay hd hcov⟩

/-- **C94** for framed points and one bin: no condition on the result. -/
theorem C94_framed (hcfg : RealCfg) (fuel : Nat) (bins : Nat → Nat) (vs : List (Vtx K)) (h : Good fuel bins vs) (h1 : bins vs.length = 1)
    (x0 x1 y0 y1 : K) (hf : Spec.Framed vs x0 x1 y0 y1) :
    ∃ out, triangulation2d fuel bins vs = .ok out ∧ Spec.BestInterpolation vs out ∧ Spec.Searchable vs out := by
  obtain ⟨out, ho, hd, -⟩ := C53_framed hcfg fuel bins vs h h1 x0 x1 y0 y1 hf
  obtain ⟨hx, hy, m00, m01, m10, -, -⟩ := hf.boxed
  have hl : Spec.NotOnLine vs := ⟨_, m00, _, m01, _, m10, by
    simp only [area2]
    have : (x1 - x0) * (y1 - y0) ≠ 0 := mul_ne_zero (sub_ne_zero.2 hx.ne') (sub_ne_zero.2 hy.ne')
    intro h0; apply this; linear_combination -h0⟩
  exact ⟨out, ho, best_of_delaunay hd, searchable_of_delaunay hd (C79_covers fuel bins vs h hf.boxed.cornersExtreme hl out ho)⟩

/-- **C94** in rounded arithmetic (`f32`, `f64`) on robust inputs and on grids; `V` are the exact positions. -/
theorem C94_search_rounded {F : Type} [FloatOps F] [Rounded F] (fuel : Nat) (bins : Nat → Nat) (vs : List (Vtx F))
    (V : List (Vtx ℚ)) (W : ℚ) (h : Rounded.RGood fuel bins vs V W) (out : List Out)
    (ho : triangulation2d fuel bins vs = .ok out) (hne : out ≠ []) (hs : Spec.HullSides V out) (hl : Spec.LocallyDelaunay V [] out) :
    Spec.BestInterpolation V out ∧ Spec.Searchable V out :=
  have ⟨hcov, hd⟩ := (C74_certificate_rounded fuel bins vs V W h out ho hne).1 ⟨hs, hl⟩
  ⟨best_of_delaunay hd, searchable_of_delaunay hd hcov⟩

theorem C94_framed_rounded {F : Type} [FloatOps F] [Rounded F] (hcfg : RealCfg) (fuel : Nat) (bins : Nat → Nat) (vs : List (Vtx F))
    (V : List (Vtx ℚ)) (W : ℚ) (h : Rounded.RGood fuel bins vs V W) (h1 : bins vs.length = 1) (x0 x1 y0 y1 : ℚ)
    (hf : Spec.Framed V x0 x1 y0 y1) :
    ∃ out, triangulation2d fuel bins vs = .ok out ∧ Spec.BestInterpolation V out ∧ Spec.Searchable V out := by
  let P := Rounded.params F (bins vs.length) W (Rounded.scaleVal vs)
  rw [h.run]
  exact C94_framed hcfg fuel bins V h.good (by rw [h.len]; exact h1) x0 x1 y0 y1 hf

end Main

section Example
open Rounded
local instance greedyCfg : IdCfg := u32Cfg

/-- The run of `Props/Certificate`, in `f64` with the default bins. -/
theorem greedy_search : Spec.BestInterpolation (intPts certGrid) certOut ∧ Spec.Searchable (intPts certGrid) certOut :=
  C94_search_rounded 506 _ _ _ _ cert_good certOut cert_run (by decide) cert_sides (local_of_check (by decide +kernel))

/-- `(2,3)` is not nearest to the point `(6,6)`, so a step from it is possible. -/
example : ∃ R, Spec.Approach (intPts certGrid) certOut ⟨6, 6⟩ ⟨2, 3⟩ R := by
  by_contra hn
  have := (greedy_search.2 ⟨6, 6⟩).1 _ (by decide +kernel) hn ⟨7, 5⟩ (by decide +kernel)
  norm_num [Plane.dist2] at this

/-- `(6,6)` in the triangle of `(2,3)`, `(5,9)` and `(7,5)`: no other mean of vertices is better. -/
example (l : List (ℚ × Vtx ℚ)) (h : ∀ p ∈ l, p.2 ∈ intPts certGrid) (hm : Spec.MeanOf l ⟨6, 6⟩) :
    Spec.spread [(1 / 12, ⟨2, 3⟩), (7 / 24, ⟨5, 9⟩), (5 / 8, ⟨7, 5⟩)] (⟨6, 6⟩ : Vtx ℚ) ≤ Spec.spread l ⟨6, 6⟩ :=
  greedy_search.1 (0, 3, 5) (by decide) _ _ _ (by decide +kernel) (by decide +kernel) (by decide +kernel) _ _ _ _
    ⟨by norm_num, by norm_num, by norm_num, by norm_num⟩ l h hm

end Example
end CDT

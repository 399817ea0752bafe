import Verif.Proofs.Ieee
import Verif.Geo.RoundRun
import Verif.Props.Simple
import Verif.Props.Rounding
import Verif.Model.Constrained
import Verif.Witness.Upstream

/-!
# Claims about the IEEE formats, for every input
-/

set_option linter.unusedSectionVars false

namespace CDT
open FloatOps

/-! ## C42: similarity -/

/-- Exact input: the floating point vertices with the given coordinates. -/
def flVerts (f : Fmt) (V : List (Vtx ℚ)) : List (Vtx (Fl f)) := V.map fun v => ⟨.fin v.x, .fin v.y⟩

/-- Scaling by a power of two and translation. -/
def similar (k : ℤ) (t v : Vtx ℚ) : Vtx ℚ := ⟨2 ^ k * v.x + t.x, 2 ^ k * v.y + t.y⟩

/-- The coordinates are numbers of the format. -/
def Representable (f : Fmt) (V : List (Vtx ℚ)) : Prop := ∀ v ∈ V, f.Number v.x ∧ f.Number v.y

/-- The differences of coordinates do not overflow. -/
def NoOverflow (f : Fmt) (V : List (Vtx ℚ)) : Prop :=
  ∀ v ∈ V, ∀ w ∈ V, |v.x - w.x| ≤ Fl.big f ∧ |v.y - w.y| ≤ Fl.big f

section
variable {f : Fmt} {k : ℤ} {t : Vtx ℚ}

/-- Two bounding boxes of numbers of `V` that correspond to each other. -/
def BoxRel (f : Fmt) (V : List (Vtx ℚ)) (k : ℤ) (t : Vtx ℚ) (b b' : Fl f × Fl f × Fl f × Fl f) : Prop :=
  ∃ v1 ∈ V, ∃ v2 ∈ V, ∃ v3 ∈ V, ∃ v4 ∈ V,
    b = (.fin v1.x, .fin v2.y, .fin v3.x, .fin v4.y) ∧
    b' = (.fin (similar k t v1).x, .fin (similar k t v2).y, .fin (similar k t v3).x, .fin (similar k t v4).y)

theorem similar_lt {a b s : ℚ} : (2 : ℚ) ^ k * a + s < 2 ^ k * b + s ↔ a < b := by
  have : (0 : ℚ) < 2 ^ k := by positivity
  constructor
  · intro h; exact lt_of_mul_lt_mul_left (by linarith) this.le
  · intro h; have := mul_lt_mul_of_pos_left h this; linarith

theorem bboxLoop_similar {V : List (Vtx ℚ)} (l : List (Vtx ℚ)) (hl : ∀ v ∈ l, v ∈ V) {b b' : Fl f × Fl f × Fl f × Fl f}
    (h : BoxRel f V k t b b') :
    BoxRel f V k t (bboxLoop (flVerts f l) b) (bboxLoop (flVerts f (l.map (similar k t))) b') := by
  induction l generalizing b b' with
  | nil => exact h
  | cons v l ih =>
    obtain ⟨v1, m1, v2, m2, v3, m3, v4, m4, rfl, rfl⟩ := h
    apply ih (fun w hw => hl w (List.mem_cons_of_mem _ hw))
    have hv := hl v (List.mem_cons_self ..)
    refine ⟨if v.x < v1.x then v else v1, ?_, if v.y < v2.y then v else v2, ?_, if v3.x < v.x then v else v3, ?_,
      if v4.y < v.y then v else v4, ?_, ?_, ?_⟩
    all_goals first
      | (split <;> assumption)
      | skip
    · simp only [FloatOps.lt, Fl.lt, decide_eq_true_eq]
      refine Prod.ext ?_ (Prod.ext ?_ (Prod.ext ?_ ?_)) <;> simp only <;> split <;> rfl
    · simp only [FloatOps.lt, Fl.lt, decide_eq_true_eq, similar, similar_lt]
      refine Prod.ext ?_ (Prod.ext ?_ (Prod.ext ?_ ?_)) <;> simp only <;> split <;> rfl

theorem bbox_start [Fl.Ok f] {v : Vtx ℚ} (hx : f.Number v.x) (hy : f.Number v.y) (l : List (Vtx ℚ)) :
    bbox (flVerts f (v :: l)) = bboxLoop (flVerts f l) (.fin v.x, .fin v.y, .fin v.x, .fin v.y) := by
  have h1 := abs_le.1 (Fl.number_le hx)
  have h2 := abs_le.1 (Fl.number_le hy)
  show bboxLoop (flVerts f l) _ = _
  congr 1
  simp only [FloatOps.lt, Fl.lt, fmax, fmin, decide_eq_true_eq]
  refine Prod.ext ?_ (Prod.ext ?_ (Prod.ext ?_ ?_)) <;> simp only <;> split <;> first | rfl | (congr 1; linarith)

theorem bbox_similar [Fl.Ok f] {V : List (Vtx ℚ)} (hne : V ≠ []) (h : Representable f V)
    (h' : Representable f (V.map (similar k t))) :
    BoxRel f V k t (bbox (flVerts f V)) (bbox (flVerts f (V.map (similar k t)))) := by
  cases V with
  | nil => exact absurd rfl hne
  | cons v l =>
    obtain ⟨h1, h2⟩ := h v (List.mem_cons_self ..)
    obtain ⟨h3, h4⟩ := h' (similar k t v) (by simp)
    rw [bbox_start h1 h2, List.map_cons, bbox_start h3 h4]
    have hm := List.mem_cons_self (a := v) (l := l)
    exact bboxLoop_similar l (fun w hw => List.mem_cons_of_mem _ hw) ⟨v, hm, v, hm, v, hm, v, hm, rfl, rfl⟩

/-- Differences of corresponding numbers correspond to each other. -/
theorem sub_similar [Fl.Ok f] {a b s : ℚ} (ha : f.Number a) (hb : f.Number b) (ha' : f.Number (2 ^ k * a + s))
    (hb' : f.Number (2 ^ k * b + s)) (h : |a - b| ≤ Fl.big f) (h' : |(2 ^ k * a + s) - (2 ^ k * b + s)| ≤ Fl.big f) :
    ∃ c : ℚ, sub (.fin a : Fl f) (.fin b) = .fin c ∧ sub (.fin (2 ^ k * a + s) : Fl f) (.fin (2 ^ k * b + s)) = .fin (2 ^ k * c) := by
  refine ⟨Fl.rnd f (a - b), Fl.fin_sub h, ?_⟩
  rw [Fl.fin_sub h']
  have m1 := (Fl.mult_of_rnd (Fl.rnd_of_number ha)).sub (Fl.mult_of_rnd (Fl.rnd_of_number hb))
  have m2 := (Fl.mult_of_rnd (Fl.rnd_of_number ha')).sub (Fl.mult_of_rnd (Fl.rnd_of_number hb'))
  have e : (2 ^ k * a + s) - (2 ^ k * b + s) = 2 ^ k * (a - b) := by ring
  rw [e] at m2 ⊢
  rw [Fl.rnd_scale f (by have := Fl.Ok.prec (f := f); omega) k m1 m2]

theorem div_similar (c d : ℚ) : div (.fin (2 ^ k * c) : Fl f) (.fin (2 ^ k * d)) = div (.fin c : Fl f) (.fin d) := by
  have hp : (2 : ℚ) ^ k ≠ 0 := by positivity
  show (if (2 : ℚ) ^ k * d = 0 then (if (2 : ℚ) ^ k * c = 0 then (Fl.nan : Fl f) else .inf (decide ((2 : ℚ) ^ k * c < 0)))
    else Fl.mk f (2 ^ k * c / (2 ^ k * d))) = (if d = 0 then (if c = 0 then .nan else .inf (decide (c < 0))) else Fl.mk f (c / d))
  have e : (2 : ℚ) ^ k * c < 0 ↔ c < 0 := by
    have := similar_lt (k := k) (a := c) (b := 0) (s := 0); simpa using this
  simp only [mul_eq_zero, hp, false_or, e, mul_div_mul_left _ _ hp]

theorem max_similar (c d : ℚ) : ∃ e : ℚ, FloatOps.max (.fin c : Fl f) (.fin d) = .fin e ∧
    FloatOps.max (.fin (2 ^ k * c) : Fl f) (.fin (2 ^ k * d)) = .fin (2 ^ k * e) := by
  have e : (2 : ℚ) ^ k * c < 2 ^ k * d ↔ c < d := by
    have := similar_lt (k := k) (a := c) (b := d) (s := 0); simpa using this
  refine ⟨if c < d then d else c, ?_, ?_⟩
  · show (if decide (c < d) = true then (Fl.fin d : Fl f) else .fin c) = _
    simp only [decide_eq_true_eq]; split <;> rfl
  · show (if decide ((2 : ℚ) ^ k * c < 2 ^ k * d) = true then (Fl.fin (2 ^ k * d) : Fl f) else .fin (2 ^ k * c)) = _
    simp only [decide_eq_true_eq, e]; split <;> rfl

theorem similar_sub_x (v w : Vtx ℚ) : (similar k t v).x - (similar k t w).x = (2 ^ k * v.x + t.x) - (2 ^ k * w.x + t.x) := rfl

/-- **C42**: similar inputs have the same normalized coordinates, bit by bit. -/
theorem C42_normalize [Fl.Ok f] (V : List (Vtx ℚ)) (k : ℤ) (t : Vtx ℚ) (h : Representable f V)
    (h' : Representable f (V.map (similar k t))) (ho : NoOverflow f V) (ho' : NoOverflow f (V.map (similar k t))) :
    normalizeVerts (flVerts f (V.map (similar k t))) = normalizeVerts (flVerts f V) := by
  by_cases hne : V = []
  · subst hne; rfl
  obtain ⟨v1, m1, v2, m2, v3, m3, v4, m4, hb, hb'⟩ := bbox_similar hne h h'
  have hm : ∀ v ∈ V, similar k t v ∈ V.map (similar k t) := fun v hv => List.mem_map_of_mem hv
  have hx : ∀ v ∈ V, ∀ w ∈ V, ∃ c : ℚ, sub (.fin v.x : Fl f) (.fin w.x) = .fin c ∧
      sub (.fin (similar k t v).x : Fl f) (.fin (similar k t w).x) = .fin (2 ^ k * c) := fun v hv w hw =>
    sub_similar (h v hv).1 (h w hw).1 (h' _ (hm v hv)).1 (h' _ (hm w hw)).1 (ho v hv w hw).1 (ho' _ (hm v hv) _ (hm w hw)).1
  have hy : ∀ v ∈ V, ∀ w ∈ V, ∃ c : ℚ, sub (.fin v.y : Fl f) (.fin w.y) = .fin c ∧
      sub (.fin (similar k t v).y : Fl f) (.fin (similar k t w).y) = .fin (2 ^ k * c) := fun v hv w hw =>
    sub_similar (h v hv).2 (h w hw).2 (h' _ (hm v hv)).2 (h' _ (hm w hw)).2 (ho v hv w hw).2 (ho' _ (hm v hv) _ (hm w hw)).2
  obtain ⟨s, hs, hs'⟩ : ∃ s : ℚ, scaleFactor (flVerts f V) = .fin s ∧
      scaleFactor (flVerts f (V.map (similar k t))) = .fin (2 ^ k * s) := by
    obtain ⟨c, c1, c2⟩ := hx v3 m3 v1 m1
    obtain ⟨d, d1, d2⟩ := hy v4 m4 v2 m2
    unfold scaleFactor
    simp only [hb, hb', c1, c2, d1, d2]
    exact max_similar c d
  unfold normalizeVerts
  simp only [hb, hb', hs, hs']
  unfold flVerts
  simp only [List.map_map]
  apply List.map_congr_left
  intro v hv
  obtain ⟨c, c1, c2⟩ := hx v hv v1 m1
  obtain ⟨d, d1, d2⟩ := hy v hv v2 m2
  simp only [Function.comp, c1, c2, d1, d2, div_similar]

theorem flVerts_length (V : List (Vtx ℚ)) : (flVerts f V).length = V.length := by simp [flVerts]

/-- **C42**, unconstrained triangulation: equal outcomes. -/
theorem C42_triangulation2d [IdCfg] [Fl.Ok f] (fuel : Nat) (bins : Nat → Nat) (V : List (Vtx ℚ)) (k : ℤ) (t : Vtx ℚ)
    (h : Representable f V) (h' : Representable f (V.map (similar k t))) (ho : NoOverflow f V)
    (ho' : NoOverflow f (V.map (similar k t))) :
    triangulation2d fuel bins (flVerts f (V.map (similar k t))) = triangulation2d fuel bins (flVerts f V) := by
  unfold triangulation2d
  simp only [C42_normalize V k t h h' ho ho', flVerts_length, List.length_map]

/-- **C42**, constrained triangulation: equal outcomes. -/
theorem C42_constrained2d [IdCfg] [Fl.Ok f] (fuel : Nat) (bins : Nat → Nat) (V : List (Vtx ℚ)) (es : List Edge) (k : ℤ)
    (t : Vtx ℚ) (h : Representable f V) (h' : Representable f (V.map (similar k t))) (ho : NoOverflow f V)
    (ho' : NoOverflow f (V.map (similar k t))) :
    constrained2d fuel bins (flVerts f (V.map (similar k t))) es = constrained2d fuel bins (flVerts f V) es := by
  unfold constrained2d constrainedMesh
  simp only [C42_normalize V k t h h' ho ho', flVerts_length, List.length_map]

end

/-! ## C43: normalization and bins -/

/-- A value of the format: NaN, an infinity, or one of its finite numbers. -/
def Fl.IsValue {f : Fmt} : Fl f → Prop
  | .fin q => f.Number q
  | _ => True

/-- NaN or a number between 0 and 1. -/
def Fl.UnitOrNan {f : Fmt} : Fl f → Prop
  | .nan => True
  | .fin q => 0 ≤ q ∧ q ≤ 1 ∧ f.Number q
  | .inf _ => False

section
variable {f : Fmt}

/-- What is known about a lower bound `m` and an upper bound `M` computed by the loop: no NaN, not on the wrong side of all
finite numbers, and bounds of `x`. -/
structure Bounds (x m M : Fl f) : Prop where
  lo : x = .nan ∨ Fl.le m x = true
  hi : x = .nan ∨ Fl.le x M = true

theorem Fl.le_refl_of {x : Fl f} (h : x ≠ .nan) : Fl.le x x = true := by
  cases x with
  | nan => exact absurd rfl h
  | inf s => cases s <;> rfl
  | fin q => simp [Fl.le]

theorem Fl.le_trans' {x y z : Fl f} (h : Fl.le x y = true) (h' : Fl.le y z = true) : Fl.le x z = true := by
  rcases x with _ | s | x <;> rcases y with _ | t | y <;> rcases z with _ | w | z <;>
    simp_all [Fl.le] <;> first | exact _root_.le_trans h h' | skip
  all_goals cases s <;> simp_all

theorem Fl.le_of_lt' {x y : Fl f} (h : Fl.lt x y = true) : Fl.le x y = true := by
  rcases x with _ | s | x <;> rcases y with _ | t | y <;> simp_all [Fl.le, Fl.lt]
  exact le_of_lt h

theorem Fl.le_of_not_lt {x y : Fl f} (h : Fl.lt x y = false) (hx : x ≠ .nan) (hy : y ≠ .nan) : Fl.le y x = true := by
  rcases x with _ | s | x <;> rcases y with _ | t | y <;> simp_all [Fl.le, Fl.lt]
  cases s <;> simp_all

/-- Facts about the running bounds: not NaN; the lower one is not `+∞`, the upper one not `-∞`; values. -/
structure Run (m M : Fl f) : Prop where
  m_nan : m ≠ .nan
  m_inf : m ≠ .inf false
  M_nan : M ≠ .nan
  M_inf : M ≠ .inf true
  m_val : m.IsValue
  M_val : M.IsValue

theorem Run.step {m M x : Fl f} (h : Run m M) (hx : x.IsValue) :
    Run (if Fl.lt x m then x else m) (if Fl.lt M x then x else M) ∧
      Fl.le (if Fl.lt x m then x else m) m = true ∧ Fl.le M (if Fl.lt M x then x else M) = true ∧
      Bounds x (if Fl.lt x m then x else m) (if Fl.lt M x then x else M) := by
  refine ⟨⟨?_, ?_, ?_, ?_, ?_, ?_⟩, ?_, ?_, ?_, ?_⟩
  · split
    · rintro rfl; simp_all [Fl.lt]
    · exact h.m_nan
  · split
    · rintro rfl
      have := h.m_inf
      rcases m with _ | t | m <;> simp_all [Fl.lt]
    · exact h.m_inf
  · split
    · rintro rfl
      rcases M with _ | t | M <;> simp_all [Fl.lt]
    · exact h.M_nan
  · split
    · rintro rfl
      have := h.M_inf
      rcases M with _ | t | M <;> simp_all [Fl.lt]
    · exact h.M_inf
  · split
    · exact hx
    · exact h.m_val
  · split
    · exact hx
    · exact h.M_val
  · split
    · exact Fl.le_of_lt' ‹_›
    · exact Fl.le_refl_of h.m_nan
  · split
    · exact Fl.le_of_lt' ‹_›
    · exact Fl.le_refl_of h.M_nan
  · by_cases e : x = .nan
    · exact .inl e
    · right
      split
      · exact Fl.le_refl_of e
      · exact Fl.le_of_not_lt (Bool.eq_false_iff.2 ‹_›) e h.m_nan
  · by_cases e : x = .nan
    · exact .inl e
    · right
      split
      · exact Fl.le_refl_of e
      · exact Fl.le_of_not_lt (Bool.eq_false_iff.2 ‹_›) h.M_nan e

theorem Bounds.mono {x m M m' M' : Fl f} (h : Bounds x m M) (h1 : Fl.le m' m = true) (h2 : Fl.le M M' = true) : Bounds x m' M' :=
  ⟨h.lo.imp_right fun e => Fl.le_trans' h1 e, h.hi.imp_right fun e => Fl.le_trans' e h2⟩

theorem bboxLoop_run (vs : List (Vtx (Fl f))) (hv : ∀ v ∈ vs, v.x.IsValue ∧ v.y.IsValue) (b : Fl f × Fl f × Fl f × Fl f)
    (hx : Run b.1 b.2.2.1) (hy : Run b.2.1 b.2.2.2) :
    let b' := bboxLoop vs b
    Run b'.1 b'.2.2.1 ∧ Run b'.2.1 b'.2.2.2 ∧ Fl.le b'.1 b.1 = true ∧ Fl.le b.2.2.1 b'.2.2.1 = true ∧
      Fl.le b'.2.1 b.2.1 = true ∧ Fl.le b.2.2.2 b'.2.2.2 = true ∧
      ∀ v ∈ vs, Bounds v.x b'.1 b'.2.2.1 ∧ Bounds v.y b'.2.1 b'.2.2.2 := by
  induction vs generalizing b with
  | nil =>
    exact ⟨hx, hy, Fl.le_refl_of hx.m_nan, Fl.le_refl_of hx.M_nan, Fl.le_refl_of hy.m_nan, Fl.le_refl_of hy.M_nan,
      fun v hv => absurd hv (by simp)⟩
  | cons v vs ih =>
    obtain ⟨b1, b2, b3, b4⟩ := b
    obtain ⟨v1, v2⟩ := hv v (List.mem_cons_self ..)
    obtain ⟨x1, x2, x3, x4⟩ := hx.step v1
    obtain ⟨y1, y2, y3, y4⟩ := hy.step v2
    obtain ⟨r1, r2, r3, r4, r5, r6, r7⟩ := ih (fun w hw => hv w (List.mem_cons_of_mem _ hw))
      (if Fl.lt v.x b1 then v.x else b1, if Fl.lt v.y b2 then v.y else b2, if Fl.lt b3 v.x then v.x else b3,
        if Fl.lt b4 v.y then v.y else b4) x1 y1
    refine ⟨r1, r2, Fl.le_trans' r3 x2, Fl.le_trans' x3 r4, Fl.le_trans' r5 y2, Fl.le_trans' y3 r6, ?_⟩
    intro w hw
    rcases List.mem_cons.1 hw with rfl | hw
    · exact ⟨x4.mono r3 r4, y4.mono r5 r6⟩
    · exact r7 w hw

theorem number_big [Fl.Ok f] : f.Number (Fl.big f) :=
  Fl.number_iff.2 ⟨Fl.rnd_big f, (abs_of_nonneg (Fl.big_nonneg f)).le⟩

theorem number_neg_big [Fl.Ok f] : f.Number (-Fl.big f) :=
  Fl.number_iff.2 ⟨by rw [Fl.rnd_neg, Fl.rnd_big], by rw [abs_neg]; exact (abs_of_nonneg (Fl.big_nonneg f)).le⟩

theorem mk_mono [Fl.Ok f] {a b : ℚ} (h : a ≤ b) : Fl.le (Fl.mk f a) (Fl.mk f b) = true := by
  have := Fl.rnd_mono f (by have := Fl.Ok.prec (f := f); omega) h
  have hb := Fl.big_nonneg f
  unfold Fl.mk
  simp only
  split_ifs <;> simp only [Fl.le, Bool.not_false, Bool.or_true, Bool.not_true, Bool.or_false, decide_eq_true_eq] <;>
    first | exact this | (exfalso; linarith) | rfl

theorem mk_zero : Fl.mk f 0 = .fin 0 := by
  simp [Fl.mk, Fl.rnd_zero, not_lt.2 (Fl.big_nonneg f)]

theorem mk_isValue [Fl.Ok f] (a : ℚ) : (Fl.mk f a).IsValue := by
  unfold Fl.mk
  simp only
  split
  · trivial
  · split
    · trivial
    · exact Fl.number_iff.2 ⟨Fl.rnd_idem f (by have := Fl.Ok.prec (f := f); omega) a, abs_le.2 ⟨by linarith, by linarith⟩⟩

theorem number_one [Fl.Ok f] : f.Number 1 := by
  have := Fl.Ok.prec (f := f)
  have := Fl.Ok.prec_emax (f := f)
  exact ⟨1, 0, by simp, by simpa using one_lt_pow₀ (by norm_num : (1 : ℤ) < 2) (by omega), by omega, by omega⟩

theorem mk_unit [Fl.Ok f] {a : ℚ} (h0 : 0 ≤ a) (h1 : a ≤ 1) : (Fl.mk f a).UnitOrNan := by
  have hp := Fl.Ok.prec (f := f)
  have hb : (1 : ℚ) ≤ Fl.big f := by
    have := Fl.number_le (number_one (f := f)); simpa using this
  rw [Fl.mk_of_le f (by rw [abs_of_nonneg h0]; linarith)]
  have r1 := Fl.rnd_mono f (by omega) h1
  rw [Fl.rnd_of_number number_one] at r1
  have r0 := Fl.rnd_nonneg f h0
  exact ⟨r0, r1, Fl.number_iff.2 ⟨Fl.rnd_idem f (by omega) a, by rw [abs_of_nonneg r0]; linarith⟩⟩

/-- Quotient of `x - m` by a scale that is at least `M - m`. -/
theorem div_unit [Fl.Ok f] {x m M s : Fl f} (hr : Run m M) (hb : Bounds x m M) (hn : s ≠ .nan) (hs : Fl.le (Fl.sub M m) s = true) : (Fl.div (Fl.sub x m) s).UnitOrNan := by
  obtain ⟨n1, n2, n3, n4, -, -⟩ := hr
  obtain ⟨b1, b2⟩ := hb
  rcases x with _ | xs | x
  · simp [Fl.sub, Fl.div, Fl.UnitOrNan]
  · -- infinite coordinate
    simp only [reduceCtorEq, false_or] at b1 b2
    cases xs
    · rcases M with _ | Ms | M <;> simp_all [Fl.le]
      rcases m with _ | ms | m <;> simp_all [Fl.le, Fl.sub, Fl.div, Fl.UnitOrNan]
      all_goals rcases s with _ | ss | s <;> simp_all [Fl.le, Fl.div, Fl.UnitOrNan]
    · rcases m with _ | ms | m <;> simp_all [Fl.le, Fl.sub, Fl.div, Fl.UnitOrNan]
  · simp only [reduceCtorEq, false_or] at b1 b2
    rcases m with _ | ms | m
    · exact absurd rfl n1
    · -- the lower bound is `-∞`
      cases ms
      · exact absurd rfl n2
      · rcases M with _ | Ms | M <;> simp_all [Fl.le, Fl.sub]
        all_goals rcases s with _ | ss | s <;> simp_all [Fl.le, Fl.div, Fl.UnitOrNan]
    · rcases M with _ | Ms | M
      · exact absurd rfl n3
      · cases Ms
        · -- the upper bound is `+∞`
          rcases s with _ | ss | s <;> simp_all [Fl.le, Fl.sub]
          unfold Fl.mk
          simp only
          split
          · simp [Fl.div, Fl.UnitOrNan]
          · split
            · simp [Fl.div, Fl.UnitOrNan]
            · simp only [Fl.div, Fl.UnitOrNan, le_refl, true_and, zero_le_one]
              exact ⟨0, 0, by simp, by positivity, by omega, by have := Fl.Ok.prec_emax (f := f); omega⟩
        · exact absurd rfl n4
      · -- finite bounds
        simp only [Fl.le, decide_eq_true_eq] at b1 b2
        have hmM := mk_mono (f := f) (show x - m ≤ M - m by linarith)
        have h0 := mk_mono (f := f) (show 0 ≤ x - m by linarith)
        rw [mk_zero] at h0
        have hz : f.Number 0 := ⟨0, 0, by simp, by positivity, by omega, by have := Fl.Ok.prec_emax (f := f); omega⟩
        simp only [Fl.sub] at hs ⊢
        have hle := Fl.le_trans' hmM hs
        cases hc : Fl.mk f (x - m) with
        | nan => rw [hc] at h0; simp [Fl.le] at h0
        | inf t =>
          rw [hc] at h0 hle
          cases t
          · rcases s with _ | ss | s <;> simp_all [Fl.le, Fl.div, Fl.UnitOrNan]
          · simp [Fl.le] at h0
        | fin c =>
          rw [hc] at h0 hle
          simp only [Fl.le, decide_eq_true_eq] at h0
          rcases s with _ | ss | s
          · exact absurd rfl hn
          · simp [Fl.div, Fl.UnitOrNan, hz]
          · simp only [Fl.le, decide_eq_true_eq] at hle
            simp only [Fl.div]
            split
            · rename_i hs0
              have : c = 0 := by linarith
              simp [this, Fl.UnitOrNan]
            · rename_i hs0
              have hpos : 0 < s := lt_of_le_of_ne (by linarith) (Ne.symm hs0)
              exact mk_unit (div_nonneg h0 hpos.le) ((div_le_one hpos).2 hle)

theorem max_left {a b : Fl f} (h : a ≠ .nan) : Fl.max a b ≠ .nan ∧ Fl.le a (Fl.max a b) = true := by
  rcases a with _ | s | a
  · exact absurd rfl h
  · rcases b with _ | t | b <;> cases s <;> simp [Fl.max, Fl.le, Fl.lt]
    cases t <;> simp [Fl.le]
  · rcases b with _ | t | b <;> simp [Fl.max, Fl.le, Fl.lt]
    · cases t <;> simp [Fl.le]
    · split <;> simp [Fl.le]
      exact le_of_lt ‹_›

theorem max_right {a b : Fl f} (h : b ≠ .nan) : Fl.max a b ≠ .nan ∧ Fl.le b (Fl.max a b) = true := by
  rcases a with _ | s | a
  · rcases b with _ | t | b
    · exact absurd rfl h
    · cases t <;> simp [Fl.max, Fl.le]
    · simp [Fl.max, Fl.le]
  · rcases b with _ | t | b
    · exact absurd rfl h
    · cases s <;> cases t <;> simp [Fl.max, Fl.le, Fl.lt]
    · cases s <;> simp [Fl.max, Fl.le, Fl.lt]
  · rcases b with _ | t | b
    · exact absurd rfl h
    · cases t <;> simp [Fl.max, Fl.le, Fl.lt]
    · simp only [Fl.max, Fl.lt, decide_eq_true_eq]
      split
      · simp [Fl.le]
      · simp [Fl.le]; linarith

theorem sub_ne_nan {m M : Fl f} (h : Run m M) : Fl.sub M m ≠ .nan := by
  obtain ⟨n1, n2, n3, n4, -, -⟩ := h
  rcases M with _ | s | M <;> rcases m with _ | t | m <;> simp_all [Fl.sub]
  · unfold Fl.mk; simp only; split <;> [skip; split] <;> simp

/-- **C43**: every coordinate of the normalized vertices is NaN or in `[0, 1]`, for every input, infinities and NaN included. -/
theorem C43_normalized [Fl.Ok f] (vs : List (Vtx (Fl f))) (hv : ∀ v ∈ vs, v.x.IsValue ∧ v.y.IsValue) :
    ∀ v ∈ normalizeVerts vs, v.x.UnitOrNan ∧ v.y.UnitOrNan := by
  have h0 : Run (.fin (Fl.big f) : Fl f) (.fin (-Fl.big f)) :=
    ⟨by simp, by simp, by simp, by simp, number_big, number_neg_big⟩
  obtain ⟨r1, r2, -, -, -, -, r7⟩ := bboxLoop_run vs hv (.fin (Fl.big f), .fin (Fl.big f), .fin (-Fl.big f), .fin (-Fl.big f)) h0 h0
  intro w hw
  unfold normalizeVerts at hw
  obtain ⟨v, hvv, rfl⟩ := List.mem_map.1 hw
  obtain ⟨bx, by'⟩ := r7 v hvv
  have sx := max_left (b := Fl.sub (bbox vs).2.2.2 (bbox vs).2.1) (sub_ne_nan r1)
  have sy := max_right (a := Fl.sub (bbox vs).2.2.1 (bbox vs).1) (sub_ne_nan r2)
  exact ⟨div_unit r1 bx sx.1 sx.2, div_unit r2 by' sy.1 sy.2⟩

open Rounded in
/-- The bin coordinate of a normalized coordinate. -/
theorem toUsize_lt [Fl.Ok f] {b : Nat} (hb : 1 ≤ b) (hc : b ≤ Fl.usizeMax) {x : Fl f} (hx : x.UnitOrNan) :
    toUsize (mul (mul c099 (ofNat b)) x) < b := by
  have hu := u_pos (F := Fl f)
  have hl := u_le (F := Fl f)
  have ht := tiny_le (F := Fl f)
  have ht0 := tiny_nonneg (F := Fl f)
  have hcap : (b : ℚ) ≤ cap (F := Fl f) := by
    show (b : ℚ) ≤ (Fl.usizeMax : ℚ); exact_mod_cast hc
  have hcb := cap_le (F := Fl f)
  have hb' : (1 : ℚ) ≤ b := by exact_mod_cast hb
  obtain ⟨m1, m0, m2⟩ := binFactor_spec (F := Fl f) hb hcap
  set m := binFactor (Fl f) b with hm
  rcases x with _ | s | q
  · have e : mul (mul c099 (ofNat b)) (.nan : Fl f) = .nan := by
      obtain ⟨e, -⟩ := Fl.value_eq.1 m1
      rw [e]; rfl
    rw [e]; exact hb
  · exact absurd hx (by simp [Fl.UnitOrNan])
  · obtain ⟨q0, q1, qn⟩ := hx
    have hv : val (.fin q : Fl f) = some q := Fl.value_fin (Fl.rnd_of_number qn) (Fl.number_le qn)
    have p0 : 0 ≤ m * q := mul_nonneg m0 q0
    have p1 : m * q ≤ (99 / 100 + 4 * u (Fl f)) * b := by nlinarith
    have p2 : m * q ≤ b := p1.trans (by nlinarith)
    have hv2 := val_mul m1 hv (by rw [abs_of_nonneg p0]; linarith)
    have z0 := rnd_nonneg (F := Fl f) p0
    have e2 := rnd_err (F := Fl f) (m * q)
    rw [abs_of_nonneg p0, abs_le] at e2
    have z1 : rnd (Fl f) (m * q) < b := by nlinarith
    rw [toUsize_eq hv2 z0 (by linarith)]
    exact (Nat.floor_lt z0).2 z1

/-- **C43**: the spatial sort succeeds and returns every vertex exactly once, for every input, infinities and NaN included. -/
theorem C43_binSort [IdCfg] [Fl.Ok f] (vs : List (Vtx (Fl f))) (hv : ∀ v ∈ vs, v.x.IsValue ∧ v.y.IsValue) (b : Nat) (hb : 1 ≤ b)
    (hc : b ≤ Fl.usizeMax) (hn : vs.length ≤ IdCfg.maxId + 1) :
    ∃ out, binSort b (normalizeVerts vs) = .ok out ∧ out.Perm (List.range vs.length) := by
  have hlen : (normalizeVerts vs).length = vs.length := Rounded.normalizeVerts_length' vs
  rw [← hlen] at hn ⊢
  apply C13_binSort_ok _ _ hn
  intro v hvv
  obtain ⟨h1, h2⟩ := C43_normalized vs hv v hvv
  have hx := toUsize_lt hb hc h1
  have hy := toUsize_lt hb hc h2
  unfold binIndex
  generalize toUsize (mul (mul c099 (ofNat b)) v.x) = x at *
  generalize toUsize (mul (mul c099 (ofNat b)) v.y) = y at *
  unfold binIndexPos
  have h3 : (y + 1) * b ≤ b * b := Nat.mul_le_mul_right _ hy
  have h4 : (y + 1) * b = y * b + b := Nat.succ_mul y b
  split
  · exact ⟨_, rfl, by omega⟩
  · rw [if_pos (by omega)]
    exact ⟨_, rfl, by omega⟩

end

end CDT

/-! ## Examples -/

namespace CDT

local instance ieeeCfg : IdCfg := u32Cfg

/-- A check of `Representable` and `NoOverflow` by evaluation. -/
def representableB (f : Fmt) (V : List (Vtx ℚ)) : Bool :=
  V.all fun v => decide (Fl.rnd f v.x = v.x ∧ |v.x| ≤ Fl.big f ∧ Fl.rnd f v.y = v.y ∧ |v.y| ≤ Fl.big f)

def noOverflowB (f : Fmt) (V : List (Vtx ℚ)) : Bool :=
  V.all fun v => V.all fun w => decide (|v.x - w.x| ≤ Fl.big f ∧ |v.y - w.y| ≤ Fl.big f)

theorem representable_of {f : Fmt} [Fl.Ok f] {V : List (Vtx ℚ)} (h : representableB f V = true) : Representable f V := by
  intro v hv
  have := of_decide_eq_true (List.all_eq_true.1 h v hv)
  exact ⟨Fl.number_iff.2 ⟨this.1, this.2.1⟩, Fl.number_iff.2 ⟨this.2.2.1, this.2.2.2⟩⟩

theorem noOverflow_of {f : Fmt} {V : List (Vtx ℚ)} (h : noOverflowB f V = true) : NoOverflow f V := fun v hv w hw =>
  of_decide_eq_true (List.all_eq_true.1 (List.all_eq_true.1 h v hv) w hw)

/-- Five points whose normalized coordinates `1/5`, `4/5` are rounded. -/
def simSample : List (Vtx ℚ) := Witness.pts [(0, 0), (0, 5), (5, 5), (5, 0), (4, 1)]

/-- C42 applies to `f64` and to `f32`: scaled by `2^-3`, moved by `(1/2, -7)`. The result is not trivial. -/
example : triangulation2d 100 Witness.defaultBins (flVerts binary64 (simSample.map (similar (-3) ⟨1/2, -7⟩))) =
    triangulation2d 100 Witness.defaultBins (flVerts binary64 simSample) :=
  C42_triangulation2d _ _ _ _ _ (representable_of (by decide +kernel)) (representable_of (by decide +kernel))
    (noOverflow_of (by decide +kernel)) (noOverflow_of (by decide +kernel))

example : constrained2d 100 Witness.defaultBins (flVerts binary32 (simSample.map (similar (-3) ⟨1/2, -7⟩))) [⟨0, 2⟩] =
    constrained2d 100 Witness.defaultBins (flVerts binary32 simSample) [⟨0, 2⟩] :=
  C42_constrained2d _ _ _ _ _ _ (representable_of (by decide +kernel)) (representable_of (by decide +kernel))
    (noOverflow_of (by decide +kernel)) (noOverflow_of (by decide +kernel))

example : okAnd (triangulation2d 100 Witness.defaultBins (flVerts binary64 simSample)) (fun ts => decide (ts.length = 4)) = true := by
  decide +kernel

/-- C43 applies to an input with NaN, both infinities, the largest number and a subnormal number. -/
def wildSample : List (Vtx F64) :=
  [⟨.nan, .fin 1⟩, ⟨.inf true, .inf false⟩, ⟨.fin (Fl.big binary64), .fin (1 / 2 ^ 1074)⟩, ⟨.fin (-Fl.big binary64), .nan⟩, ⟨.fin 3, .fin 4⟩]

theorem wildSample_values : ∀ v ∈ wildSample, v.x.IsValue ∧ v.y.IsValue := by
  have n : ∀ q : ℚ, (Fl.rnd binary64 q = q ∧ |q| ≤ Fl.big binary64) → binary64.Number q := fun q h => Fl.number_iff.2 h
  intro v hv
  simp only [wildSample, List.mem_cons, List.not_mem_nil, or_false] at hv
  rcases hv with rfl | rfl | rfl | rfl | rfl
  · exact ⟨trivial, n _ (by decide +kernel)⟩
  · exact ⟨trivial, trivial⟩
  · exact ⟨n _ (by decide +kernel), n _ (by decide +kernel)⟩
  · exact ⟨n _ (by decide +kernel), trivial⟩
  · exact ⟨n _ (by decide +kernel), n _ (by decide +kernel)⟩

example : ∃ out, binSort 3 (normalizeVerts wildSample) = .ok out ∧ out.Perm (List.range 5) :=
  C43_binSort wildSample wildSample_values 3 (by decide) (by decide) (by decide)

/-- A box without infinities whose width overflows: the normalized coordinates are not trivial. -/
example : normalizeVerts ([⟨.fin (Fl.big binary64), .fin 1⟩, ⟨.fin (-Fl.big binary64), .fin 0⟩] : List (Vtx F64)) =
    [⟨.nan, .fin 0⟩, ⟨.fin 0, .fin 0⟩] := by decide +kernel

end CDT

import Verif.Model.Inputs
import Verif.Props.Ieee
import Verif.Props.Grid

/-!
# Input vertex formats

C61: the generic entry points read the input through the casts of `types/vertex.rs` and then do what the other modules
describe; a cast to a wider format changes no value; a cast to a narrower format keeps the order but can merge vertices.
C62: normalization produces no NaN if no difference of coordinates overflows, so never for `f32` vertices in an `f64` build.
-/

set_option linter.unusedSectionVars false

namespace CDT
open FloatOps

section generic
variable {T F : Type} [FloatOps F]

/-- The vertex that the trait shows to the algorithm. -/
def readVtx (F : Type) [Vertex2d T F] (v : T) : Vtx F := ⟨Vertex2d.x v, Vertex2d.y v⟩

theorem bboxLoopOf_eq [Vertex2d T F] (vs : List T) (b : F × F × F × F) : bboxLoopOf F vs b = bboxLoop (vs.map (readVtx F)) b := by
  induction vs generalizing b with
  | nil => rfl
  | cons v vs ih => exact ih _

theorem normalizeOf_eq [Vertex2d T F] (vs : List T) : normalizeOf F vs = normalizeVerts (vs.map (readVtx F)) := by
  simp only [normalizeOf, normalizeVerts, scaleFactor, bbox, bboxLoopOf_eq, List.map_map]
  rfl

variable [IdCfg]

/-- **C61**: with any implementation of `Vertex2d`, the result is the one for the vertices `(x(), y())`. -/
theorem C61_triangulation2d [Vertex2d T F] (fuel : Nat) (bins : Nat → Nat) (vs : List T) :
    triangulation2dOf F fuel bins vs = triangulation2d fuel bins (vs.map fun v => (⟨Vertex2d.x v, Vertex2d.y v⟩ : Vtx F)) := by
  simp only [triangulation2dOf, triangulation2d, normalizeOf_eq, List.length_map]
  rfl

/-- **C61**, constrained. -/
theorem C61_constrained2d [Vertex2d T F] (fuel : Nat) (bins : Nat → Nat) (vs : List T) (es : List Edge) :
    constrained2dOf F fuel bins vs es =
      constrained2d fuel bins (vs.map fun v => (⟨Vertex2d.x v, Vertex2d.y v⟩ : Vtx F)) es := by
  simp only [constrained2dOf, constrained2d, constrainedMesh, normalizeOf_eq, List.length_map]
  split
  · rfl
  · have e : vs.map (fun v => (⟨Vertex2d.x v, Vertex2d.y v⟩ : Vtx F)) = vs.map (readVtx F) := rfl
    rw [e]
    cases wrapAndTriangulate fuel (bins vs.length) (normalizeVerts (vs.map (readVtx F)))
      (some ((List.range vs.length).map toId)) <;> rfl

/-- **C61**: 3d vertices whose numbers have the type `G`: the projection is computed in `G`, and its result is cast. -/
theorem C61_planar {G : Type} [FloatOps G] [AsFloat G F] (fuel : Nat) (bins : Nat → Nat) (vs : List (Vtx3 G)) (n : Vtx3 G)
    (es : List Edge) (h : 3 ≤ vs.length) :
    ∃ pv, transformTo2d vs n = .ok pv ∧
      triangulation3dOf F fuel bins vs n =
        triangulation2d fuel bins (pv.map fun v => (⟨asFloat v.x, asFloat v.y⟩ : Vtx F)) ∧
      constrained3dOf F fuel bins vs n es =
        constrained2d fuel bins (pv.map fun v => (⟨asFloat v.x, asFloat v.y⟩ : Vtx F)) es := by
  obtain ⟨a, b, c, l, rfl⟩ : ∃ a b c l, vs = a :: b :: c :: l := by
    match vs, h with
    | a :: b :: c :: l, _ => exact ⟨a, b, c, l, rfl⟩
  refine ⟨_, rfl, ?_, ?_⟩
  · have e : transformTo2dOf F (a :: b :: c :: l) n = .ok ((a :: b :: c :: l).map fun v =>
        ⟨asFloat (v.dot (a.sub' b).normalize), asFloat (v.dot ((a.sub' b).normalize.cross n.neg'))⟩) := rfl
    rw [triangulation3dOf, if_neg (by omega), e, Res.ok_bind, @C61_triangulation2d (Vtx F) F _ _ (ownVertex F)]
    simp only [List.map_map]
    rfl
  · have e : transformTo2dOf F (a :: b :: c :: l) n = .ok ((a :: b :: c :: l).map fun v =>
        ⟨asFloat (v.dot (a.sub' b).normalize), asFloat (v.dot ((a.sub' b).normalize.cross n.neg'))⟩) := rfl
    rw [constrained3dOf, if_neg (by omega), e, Res.ok_bind, @C61_constrained2d (Vtx F) F _ _ (ownVertex F)]
    simp only [List.map_map]
    rfl

end generic

section casts
variable {f g : Fmt} [Fl.Ok f] [Fl.Ok g]

/-- Every number of `f` is a number of `g`. -/
structure Fmt.Within (f g : Fmt) : Prop where
  prec : f.prec ≤ g.prec
  qmin : f.qmin ≤ g.qmin
  big : Fl.big f ≤ Fl.big g

theorem Fmt.Within.refl (f : Fmt) : f.Within f := ⟨le_rfl, le_rfl, le_rfl⟩

theorem Fmt.Within.number (h : f.Within g) {q : ℚ} (hq : f.Number q) : g.Number q := by
  refine Fl.number_iff.2 ⟨?_, (Fl.number_le hq).trans h.big⟩
  obtain ⟨m, e, rfl, hm, he, -⟩ := hq
  refine Fl.rnd_dyadic_int g (by have := Fl.Ok.prec (f := g); omega) ?_ (by have := h.qmin; omega)
  exact hm.le.trans (pow_le_pow_right₀ (by norm_num) h.prec)

theorem within_32_64 : binary32.Within binary64 := ⟨by decide, by decide, by decide +kernel⟩

theorem asFloat_number {q : ℚ} (hq : g.Number q) : (asFloat (.fin q : Fl f) : Fl g) = .fin q := by
  show Fl.mk g q = _
  rw [Fl.mk_of_le g (Fl.number_le hq), Fl.rnd_of_number hq]

variable [IdCfg]

/-- **C61**: a cast to a format that contains the format of the input (`f32` to `f64`, or the same format) changes no value, so
the result is the one for the same points in the wider format. -/
theorem C61_widen (h : f.Within g) (fuel : Nat) (bins : Nat → Nat) (V : List (Vtx ℚ)) (es : List Edge)
    (hV : Representable f V) :
    triangulation2dOf (Fl g) fuel bins (flVerts f V) = triangulation2d fuel bins (flVerts g V) ∧
    constrained2dOf (Fl g) fuel bins (flVerts f V) es = constrained2d fuel bins (flVerts g V) es := by
  have e : (flVerts f V).map (fun v => (⟨Vertex2d.x v, Vertex2d.y v⟩ : Vtx (Fl g))) = flVerts g V := by
    simp only [flVerts, List.map_map]
    refine List.map_congr_left fun v hv => ?_
    obtain ⟨h1, h2⟩ := hV v hv
    exact congrArg₂ Vtx.mk (asFloat_number (f := f) (h.number h1)) (asFloat_number (f := f) (h.number h2))
  rw [C61_triangulation2d, C61_constrained2d, e]
  exact ⟨rfl, rfl⟩

/-- **C61**: infinities and NaN stay what they are, in every build. -/
theorem C61_special (s : Bool) : (asFloat (.nan : Fl f) : Fl g) = .nan ∧ (asFloat (.inf s : Fl f) : Fl g) = .inf s := ⟨rfl, rfl⟩

/-- **C61**: a cast, in particular to a narrower format (`DVec2` vertices in an `f32` build), keeps the order of the coordinates. -/
theorem C61_order {x y : Fl f} (h : Fl.le x y = true) : Fl.le (asFloat x : Fl g) (asFloat y) = true := by
  have key : ∀ q : ℚ, Fl.mk g q ≠ .nan := by
    intro q; unfold Fl.mk; simp only; split <;> [skip; split] <;> simp
  cases x with
  | nan => exact absurd h (by simp [Fl.le])
  | inf s =>
    cases y with
    | nan => exact absurd h (by simp [Fl.le])
    | inf t => exact h
    | fin y =>
      simp only [Fl.le] at h
      subst h
      show Fl.le (.inf true) (Fl.mk g y) = true
      have := key y
      revert this
      cases Fl.mk g y <;> simp [Fl.le]
  | fin x =>
    cases y with
    | nan => exact absurd h (by simp [Fl.le])
    | inf t =>
      simp only [Fl.le, Bool.not_eq_true'] at h
      subst h
      show Fl.le (Fl.mk g x) (.inf false) = true
      have := key x
      revert this
      cases Fl.mk g x <;> simp [Fl.le]
    | fin y => exact mk_mono (by simpa [Fl.le] using h)

/-- **C61**: a cast of a finite number that stays in range gives a nearest number of the target. -/
theorem C61_nearest {q : ℚ} (h : |q| ≤ Fl.big g) : ∃ r, (asFloat (.fin q : Fl f) : Fl g) = .fin r ∧ g.Number r ∧
    ∀ x, g.Number x → |r - q| ≤ |x - q| := by
  have hp : 1 ≤ g.prec := by have := Fl.Ok.prec (f := g); omega
  exact ⟨Fl.rnd g q, Fl.mk_of_le g h, Fl.number_iff.2 ⟨Fl.rnd_idem g hp q, Fl.rnd_le_big g h⟩,
    fun x hx => Fl.rnd_nearest g hp q x (Fl.rnd_of_number hx)⟩

/-- **C61**: integer points of `f32` vertices in an `f64` build are the same integer points, so the claims on grids apply to them. -/
theorem C61_int (h : f.Within g) (fuel : Nat) (bins : Nat → Nat) (l : List (Int × Int)) (es : List Edge) (he : f.prec ≤ f.emax)
    (hl : ∀ p ∈ l, |p.1| ≤ 2 ^ f.prec ∧ |p.2| ≤ 2 ^ f.prec) :
    triangulation2dOf (Fl g) fuel bins (flPts f l) = triangulation2d fuel bins (flPts g l) ∧
    constrained2dOf (Fl g) fuel bins (flPts f l) es = constrained2d fuel bins (flPts g l) es := by
  have num : ∀ z : ℤ, |z| ≤ 2 ^ f.prec → f.Number z := by
    intro z hz
    refine Fl.number_iff.2 ⟨?_, ?_⟩
    · have := Fl.rnd_dyadic_int f (by have := Fl.Ok.prec (f := f); omega) (m := z) (k := 0) hz (by omega)
      rwa [zpow_zero, mul_one] at this
    · have hB : (2 : ℚ) ^ f.prec ≤ Fl.big f := (pow_le_pow_right₀ (by norm_num) he).trans (Fl.big_ge f)
      refine le_trans ?_ hB
      exact_mod_cast hz
  have mkn : ∀ {k : Fmt} [Fl.Ok k] (z : ℤ), k.Number z → Fl.mk k z = .fin (z : ℚ) := by
    intro k _ z hz
    rw [Fl.mk_of_le k (Fl.number_le hz), Fl.rnd_of_number hz]
  have e1 : flPts f l = flVerts f (intPts l) := by
    simp only [flPts, flVerts, intPts, List.map_map]
    refine List.map_congr_left fun p hp => ?_
    simp only [Function.comp_apply, mkn (k := f) _ (num _ (hl p hp).1), mkn (k := f) _ (num _ (hl p hp).2)]
  have e2 : flPts g l = flVerts g (intPts l) := by
    simp only [flPts, flVerts, intPts, List.map_map]
    refine List.map_congr_left fun p hp => ?_
    simp only [Function.comp_apply, mkn (k := g) _ (h.number (num _ (hl p hp).1)), mkn (k := g) _ (h.number (num _ (hl p hp).2))]
  rw [e1, e2]
  refine C61_widen h fuel bins _ es ?_
  simp only [Representable, intPts, List.forall_mem_map]
  exact fun p hp => ⟨num _ (hl p hp).1, num _ (hl p hp).2⟩

end casts

/-! ## C62: no NaN -/

section nan
variable {f : Fmt} [Fl.Ok f]

theorem rnd_pos_of_mult {q : ℚ} (h : Fl.Mult f q) (h0 : 0 < q) : 0 < Fl.rnd f q := by
  obtain ⟨z, rfl⟩ := h
  have hp : (0 : ℚ) < 2 ^ (-(f.qmin : ℤ)) := by positivity
  have hz : 0 < (z : ℚ) := pos_of_mul_pos_left h0 hp.le
  have hz' : 1 ≤ z := by exact_mod_cast hz
  have h1 : (2 : ℚ) ^ (-(f.qmin : ℤ)) ≤ z * 2 ^ (-(f.qmin : ℤ)) := by
    have : (1 : ℚ) ≤ z := by exact_mod_cast hz'
    nlinarith
  have hf : 1 ≤ f.prec := by have := Fl.Ok.prec (f := f); omega
  have h2 := Fl.rnd_mono f hf h1
  have h3 := Fl.rnd_dyadic_int f hf (m := 1) (k := -(f.qmin : ℤ)) (by rw [abs_one]; exact one_le_pow₀ (by norm_num)) le_rfl
  rw [Int.cast_one, one_mul] at h3
  rw [h3] at h2
  linarith

theorem number_mult {q : ℚ} (h : f.Number q) : Fl.Mult f q := Fl.mult_of_rnd (Fl.rnd_of_number h)

/-- The vertices are not all at the same position. -/
def NotAllEqual (V : List (Vtx ℚ)) : Prop := ∃ v ∈ V, ∃ w ∈ V, v.x ≠ w.x ∨ v.y ≠ w.y

/-- **C62**: if no difference of coordinates overflows and the vertices are not all at the same position, all normalized
coordinates are numbers between 0 and 1. -/
theorem C62_finite (V : List (Vtx ℚ)) (h : Representable f V) (ho : NoOverflow f V) (hd : NotAllEqual V) :
    ∀ v ∈ normalizeVerts (flVerts f V), ∃ x y : ℚ, v = ⟨.fin x, .fin y⟩ ∧ 0 ≤ x ∧ x ≤ 1 ∧ 0 ≤ y ∧ y ≤ 1 := by
  have hval : ∀ v ∈ flVerts f V, v.x.IsValue ∧ v.y.IsValue := by
    intro v hv
    obtain ⟨w, hw, rfl⟩ := List.mem_map.1 hv
    exact h w hw
  have hne : V ≠ [] := by
    rintro rfl
    obtain ⟨v, hv, -⟩ := hd
    simp at hv
  have hsim : V.map (similar 0 ⟨0, 0⟩) = V := by
    conv_rhs => rw [← List.map_id V]
    exact List.map_congr_left fun v _ => by simp [similar]
  obtain ⟨v1, m1, v2, m2, v3, m3, v4, m4, hb, -⟩ := bbox_similar (k := 0) (t := ⟨0, 0⟩) hne h (by rw [hsim]; exact h)
  have h0 : Run (.fin (Fl.big f) : Fl f) (.fin (-Fl.big f)) :=
    ⟨by simp, by simp, by simp, by simp, number_big, number_neg_big⟩
  obtain ⟨-, -, -, -, -, -, r7⟩ := bboxLoop_run (flVerts f V) hval
    (.fin (Fl.big f), .fin (Fl.big f), .fin (-Fl.big f), .fin (-Fl.big f)) h0 h0
  have hbox : ∀ v ∈ V, v1.x ≤ v.x ∧ v.x ≤ v3.x ∧ v2.y ≤ v.y ∧ v.y ≤ v4.y := by
    intro v hv
    obtain ⟨⟨a1, a2⟩, ⟨a3, a4⟩⟩ := r7 ⟨.fin v.x, .fin v.y⟩ (List.mem_map_of_mem hv)
    change _ ∨ Fl.le (bbox (flVerts f V)).1 _ = true at a1
    change _ ∨ Fl.le _ (bbox (flVerts f V)).2.2.1 = true at a2
    change _ ∨ Fl.le (bbox (flVerts f V)).2.1 _ = true at a3
    change _ ∨ Fl.le _ (bbox (flVerts f V)).2.2.2 = true at a4
    rw [hb] at a1 a2 a3 a4
    simpa [Fl.le] using And.intro a1 (And.intro a2 (And.intro a3 a4))
  have sx : sub (.fin v3.x : Fl f) (.fin v1.x) = .fin (Fl.rnd f (v3.x - v1.x)) := Fl.fin_sub (ho v3 m3 v1 m1).1
  have sy : sub (.fin v4.y : Fl f) (.fin v2.y) = .fin (Fl.rnd f (v4.y - v2.y)) := Fl.fin_sub (ho v4 m4 v2 m2).2
  have hx0 : 0 ≤ Fl.rnd f (v3.x - v1.x) := Fl.rnd_nonneg f (by have := hbox v3 m3; linarith)
  have hy0 : 0 ≤ Fl.rnd f (v4.y - v2.y) := Fl.rnd_nonneg f (by have := hbox v4 m4; linarith)
  have hpos : 0 < Fl.rnd f (v3.x - v1.x) ∨ 0 < Fl.rnd f (v4.y - v2.y) := by
    obtain ⟨v, hv, w, hw, hvw⟩ := hd
    have b1 := hbox v hv
    have b2 := hbox w hw
    rcases hvw with hvw | hvw
    · left
      refine rnd_pos_of_mult ((number_mult (h v3 m3).1).sub (number_mult (h v1 m1).1)) ?_
      rcases lt_or_gt_of_ne hvw with hl | hl <;> linarith
    · right
      refine rnd_pos_of_mult ((number_mult (h v4 m4).2).sub (number_mult (h v2 m2).2)) ?_
      rcases lt_or_gt_of_ne hvw with hl | hl <;> linarith
  obtain ⟨s, hs, hs0⟩ : ∃ s : ℚ, scaleFactor (flVerts f V) = .fin s ∧ s ≠ 0 := by
    simp only [scaleFactor, hb, sx, sy]
    show ∃ s : ℚ, Fl.max _ _ = .fin s ∧ s ≠ 0
    simp only [Fl.max, Fl.lt, decide_eq_true_eq]
    split
    · exact ⟨_, rfl, by linarith⟩
    · rename_i hn
      refine ⟨_, rfl, ?_⟩
      rcases hpos with hp | hp
      · exact hp.ne'
      · exact (hp.trans_le (not_lt.1 hn)).ne'
  have nn : ∀ q : ℚ, Fl.mk f q ≠ .nan := by
    intro q; unfold Fl.mk; simp only; split <;> [skip; split] <;> simp
  intro v hv
  obtain ⟨u1, u2⟩ := C43_normalized (flVerts f V) hval v hv
  obtain ⟨w', hw', rfl⟩ := List.mem_map.1 hv
  obtain ⟨w, hw, rfl⟩ := List.mem_map.1 hw'
  have ex : sub (.fin w.x : Fl f) (.fin v1.x) = .fin (Fl.rnd f (w.x - v1.x)) := Fl.fin_sub (ho w hw v1 m1).1
  have ey : sub (.fin w.y : Fl f) (.fin v2.y) = .fin (Fl.rnd f (w.y - v2.y)) := Fl.fin_sub (ho w hw v2 m2).2
  simp only [hb, hs, ex, ey] at u1 u2 ⊢
  have dx : div (.fin (Fl.rnd f (w.x - v1.x)) : Fl f) (.fin s) = Fl.mk f (Fl.rnd f (w.x - v1.x) / s) := by
    show Fl.div _ _ = _
    simp [Fl.div, hs0]
  have dy : div (.fin (Fl.rnd f (w.y - v2.y)) : Fl f) (.fin s) = Fl.mk f (Fl.rnd f (w.y - v2.y) / s) := by
    show Fl.div _ _ = _
    simp [Fl.div, hs0]
  rw [dx] at u1
  rw [dy] at u2
  rw [dx, dy]
  have n1 := nn (Fl.rnd f (w.x - v1.x) / s)
  have n2 := nn (Fl.rnd f (w.y - v2.y) / s)
  rcases hX : Fl.mk f (Fl.rnd f (w.x - v1.x) / s) with _ | _ | X
  · exact absurd hX n1
  · rw [hX] at u1; exact u1.elim
  · rcases hY : Fl.mk f (Fl.rnd f (w.y - v2.y) / s) with _ | _ | Y
    · exact absurd hY n2
    · rw [hY] at u2; exact u2.elim
    · rw [hX] at u1
      rw [hY] at u2
      exact ⟨X, Y, rfl, u1.1, u1.2.1, u2.1, u2.2.1⟩

/-- **C62**: finite `f32` vertices in an `f64` build: no overflow and no NaN, for all of them. -/
theorem C62_f32 (V : List (Vtx ℚ)) (h : Representable binary32 V) (hd : NotAllEqual V) :
    ∀ v ∈ normalizeOf F64 (flVerts binary32 V), ∃ x y : ℚ, v = ⟨.fin x, .fin y⟩ ∧ 0 ≤ x ∧ x ≤ 1 ∧ 0 ≤ y ∧ y ≤ 1 := by
  have e : (flVerts binary32 V).map (readVtx F64) = flVerts binary64 V := by
    simp only [flVerts, List.map_map]
    refine List.map_congr_left fun v hv => ?_
    obtain ⟨h1, h2⟩ := h v hv
    exact congrArg₂ Vtx.mk (asFloat_number (f := binary32) (within_32_64.number h1))
      (asFloat_number (f := binary32) (within_32_64.number h2))
  rw [normalizeOf_eq, e]
  refine C62_finite V (fun v hv => ⟨within_32_64.number (h v hv).1, within_32_64.number (h v hv).2⟩) ?_ hd
  have hb : 2 * Fl.big binary32 ≤ Fl.big binary64 := by decide +kernel
  intro v hv w hw
  have a1 := abs_le.1 (Fl.number_le (h v hv).1)
  have a2 := abs_le.1 (Fl.number_le (h v hv).2)
  have a3 := abs_le.1 (Fl.number_le (h w hw).1)
  have a4 := abs_le.1 (Fl.number_le (h w hw).2)
  constructor <;> rw [abs_le] <;> constructor <;> linarith

end nan

end CDT

namespace CDT
open FloatOps

local instance inputsCfg : IdCfg := u32Cfg

/-- **C61** refuted for a cast to a narrower format: five different `f64` vertices, of which two have the same `f32` coordinates.
The `f64` build uses all five, the `f32` build leaves one out. -/
theorem C61_narrow_refuted : ∃ V : List (Vtx ℚ), Representable binary64 V ∧ V.Nodup ∧
    okAnd (triangulation2dOf F64 100 Witness.defaultBins (flVerts binary64 V))
      (fun ts => (List.range 5).all fun i => ts.any fun t => decide (t.1 = i ∨ t.2.1 = i ∨ t.2.2 = i)) = true ∧
    okAnd (triangulation2dOf F32 100 Witness.defaultBins (flVerts binary64 V))
      (fun ts => ts.all fun t => decide (t.1 ≠ 4 ∧ t.2.1 ≠ 4 ∧ t.2.2 ≠ 4) || decide (t.1 ≠ 3 ∧ t.2.1 ≠ 3 ∧ t.2.2 ≠ 3)) = true ∧
    (∃ v ∈ V, ∃ w ∈ V, v ≠ w ∧ (readVtx F32 (⟨.fin v.x, .fin v.y⟩ : Vtx F64)) = readVtx F32 (⟨.fin w.x, .fin w.y⟩ : Vtx F64)) := by
  refine ⟨[⟨0, 0⟩, ⟨0, 33554432⟩, ⟨33554432, 33554432⟩, ⟨33554432, 0⟩, ⟨33554431, 0⟩], representable_of (by decide +kernel), by decide +kernel,
    by decide +kernel, by decide +kernel, ⟨33554432, 0⟩, by simp, ⟨33554431, 0⟩, by simp, by decide +kernel, by decide +kernel⟩

/-- The same points as `f32` vertices in an `f64` build. -/
example : triangulation2dOf F64 100 Witness.defaultBins (flVerts binary32 simSample) =
    triangulation2d 100 Witness.defaultBins (flVerts binary64 simSample) :=
  (C61_widen within_32_64 _ _ _ [] (representable_of (by decide +kernel))).1

/-- C62 applies to the extreme `f32` numbers; with `f64` numbers of this kind the result has a NaN (`Props/Ieee.lean`). -/
example : ∀ v ∈ normalizeOf F64 (flVerts binary32 [⟨Fl.big binary32, 1⟩, ⟨-Fl.big binary32, 1 / 2 ^ 149⟩, ⟨0, 0⟩]),
    ∃ x y : ℚ, v = ⟨.fin x, .fin y⟩ ∧ 0 ≤ x ∧ x ≤ 1 ∧ 0 ≤ y ∧ y ≤ 1 :=
  C62_f32 _ (representable_of (by decide +kernel)) ⟨⟨0, 0⟩, by simp, ⟨Fl.big binary32, 1⟩, by simp, .inr (by simp)⟩

/-- 3d `f32` vertices in an `f64` build: the projection is computed with 24 bits. -/
example : transformTo2dOf F64 ([⟨.fin 0, .fin 0, .fin 0⟩, ⟨.fin 3, .fin 1, .fin 0⟩, ⟨.fin 1, .fin 5, .fin 0⟩] : List (Vtx3 F32))
      ⟨.fin 0, .fin 0, .fin 1⟩ ≠
    transformTo2dOf F64 ([⟨.fin 0, .fin 0, .fin 0⟩, ⟨.fin 3, .fin 1, .fin 0⟩, ⟨.fin 1, .fin 5, .fin 0⟩] : List (Vtx3 F64))
      ⟨.fin 0, .fin 0, .fin 1⟩ := by decide +kernel

end CDT

import Verif.Props.Space
import Verif.Props.Locality
import Verif.Props.LocalityC

/-!
# C102: the result does not depend on the coordinate system

The same points, turned, scaled, moved, mirrored, or put into another plane of space, give the same triangles.
-/

set_option linter.unusedSectionVars false

namespace CDT
open Plane

variable {K : Type} [Field K] [LinearOrder K] [IsStrictOrderedRing K]

/-! ## Specification -/

namespace Spec

/-- Rotation and scaling by the complex number `c + i s`, and translation by `t`. -/
def turn (c s : K) (t p : Vtx K) : Vtx K := ⟨c * p.x - s * p.y + t.x, s * p.x + c * p.y + t.y⟩

/-- Reflection at the `x` axis. -/
def mirror (p : Vtx K) : Vtx K := ⟨p.x, -p.y⟩

/-- A triangle of a result in space, given by its positions. -/
def Occurs3 (vs : List (Vtx3 K)) (out : List (Nat × Nat × Nat)) (A B C : Vtx3 K) : Prop :=
  ∃ o ∈ out, ∃ P Q R, vs[o.1]? = some P ∧ vs[o.2.1]? = some Q ∧ vs[o.2.2]? = some R ∧
    ((P = A ∧ Q = B ∧ R = C) ∨ (P = B ∧ Q = C ∧ R = A) ∨ (P = C ∧ Q = A ∧ R = B))

/-- A result that passes the test of C101, for vertices no four of which are on a sphere around no vertex with its center in the plane. -/
structure Passes3 (n : Vtx3 K) (vs : List (Vtx3 K)) (out : List (Nat × Nat × Nat)) : Prop where
  some : out ≠ []
  sides : HullSides3 n vs out
  flat : LocallyDelaunay3 vs out
  general : ∀ A ∈ vs, ∀ B ∈ vs, ∀ C ∈ vs, ∀ D ∈ vs, area3 n A B C ≠ 0 → D ≠ A → D ≠ B → D ≠ C → ∀ M, Center3 M A B C →
    (∀ q ∈ vs, dist3 M A ≤ dist3 M q) → dist3 M D ≠ dist3 M A

end Spec

/-! ## The winding number does not depend on the coordinate system -/

/-- The winding number of a triangle, from the signs of the areas. -/
def triSign (x y z : K) : ℤ := if x < 0 ∧ y < 0 ∧ z < 0 then 1 else if 0 < x ∧ 0 < y ∧ 0 < z then -1 else 0

theorem triSign_neg {x y z : K} (h1 : x < 0) (h2 : y < 0) (h3 : z < 0) : triSign x y z = 1 := if_pos ⟨h1, h2, h3⟩

theorem triSign_pos {x y z : K} (h1 : 0 < x) (h2 : 0 < y) (h3 : 0 < z) : triSign x y z = -1 := by
  rw [triSign, if_neg fun h => h.1.not_gt h1, if_pos ⟨h1, h2, h3⟩]

theorem triSign_mixed {x y z : K} (h1 : ¬ (x < 0 ∧ y < 0 ∧ z < 0)) (h2 : ¬ (0 < x ∧ 0 < y ∧ 0 < z)) : triSign x y z = 0 := by
  rw [triSign, if_neg h1, if_neg h2]

theorem crossing_neg {a b q : Vtx K} (h : area2 a b q < 0) : crossing a b q = if b.y ≤ q.y ∧ ¬ a.y ≤ q.y then 1 else 0 := by
  unfold crossing
  simp only [h, h.not_gt, and_true, and_false, if_false, not_le]

theorem crossing_pos {a b q : Vtx K} (h : 0 < area2 a b q) : crossing a b q = if a.y ≤ q.y ∧ ¬ b.y ≤ q.y then -1 else 0 := by
  unfold crossing
  simp only [h, h.not_gt, and_true, and_false, if_false, not_le]

theorem crossing_zero {a b q : Vtx K} (h : area2 a b q = 0) : crossing a b q = 0 := by
  unfold crossing
  simp [h]

theorem tri_winding {O A B q : Vtx K} (h1 : area2 O A q ≠ 0) (h2 : area2 B O q ≠ 0) (hoff : ¬ OnSegment A B q) :
    crossing O A q + crossing A B q + crossing B O q = triSign (area2 O A q) (area2 A B q) (area2 B O q) := by
  have ey : area2 A B q * (O.y - q.y) + area2 B O q * (A.y - q.y) + area2 O A q * (B.y - q.y) = 0 := by unfold area2; ring
  have hz : area2 A B q = 0 → ¬ (area2 O A q < 0 ∧ area2 B O q < 0) ∧ ¬ (0 < area2 O A q ∧ 0 < area2 B O q) := by
    intro h0
    have ex : area2 A B q * (O.x - q.x) + area2 B O q * (A.x - q.x) + area2 O A q * (B.x - q.x) = 0 := by unfold area2; ring
    have on : ∀ u : K, area2 B O q + area2 O A q ≠ 0 → u = area2 O A q / (area2 B O q + area2 O A q) → 0 ≤ u → u ≤ 1 → False := by
      intro u hne hu u0 u1
      refine hoff ⟨u, u0, u1, ?_, ?_⟩
      · rw [hu]; field_simp; rw [h0] at ex; linear_combination -ex
      · rw [hu]; field_simp; rw [h0] at ey; linear_combination -ey
    constructor
    · rintro ⟨g1, g2⟩
      refine on _ (by linarith) rfl (div_nonneg_of_nonpos g1.le (by linarith)) ?_
      rw [div_le_one_of_neg (by linarith)]; linarith
    · rintro ⟨g1, g2⟩
      refine on _ (by linarith) rfl (div_nonneg g1.le (by linarith)) ?_
      rw [div_le_one (by linarith)]; linarith
  have flat : O.y ≤ q.y → A.y ≤ q.y → B.y ≤ q.y → ¬ (area2 O A q < 0 ∧ area2 A B q < 0 ∧ area2 B O q < 0) ∧
      ¬ (0 < area2 O A q ∧ 0 < area2 A B q ∧ 0 < area2 B O q) := by
    intro o a b
    have zero : O.y = q.y → A.y = q.y → area2 O A q = 0 := by intro e1 e2; unfold area2; rw [e1, e2]; ring
    constructor
    · rintro ⟨g1, g2, g3⟩
      have m1 := mul_nonneg_of_nonpos_of_nonpos g2.le (sub_nonpos.2 o)
      have m2 := mul_nonneg_of_nonpos_of_nonpos g3.le (sub_nonpos.2 a)
      have m3 := mul_nonneg_of_nonpos_of_nonpos g1.le (sub_nonpos.2 b)
      have e1 := (mul_eq_zero.1 (show area2 A B q * (O.y - q.y) = 0 by linarith)).resolve_left g2.ne
      have e2 := (mul_eq_zero.1 (show area2 B O q * (A.y - q.y) = 0 by linarith)).resolve_left g3.ne
      exact h1 (zero (by linarith) (by linarith))
    · rintro ⟨g1, g2, g3⟩
      have m1 := mul_nonpos_of_nonneg_of_nonpos g2.le (sub_nonpos.2 o)
      have m2 := mul_nonpos_of_nonneg_of_nonpos g3.le (sub_nonpos.2 a)
      have m3 := mul_nonpos_of_nonneg_of_nonpos g1.le (sub_nonpos.2 b)
      have e1 := (mul_eq_zero.1 (show area2 A B q * (O.y - q.y) = 0 by linarith)).resolve_left g2.ne'
      have e2 := (mul_eq_zero.1 (show area2 B O q * (A.y - q.y) = 0 by linarith)).resolve_left g3.ne'
      exact h1 (zero (by linarith) (by linarith))
  have pp : ∀ {w h : K}, 0 < w → 0 < h → 0 < w * h := fun a b => mul_pos a b
  have pn : ∀ {w h : K}, 0 < w → h ≤ 0 → w * h ≤ 0 := fun a b => mul_nonpos_of_nonneg_of_nonpos a.le b
  have np : ∀ {w h : K}, w < 0 → 0 < h → w * h < 0 := fun a b => mul_neg_of_neg_of_pos a b
  have nn : ∀ {w h : K}, w < 0 → h ≤ 0 → 0 ≤ w * h := fun a b => mul_nonneg_of_nonpos_of_nonpos a.le b
  have lo : ∀ {y : K}, y ≤ q.y → y - q.y ≤ 0 := fun h => sub_nonpos.2 h
  have hi : ∀ {y : K}, ¬ y ≤ q.y → 0 < y - q.y := fun h => sub_pos.2 (not_le.1 h)
  rcases lt_or_gt_of_ne h1 with g1 | g1 <;> rcases lt_or_gt_of_ne h2 with g2 | g2 <;>
    rcases lt_trichotomy (area2 A B q) 0 with g3 | g3 | g3
  · rw [crossing_neg g1, crossing_neg g2, crossing_neg g3, triSign_neg g1 g3 g2]
    by_cases o : O.y ≤ q.y <;> by_cases a : A.y ≤ q.y <;> by_cases b : B.y ≤ q.y <;> simp [o, a, b]
    · exact absurd ⟨g1, g3, g2⟩ (flat o a b).1
    · exfalso; linarith [np g1 (hi b), np g2 (hi a), np g3 (hi o)]
  · exact absurd ⟨g1, g2⟩ (hz g3).1
  · rw [crossing_neg g1, crossing_neg g2, crossing_pos g3, triSign_mixed (fun h => h.2.1.not_gt g3) (fun h => h.1.not_gt g1)]
    by_cases o : O.y ≤ q.y <;> by_cases a : A.y ≤ q.y <;> by_cases b : B.y ≤ q.y <;> simp [o, a, b]
    · exfalso; linarith [np g1 (hi b), np g2 (hi a), pn g3 (lo o)]
    · exfalso; linarith [nn g1 (lo b), nn g2 (lo a), pp g3 (hi o)]
  · rw [crossing_neg g1, crossing_pos g2, crossing_neg g3, triSign_mixed (fun h => h.2.2.not_gt g2) (fun h => h.1.not_gt g1)]
    by_cases o : O.y ≤ q.y <;> by_cases a : A.y ≤ q.y <;> by_cases b : B.y ≤ q.y <;> simp [o, a, b]
    all_goals exfalso
    · linarith [nn g1 (lo b), pp g2 (hi a), nn g3 (lo o)]
    · linarith [np g1 (hi b), pn g2 (lo a), np g3 (hi o)]
  · rw [crossing_neg g1, crossing_pos g2, crossing_zero g3, triSign_mixed (fun h => h.2.2.not_gt g2) (fun h => h.1.not_gt g1)]
    rw [g3, zero_mul, zero_add] at ey
    by_cases o : O.y ≤ q.y <;> by_cases a : A.y ≤ q.y <;> by_cases b : B.y ≤ q.y <;> simp [o, a, b]
    all_goals exfalso
    all_goals first
      | linarith [nn g1 (lo b), pp g2 (hi a)]
      | linarith [np g1 (hi b), pn g2 (lo a)]
  · rw [crossing_neg g1, crossing_pos g2, crossing_pos g3, triSign_mixed (fun h => h.2.2.not_gt g2) (fun h => h.1.not_gt g1)]
    by_cases o : O.y ≤ q.y <;> by_cases a : A.y ≤ q.y <;> by_cases b : B.y ≤ q.y <;> simp [o, a, b]
    all_goals exfalso
    all_goals first
      | linarith [nn g1 (lo b), pp g2 (hi a), pp g3 (hi o)]
      | linarith [np g1 (hi b), pn g2 (lo a), pn g3 (lo o)]
  · rw [crossing_pos g1, crossing_neg g2, crossing_neg g3, triSign_mixed (fun h => h.1.not_gt g1) (fun h => h.2.2.not_gt g2)]
    by_cases o : O.y ≤ q.y <;> by_cases a : A.y ≤ q.y <;> by_cases b : B.y ≤ q.y <;> simp [o, a, b]
    all_goals exfalso
    all_goals first
      | linarith [pp g1 (hi b), nn g2 (lo a), nn g3 (lo o)]
      | linarith [pn g1 (lo b), np g2 (hi a), np g3 (hi o)]
  · rw [crossing_pos g1, crossing_neg g2, crossing_zero g3, triSign_mixed (fun h => h.1.not_gt g1) (fun h => h.2.2.not_gt g2)]
    rw [g3, zero_mul, zero_add] at ey
    by_cases o : O.y ≤ q.y <;> by_cases a : A.y ≤ q.y <;> by_cases b : B.y ≤ q.y <;> simp [o, a, b]
    all_goals exfalso
    all_goals first
      | linarith [pp g1 (hi b), nn g2 (lo a)]
      | linarith [pn g1 (lo b), np g2 (hi a)]
  · rw [crossing_pos g1, crossing_neg g2, crossing_pos g3, triSign_mixed (fun h => h.1.not_gt g1) (fun h => h.2.2.not_gt g2)]
    by_cases o : O.y ≤ q.y <;> by_cases a : A.y ≤ q.y <;> by_cases b : B.y ≤ q.y <;> simp [o, a, b]
    all_goals exfalso
    all_goals first
      | linarith [pp g1 (hi b), nn g2 (lo a), pp g3 (hi o)]
      | linarith [pn g1 (lo b), np g2 (hi a), pn g3 (lo o)]
  · rw [crossing_pos g1, crossing_pos g2, crossing_neg g3, triSign_mixed (fun h => h.1.not_gt g1) (fun h => h.2.1.not_gt g3)]
    by_cases o : O.y ≤ q.y <;> by_cases a : A.y ≤ q.y <;> by_cases b : B.y ≤ q.y <;> simp [o, a, b]
    all_goals exfalso
    all_goals first
      | linarith [pp g1 (hi b), pp g2 (hi a), nn g3 (lo o)]
      | linarith [pn g1 (lo b), pn g2 (lo a), np g3 (hi o)]
  · exact absurd ⟨g1, g2⟩ (hz g3).2
  · rw [crossing_pos g1, crossing_pos g2, crossing_pos g3, triSign_pos g1 g3 g2]
    by_cases o : O.y ≤ q.y <;> by_cases a : A.y ≤ q.y <;> by_cases b : B.y ≤ q.y <;> simp [o, a, b]
    · exact absurd ⟨g1, g3, g2⟩ (flat o a b).2
    · exfalso; linarith [pp g1 (hi b), pp g2 (hi a), pp g3 (hi o)]

theorem winding_fan {es : List (Vtx K × Vtx K)} (hb : Balanced es) (O q : Vtx K) :
    winding es q = (es.map fun e => crossing O e.1 q + crossing e.1 e.2 q + crossing e.2 O q).sum := by
  have h := hb.sum fun A => crossing O A q
  have e : (es.map fun e => crossing O e.1 q + crossing e.1 e.2 q + crossing e.2 O q).sum =
      winding es q + (es.map fun e => crossing O e.1 q - crossing O e.2 q).sum := by
    clear h hb
    unfold winding
    induction es with
    | nil => simp
    | cons a l ih => simp only [List.map_cons, List.sum_cons, ih, crossing_rev O a.2 q]; ring
  rw [e, h, add_zero]

/-- A point on no line through `q` and a given point. -/
theorem exists_hub (l : List (Vtx K)) (q : Vtx K) (hq : q ∉ l) : ∃ O : Vtx K, ∀ A ∈ l, area2 O A q ≠ 0 := by
  classical
  obtain ⟨t, ht⟩ := Infinite.exists_notMem_finset (l.map fun A => (A.y - q.y) / (A.x - q.x)).toFinset
  refine ⟨⟨q.x + 1, q.y + t⟩, fun A hA h0 => ?_⟩
  have e : t * (A.x - q.x) = A.y - q.y := by unfold area2 at h0; linear_combination -h0
  by_cases hx : A.x - q.x = 0
  · rw [hx, mul_zero] at e
    refine hq ?_
    have : q = A := by
      cases q; cases A
      simp only [Vtx.mk.injEq] at *
      exact ⟨by linarith, by linarith⟩
    rwa [this]
  · refine ht ?_
    simp only [List.mem_toFinset, List.mem_map]
    exact ⟨A, hA, by rw [← e]; field_simp⟩

theorem triSign_smul {k : K} (hk : 0 < k) (x y z : K) : triSign (k * x) (k * y) (k * z) = triSign x y z := by
  unfold triSign
  simp only [mul_neg_iff, mul_pos_iff, hk, hk.not_gt, true_and, false_and, or_false]

/-- A map of the plane that keeps lines, orientations and circles. -/
structure Sim (T : Vtx K → Vtx K) (k : K) : Prop where
  pos : 0 < k
  area : ∀ a b c, area2 (T a) (T b) (T c) = k * area2 a b c
  dist : ∀ a b, dist2 (T a) (T b) = k * dist2 a b
  seg : ∀ a b p, OnSegment (T a) (T b) (T p) ↔ OnSegment a b p
  inside : ∀ a b p, InsideSegment (T a) (T b) (T p) ↔ InsideSegment a b p
  inj : ∀ {a b}, T a = T b → a = b
  surj : ∀ p, ∃ q, T q = p

theorem sim_turn {c s : K} (h : c ≠ 0 ∨ s ≠ 0) (t : Vtx K) : Sim (Spec.turn c s t) (c ^ 2 + s ^ 2) := by
  have hk : 0 < c ^ 2 + s ^ 2 := by
    rcases h with h | h
    · have := sq_nonneg s; positivity
    · have := sq_nonneg c; positivity
  have key : ∀ u v : K, c * u - s * v = 0 → s * u + c * v = 0 → u = 0 ∧ v = 0 := by
    intro u v h1 h2
    have e1 : (c ^ 2 + s ^ 2) * u = 0 := by linear_combination c * h1 + s * h2
    have e2 : (c ^ 2 + s ^ 2) * v = 0 := by linear_combination c * h2 - s * h1
    exact ⟨(mul_eq_zero.1 e1).resolve_left hk.ne', (mul_eq_zero.1 e2).resolve_left hk.ne'⟩
  have lin : ∀ (a b p : Vtx K) (r : K), ((Spec.turn c s t p).x = (Spec.turn c s t a).x + r * ((Spec.turn c s t b).x - (Spec.turn c s t a).x) ∧
      (Spec.turn c s t p).y = (Spec.turn c s t a).y + r * ((Spec.turn c s t b).y - (Spec.turn c s t a).y)) ↔
      (p.x = a.x + r * (b.x - a.x) ∧ p.y = a.y + r * (b.y - a.y)) := by
    intro a b p r
    simp only [Spec.turn]
    constructor
    · rintro ⟨h1, h2⟩
      obtain ⟨e1, e2⟩ := key (p.x - a.x - r * (b.x - a.x)) (p.y - a.y - r * (b.y - a.y)) (by linear_combination h1) (by linear_combination h2)
      exact ⟨by linear_combination e1, by linear_combination e2⟩
    · rintro ⟨h1, h2⟩
      rw [h1, h2]
      constructor <;> ring
  refine ⟨hk, ?_, ?_, ?_, ?_, ?_, ?_⟩
  · intro a b d; unfold area2 Spec.turn; ring
  · intro a b; unfold dist2 Spec.turn; ring
  · intro a b p
    exact exists_congr fun r => and_congr_right fun _ => and_congr_right fun _ => lin a b p r
  · intro a b p
    exact exists_congr fun r => and_congr_right fun _ => and_congr_right fun _ => lin a b p r
  · intro a b h
    simp only [Spec.turn, Vtx.mk.injEq] at h
    obtain ⟨e1, e2⟩ := key (a.x - b.x) (a.y - b.y) (by linear_combination h.1) (by linear_combination h.2)
    cases a; cases b
    simp only [Vtx.mk.injEq] at *
    exact ⟨by linarith, by linarith⟩
  · intro p
    refine ⟨⟨(c * (p.x - t.x) + s * (p.y - t.y)) / (c ^ 2 + s ^ 2), (c * (p.y - t.y) - s * (p.x - t.x)) / (c ^ 2 + s ^ 2)⟩, ?_⟩
    have := hk.ne'
    cases p
    simp only [Spec.turn, Vtx.mk.injEq]
    constructor <;> field_simp <;> ring

theorem balanced_image {l : List (Vtx K × Vtx K)} (f : Vtx K → Vtx K) (hb : Balanced l) : Balanced (l.map fun e => (f e.1, f e.2)) := by
  unfold Balanced at *
  rw [List.map_map, List.map_map]
  have e1 : l.map ((fun e : Vtx K × Vtx K => e.1) ∘ fun e => (f e.1, f e.2)) = (l.map (·.1)).map f := by rw [List.map_map]; rfl
  have e2 : l.map ((fun e : Vtx K × Vtx K => e.2) ∘ fun e => (f e.1, f e.2)) = (l.map (·.2)).map f := by rw [List.map_map]; rfl
  rw [e1, e2]
  exact hb.map f

/-- The winding number of closed curves does not depend on the coordinate system. -/
theorem winding_turn {T : Vtx K → Vtx K} {k : K} (h : Sim T k) {es : List (Vtx K × Vtx K)} (hb : Balanced es) {q : Vtx K}
    (hq : OffEdges es q) : winding (es.map fun e => (T e.1, T e.2)) (T q) = winding es q := by
  have nq : q ∉ es.map (·.1) ++ es.map (·.2) := by
    intro hm
    rcases List.mem_append.1 hm with hm | hm <;> obtain ⟨e, he, rfl⟩ := List.mem_map.1 hm
    · exact hq e he ⟨0, le_rfl, zero_le_one, by ring, by ring⟩
    · exact hq e he ⟨1, zero_le_one, le_rfl, by ring, by ring⟩
  obtain ⟨O, hO⟩ := exists_hub _ q nq
  rw [winding_fan (balanced_image T hb) (T O), winding_fan hb O, List.map_map]
  congr 1
  refine List.map_congr_left fun e he => ?_
  have a1 := hO e.1 (List.mem_append_left _ (List.mem_map_of_mem he))
  have a2 := hO e.2 (List.mem_append_right _ (List.mem_map_of_mem he))
  have a2' : area2 e.2 O q ≠ 0 := by
    have : area2 e.2 O q = - area2 O e.2 q := by unfold area2; ring
    rw [this]; exact neg_ne_zero.2 a2
  simp only [Function.comp_apply]
  rw [tri_winding a1 a2' (hq e he), tri_winding, h.area, h.area, h.area, triSign_smul h.pos]
  · rw [h.area]; exact mul_ne_zero h.pos.ne' a1
  · rw [h.area]; exact mul_ne_zero h.pos.ne' a2'
  · rw [h.seg]; exact hq e he

/-! ## Results -/

namespace Sim
variable {T : Vtx K → Vtx K} {k : K} (h : Sim T k)
include h

theorem clockwise (a b c : Vtx K) : Clockwise (T a) (T b) (T c) ↔ Clockwise a b c := by
  unfold Clockwise
  rw [h.area, mul_neg_iff]
  simp [h.pos, h.pos.not_gt]

theorem le (a b c : Vtx K) : area2 (T a) (T b) (T c) ≤ 0 ↔ area2 a b c ≤ 0 := by
  rw [h.area, mul_nonpos_iff]
  simp [h.pos.not_ge, h.pos.le]

theorem inTriangle (a b c p : Vtx K) : InTriangle (T a) (T b) (T c) (T p) ↔ InTriangle a b c p := by
  unfold InTriangle; rw [h.clockwise, h.clockwise, h.clockwise]

theorem inClosed (a b c p : Vtx K) : InClosedTriangle (T a) (T b) (T c) (T p) ↔ InClosedTriangle a b c p := by
  unfold InClosedTriangle; rw [h.le, h.le, h.le]

theorem center (m a b c : Vtx K) : Circumcenter (T m) (T a) (T b) (T c) ↔ Circumcenter m a b c := by
  unfold Circumcenter
  rw [h.dist, h.dist, h.dist, mul_right_inj' h.pos.ne', mul_right_inj' h.pos.ne']

theorem inCircle (a b c p : Vtx K) : InCircle (T a) (T b) (T c) (T p) ↔ InCircle a b c p := by
  constructor
  · rintro ⟨m, hm, hd⟩
    obtain ⟨m, rfl⟩ := h.surj m
    rw [h.dist, h.dist] at hd
    exact ⟨m, (h.center ..).1 hm, (mul_lt_mul_iff_right₀ h.pos).1 hd⟩
  · rintro ⟨m, hm, hd⟩
    refine ⟨T m, (h.center ..).2 hm, ?_⟩
    rw [h.dist, h.dist]
    exact (mul_lt_mul_iff_right₀ h.pos).2 hd

theorem get {vs : List (Vtx K)} {i : Nat} {A : Vtx K} : (vs.map T)[i]? = some (T A) ↔ vs[i]? = some A := by
  rw [List.getElem?_map]
  cases vs[i]? with
  | none => simp
  | some B => simp only [Option.map_some, Option.some.injEq]; exact ⟨fun e => h.inj e, fun e => by rw [e]⟩

theorem mem {vs : List (Vtx K)} {A : Vtx K} : T A ∈ vs.map T ↔ A ∈ vs := by
  rw [List.mem_map]
  exact ⟨fun ⟨B, hB, e⟩ => h.inj e ▸ hB, fun hA => ⟨A, hA, rfl⟩⟩

theorem segments (vs : List (Vtx K)) (es : List Edge) :
    Spec.segments (vs.map T) es = (Spec.segments vs es).map fun e => (T e.1, T e.2) := by
  unfold Spec.segments
  rw [List.map_filterMap]
  congr 1
  funext e
  simp only [List.getElem?_map]
  cases vs[e.src]? <;> cases vs[e.dst]? <;> rfl

theorem occurs {vs : List (Vtx K)} {out : List Out} (A B C : Vtx K) :
    Spec.Occurs (vs.map T) out (T A) (T B) (T C) ↔ Spec.Occurs vs out A B C := by
  constructor
  · rintro ⟨o, ho, P, Q, R, g1, g2, g3, hr⟩
    obtain ⟨P, rfl⟩ := h.surj P
    obtain ⟨Q, rfl⟩ := h.surj Q
    obtain ⟨R, rfl⟩ := h.surj R
    refine ⟨o, ho, P, Q, R, h.get.1 g1, h.get.1 g2, h.get.1 g3, ?_⟩
    rcases hr with ⟨e1, e2, e3⟩ | ⟨e1, e2, e3⟩ | ⟨e1, e2, e3⟩
    · exact .inl ⟨h.inj e1, h.inj e2, h.inj e3⟩
    · exact .inr (.inl ⟨h.inj e1, h.inj e2, h.inj e3⟩)
    · exact .inr (.inr ⟨h.inj e1, h.inj e2, h.inj e3⟩)
  · rintro ⟨o, ho, P, Q, R, g1, g2, g3, hr⟩
    refine ⟨o, ho, T P, T Q, T R, h.get.2 g1, h.get.2 g2, h.get.2 g3, ?_⟩
    rcases hr with ⟨rfl, rfl, rfl⟩ | ⟨rfl, rfl, rfl⟩ | ⟨rfl, rfl, rfl⟩
    · exact .inl ⟨rfl, rfl, rfl⟩
    · exact .inr (.inl ⟨rfl, rfl, rfl⟩)
    · exact .inr (.inr ⟨rfl, rfl, rfl⟩)

theorem covered {vs : List (Vtx K)} {out : List Out} (q : Vtx K) : Spec.Covered (vs.map T) out (T q) ↔ Spec.Covered vs out q := by
  constructor
  · rintro ⟨t, ht, A, B, C, g1, g2, g3, hc⟩
    obtain ⟨A, rfl⟩ := h.surj A
    obtain ⟨B, rfl⟩ := h.surj B
    obtain ⟨C, rfl⟩ := h.surj C
    exact ⟨t, ht, A, B, C, h.get.1 g1, h.get.1 g2, h.get.1 g3, (h.inClosed ..).1 hc⟩
  · rintro ⟨t, ht, A, B, C, g1, g2, g3, hc⟩
    exact ⟨t, ht, T A, T B, T C, h.get.2 g1, h.get.2 g2, h.get.2 g3, (h.inClosed ..).2 hc⟩

theorem offEdges {l : List (Vtx K × Vtx K)} (q : Vtx K) : OffEdges (l.map fun e => (T e.1, T e.2)) (T q) ↔ OffEdges l q := by
  constructor
  · intro ho e he hon
    exact ho (T e.1, T e.2) (List.mem_map_of_mem he) ((h.seg ..).2 hon)
  · intro ho e he hon
    obtain ⟨e, he', rfl⟩ := List.mem_map.1 he
    exact ho e he'  ((h.seg ..).1 hon)

theorem visible {vs : List (Vtx K)} {es : List Edge} {out : List Out} {q p : Vtx K} (hv : Spec.Visible (vs.map T) es out (T q) (T p)) :
    Spec.Visible vs es out q p := by
  intro x hx
  obtain ⟨h1, h2, h3⟩ := hv (T x) ((h.inside ..).2 hx)
  exact ⟨fun hm => h1 (h.mem.2 hm), (h.covered x).1 h2, fun e he A B gA gB hon => h3 e he (T A) (T B) (h.get.2 gA) (h.get.2 gB) ((h.seg ..).2 hon)⟩

/-- The image of a constrained Delaunay result. -/
theorem cdtOf {vs : List (Vtx K)} {es : List Edge} {out : List Out} (hc : CdtOf vs es out) : CdtOf (vs.map T) es out where
  border := by
    have hinj : Function.Injective fun e : Vtx K × Vtx K => (T e.1, T e.2) := by
      rintro ⟨a, b⟩ ⟨c, d⟩ e
      simp only [Prod.mk.injEq] at e ⊢
      exact ⟨h.inj e.1, h.inj e.2⟩
    constructor
    · rw [h.segments]
      intro s hs e
      obtain ⟨s, hm, rfl⟩ := List.mem_map.1 hs
      exact hc.border.ne s hm (h.inj e)
    · rw [h.segments]
      exact hc.border.nodup.map hinj
    · rw [h.segments]
      intro s hs hs'
      obtain ⟨s, hm, rfl⟩ := List.mem_map.1 hs
      obtain ⟨r, hr, e⟩ := List.mem_map.1 hs'
      simp only [Prod.swap_prod_mk, Prod.mk.injEq] at e
      refine hc.border.norev s hm ?_
      have : r = s.swap := Prod.ext (h.inj e.1) (h.inj e.2)
      rwa [← this]
    · rw [h.segments]
      exact balanced_image T hc.border.bal
    · rw [h.segments]
      intro q hq
      obtain ⟨q, rfl⟩ := h.surj q
      rw [h.offEdges] at hq
      rw [winding_turn h hc.border.bal hq]
      exact hc.border.win q hq
  cw := by
    intro t ht
    obtain ⟨A, B, C, gA, gB, gC, hcw⟩ := hc.cw t ht
    exact ⟨T A, T B, T C, h.get.2 gA, h.get.2 gB, h.get.2 gC, (h.clockwise ..).2 hcw⟩
  free := by
    intro t ht A B C gA gB gC x hx
    obtain ⟨A, rfl⟩ := h.surj A
    obtain ⟨B, rfl⟩ := h.surj B
    obtain ⟨C, rfl⟩ := h.surj C
    obtain ⟨x, rfl⟩ := h.surj x
    obtain ⟨h1, h2⟩ := hc.free t ht A B C (h.get.1 gA) (h.get.1 gB) (h.get.1 gC) x ((h.inTriangle ..).1 hx)
    rw [h.segments]
    exact ⟨fun hm => h1 (h.mem.1 hm), (h.offEdges x).2 h2⟩
  cover := by
    rw [h.segments]
    intro q hq
    obtain ⟨q, rfl⟩ := h.surj q
    rw [h.offEdges] at hq
    rw [h.covered, winding_turn h hc.border.bal hq]
    exact hc.cover q hq
  cdt := by
    intro t ht A B C gA gB gC q hq p hp hv hin
    obtain ⟨A, rfl⟩ := h.surj A
    obtain ⟨B, rfl⟩ := h.surj B
    obtain ⟨C, rfl⟩ := h.surj C
    obtain ⟨q, rfl⟩ := h.surj q
    obtain ⟨p, rfl⟩ := h.surj p
    exact hc.cdt t ht A B C (h.get.1 gA) (h.get.1 gB) (h.get.1 gC) q ((h.inTriangle ..).1 hq) p (h.mem.1 hp) (h.visible hv) ((h.inCircle ..).1 hin)

theorem noneOnCircle {vs : List (Vtx K)} {es : List Edge} {out : List Out} (hc : Spec.NoneOnCircle vs es out) :
    Spec.NoneOnCircle (vs.map T) es out := by
  intro t ht A B C gA gB gC q hq p hp hv m hm hd
  obtain ⟨A, rfl⟩ := h.surj A
  obtain ⟨B, rfl⟩ := h.surj B
  obtain ⟨C, rfl⟩ := h.surj C
  obtain ⟨q, rfl⟩ := h.surj q
  obtain ⟨p, rfl⟩ := h.surj p
  obtain ⟨m, rfl⟩ := h.surj m
  rw [h.dist, h.dist, mul_right_inj' h.pos.ne'] at hd
  have := hc t ht A B C (h.get.1 gA) (h.get.1 gB) (h.get.1 gC) q ((h.inTriangle ..).1 hq) p (h.mem.1 hp) (h.visible hv) m ((h.center ..).1 hm) hd
  rcases this with rfl | rfl | rfl
  · exact .inl rfl
  · exact .inr (.inl rfl)
  · exact .inr (.inr rfl)

end Sim

/-! ## Runs -/

section Plain
variable {vs vs' : List (Vtx K)} {out out' : List Out}

theorem Exactly.turn (h : Exactly vs out) (h' : Exactly vs' out') {T : Vtx K → Vtx K} {k : K} (hT : Sim T k)
    (hm : ∀ q, q ∈ vs' ↔ ∃ p ∈ vs, q = T p) (A B C : Vtx K) : Spec.Occurs vs out A B C ↔ Spec.Occurs vs' out' (T A) (T B) (T C) := by
  have mem : ∀ X, T X ∈ vs' ↔ X ∈ vs := fun X => by
    rw [hm]
    exact ⟨fun ⟨p, hp, e⟩ => hT.inj e ▸ hp, fun hX => ⟨X, hX, rfl⟩⟩
  rw [h.iff, h'.iff, mem, mem, mem, hT.clockwise]
  refine and_congr_right fun _ => and_congr_right fun _ => and_congr_right fun _ => and_congr_right fun _ => ?_
  constructor
  · intro g q hq
    obtain ⟨p, hp, rfl⟩ := (hm q).1 hq
    rw [hT.inCircle]
    exact g p hp
  · intro g q hq
    rw [← hT.inCircle]
    exact g _ ((mem q).2 hq)

theorem mirror_area (a b c : Vtx K) : area2 (Spec.mirror a) (Spec.mirror b) (Spec.mirror c) = area2 c b a := by
  unfold area2 Spec.mirror; ring

theorem mirror_dist (a b : Vtx K) : dist2 (Spec.mirror a) (Spec.mirror b) = dist2 a b := by
  unfold dist2 Spec.mirror; ring

theorem mirror_mirror (a : Vtx K) : Spec.mirror (Spec.mirror a) = a := by simp [Spec.mirror]

theorem mirror_inCircle (a b c p : Vtx K) :
    InCircle (Spec.mirror c) (Spec.mirror b) (Spec.mirror a) (Spec.mirror p) ↔ InCircle a b c p := by
  have one : ∀ {a b c p : Vtx K}, InCircle a b c p → InCircle (Spec.mirror c) (Spec.mirror b) (Spec.mirror a) (Spec.mirror p) := by
    rintro a b c p ⟨m, ⟨h1, h2⟩, h3⟩
    refine ⟨Spec.mirror m, ⟨?_, ?_⟩, ?_⟩
    · rw [mirror_dist, mirror_dist, ← h1, ← h2]
    · rw [mirror_dist, mirror_dist, ← h2]
    · rw [mirror_dist, mirror_dist, ← h2]; exact h3
  refine ⟨fun h => ?_, one⟩
  have := one h
  simpa only [mirror_mirror] using this

theorem Exactly.mirror (h : Exactly vs out) (h' : Exactly vs' out') {T : Vtx K → Vtx K} {k : K} (hT : Sim T k)
    (hm : ∀ q, q ∈ vs' ↔ ∃ p ∈ vs, q = T (Spec.mirror p)) (A B C : Vtx K) :
    Spec.Occurs vs out A B C ↔ Spec.Occurs vs' out' (T (Spec.mirror C)) (T (Spec.mirror B)) (T (Spec.mirror A)) := by
  have mem : ∀ X, T (Spec.mirror X) ∈ vs' ↔ X ∈ vs := fun X => by
    rw [hm]
    constructor
    · rintro ⟨p, hp, e⟩
      have e' := congrArg Spec.mirror (hT.inj e)
      rw [mirror_mirror, mirror_mirror] at e'
      exact e' ▸ hp
    · exact fun hX => ⟨X, hX, rfl⟩
  have hcw : Clockwise (T (Spec.mirror C)) (T (Spec.mirror B)) (T (Spec.mirror A)) ↔ Clockwise A B C := by
    rw [hT.clockwise]
    unfold Clockwise
    rw [mirror_area]
  rw [h.iff, h'.iff, mem, mem, mem, hcw]
  have circ : (∀ q ∈ vs, ¬ InCircle A B C q) ↔
      ∀ q ∈ vs', ¬ InCircle (T (Spec.mirror C)) (T (Spec.mirror B)) (T (Spec.mirror A)) q := by
    constructor
    · intro g q hq
      obtain ⟨p, hp, rfl⟩ := (hm q).1 hq
      rw [hT.inCircle, mirror_inCircle]
      exact g p hp
    · intro g q hq
      rw [← mirror_inCircle, ← hT.inCircle]
      exact g _ ((mem q).2 hq)
  rw [circ]
  tauto

theorem CdtOf.turn {es es' : List Edge} (h : CdtOf vs es out) (h' : CdtOf vs' es' out') {T : Vtx K → Vtx K} {k : K} (hT : Sim T k)
    (hm : ∀ q, q ∈ vs' ↔ ∃ p ∈ vs, q = T p)
    (he : ∀ r, r ∈ Spec.segments vs' es' ↔ ∃ s ∈ Spec.segments vs es, r = (T s.1, T s.2)) (hg : Spec.NoneOnCircle vs es out)
    (A B C : Vtx K) : Spec.Occurs vs out A B C ↔ Spec.Occurs vs' out' (T A) (T B) (T C) := by
  rw [← hT.occurs]
  refine (hT.cdtOf h).unique h' (fun q => ?_) (fun r => ?_) (hT.noneOnCircle hg) _ _ _
  · rw [hm, List.mem_map]
    exact exists_congr fun p => and_congr_right fun _ => eq_comm
  · rw [he, hT.segments, List.mem_map]
    exact exists_congr fun p => and_congr_right fun _ => eq_comm

end Plain

section Run
variable [ExactParams K] [IdCfg] (fuel fuel' : Nat) (bins bins' : Nat → Nat) (vs vs' : List (Vtx K)) (out out' : List Out)

/-- **C102** (exact arithmetic): two results that pass the test of C74, for vertices in general position and for the same vertices
turned, scaled and moved, in any order and with any bin counts, are the same triangles. -/
theorem C102_turn (h : Good fuel bins vs) (h' : Good fuel' bins' vs') (ho : triangulation2d fuel bins vs = .ok out)
    (ho' : triangulation2d fuel' bins' vs' = .ok out') (ht : Spec.Passes vs out) (ht' : Spec.Passes vs' out') (c s : K)
    (hcs : c ≠ 0 ∨ s ≠ 0) (t : Vtx K) (hm : ∀ q, q ∈ vs' ↔ ∃ p ∈ vs, q = Spec.turn c s t p) (A B C : Vtx K) :
    Spec.Occurs vs out A B C ↔ Spec.Occurs vs' out' (Spec.turn c s t A) (Spec.turn c s t B) (Spec.turn c s t C) :=
  (h.exactly ho ht).turn (h'.exactly ho' ht') (sim_turn hcs t) hm A B C

/-- **C102**: reflection reverses the triangles. -/
theorem C102_mirror (h : Good fuel bins vs) (h' : Good fuel' bins' vs') (ho : triangulation2d fuel bins vs = .ok out)
    (ho' : triangulation2d fuel' bins' vs' = .ok out') (ht : Spec.Passes vs out) (ht' : Spec.Passes vs' out') (c s : K)
    (hcs : c ≠ 0 ∨ s ≠ 0) (t : Vtx K) (hm : ∀ q, q ∈ vs' ↔ ∃ p ∈ vs, q = Spec.turn c s t (Spec.mirror p)) (A B C : Vtx K) :
    Spec.Occurs vs out A B C ↔
      Spec.Occurs vs' out' (Spec.turn c s t (Spec.mirror C)) (Spec.turn c s t (Spec.mirror B)) (Spec.turn c s t (Spec.mirror A)) :=
  (h.exactly ho ht).mirror (h'.exactly ho' ht') (sim_turn hcs t) hm A B C

/-- **C102** with constraints that enclose a region: turned, scaled and moved constraints give the turned, scaled and moved triangles. -/
theorem C102_constrained (h : Good fuel bins vs) (h' : Good fuel' bins' vs') (hf : fuelFor vs.length ≤ fuel)
    (hf' : fuelFor vs'.length ≤ fuel') (es es' : List Edge) (hx : Spec.NonCrossing vs es) (hx' : Spec.NonCrossing vs' es')
    (hb : Spec.Border vs es) (hb' : Spec.Border vs' es') (ho : constrained2d fuel bins vs es = .ok out)
    (ho' : constrained2d fuel' bins' vs' es' = .ok out') (hl : Spec.LocallyDelaunay vs es out) (hl' : Spec.LocallyDelaunay vs' es' out')
    (hg : Spec.NoneOnCircle vs es out) (c s : K) (hcs : c ≠ 0 ∨ s ≠ 0) (t : Vtx K) (hm : ∀ q, q ∈ vs' ↔ ∃ p ∈ vs, q = Spec.turn c s t p)
    (he : ∀ r, r ∈ Spec.segments vs' es' ↔ ∃ e ∈ Spec.segments vs es, r = (Spec.turn c s t e.1, Spec.turn c s t e.2)) (A B C : Vtx K) :
    Spec.Occurs vs out A B C ↔ Spec.Occurs vs' out' (Spec.turn c s t A) (Spec.turn c s t B) (Spec.turn c s t C) :=
  (h.cdtOf hf hx hb ho hl).turn (h'.cdtOf hf' hx' hb' ho' hl') (sim_turn hcs t) hm he hg A B C

end Run

section
open Rounded
variable {F F' : Type} [FloatOps F] [Rounded F] [FloatOps F'] [Rounded F'] [IdCfg] (fuel fuel' : Nat) (bins bins' : Nat → Nat)
  (vs : List (Vtx F)) (vs' : List (Vtx F')) (V V' : List (Vtx ℚ)) (W W' : ℚ) (out out' : List Out)

/-- **C102** in rounded arithmetic, also between formats. -/
theorem C102_turn_rounded (h : RGood fuel bins vs V W) (h' : RGood fuel' bins' vs' V' W') (ho : triangulation2d fuel bins vs = .ok out)
    (ho' : triangulation2d fuel' bins' vs' = .ok out') (ht : Spec.Passes V out) (ht' : Spec.Passes V' out') (c s : ℚ)
    (hcs : c ≠ 0 ∨ s ≠ 0) (t : Vtx ℚ) (hm : ∀ q, q ∈ V' ↔ ∃ p ∈ V, q = Spec.turn c s t p) (A B C : Vtx ℚ) :
    Spec.Occurs V out A B C ↔ Spec.Occurs V' out' (Spec.turn c s t A) (Spec.turn c s t B) (Spec.turn c s t C) :=
  (h.exactly ho ht).turn (h'.exactly ho' ht') (sim_turn hcs t) hm A B C

/-- **C102** in rounded arithmetic, reflection. -/
theorem C102_mirror_rounded (h : RGood fuel bins vs V W) (h' : RGood fuel' bins' vs' V' W') (ho : triangulation2d fuel bins vs = .ok out)
    (ho' : triangulation2d fuel' bins' vs' = .ok out') (ht : Spec.Passes V out) (ht' : Spec.Passes V' out') (c s : ℚ)
    (hcs : c ≠ 0 ∨ s ≠ 0) (t : Vtx ℚ) (hm : ∀ q, q ∈ V' ↔ ∃ p ∈ V, q = Spec.turn c s t (Spec.mirror p)) (A B C : Vtx ℚ) :
    Spec.Occurs V out A B C ↔
      Spec.Occurs V' out' (Spec.turn c s t (Spec.mirror C)) (Spec.turn c s t (Spec.mirror B)) (Spec.turn c s t (Spec.mirror A)) :=
  (h.exactly ho ht).mirror (h'.exactly ho' ht') (sim_turn hcs t) hm A B C

/-- **C102** in rounded arithmetic, with constraints. -/
theorem C102_constrained_rounded (h : RGoodC fuel bins vs V W) (h' : RGoodC fuel' bins' vs' V' W') (es es' : List Edge)
    (hx : Spec.NonCrossing V es) (hx' : Spec.NonCrossing V' es') (hb : Spec.Border V es) (hb' : Spec.Border V' es')
    (ho : constrained2d fuel bins vs es = .ok out) (ho' : constrained2d fuel' bins' vs' es' = .ok out')
    (hl : Spec.LocallyDelaunay V es out) (hl' : Spec.LocallyDelaunay V' es' out')
    (hg : Spec.NoneOnCircle V es out) (c s : ℚ) (hcs : c ≠ 0 ∨ s ≠ 0) (t : Vtx ℚ) (hm : ∀ q, q ∈ V' ↔ ∃ p ∈ V, q = Spec.turn c s t p)
    (he : ∀ r, r ∈ Spec.segments V' es' ↔ ∃ e ∈ Spec.segments V es, r = (Spec.turn c s t e.1, Spec.turn c s t e.2)) (A B C : Vtx ℚ) :
    Spec.Occurs V out A B C ↔ Spec.Occurs V' out' (Spec.turn c s t A) (Spec.turn c s t B) (Spec.turn c s t C) :=
  (h.cdtOf hx hb ho hl).turn (h'.cdtOf hx' hb' ho' hl') (sim_turn hcs t) hm he hg A B C

end

/-! ## Space -/

section Space
variable {n : Vtx3 K} {vs vs' : List (Vtx3 K)} {pv : List (Vtx K)} {out out' : List Out}

theorem dist2_eq_zero {a b : Vtx K} : dist2 a b = 0 ↔ a = b := by
  constructor
  · intro h
    have h1 : a.x - b.x = 0 := by unfold dist2 at h; nlinarith [sq_nonneg (a.x - b.x), sq_nonneg (a.y - b.y)]
    have h2 : a.y - b.y = 0 := by unfold dist2 at h; nlinarith [sq_nonneg (a.x - b.x), sq_nonneg (a.y - b.y)]
    cases a; cases b
    simp only [Vtx.mk.injEq] at *
    exact ⟨by linarith, by linarith⟩
  · rintro rfl; unfold dist2; ring

theorem dist3_eq_zero {a b : Vtx3 K} : Spec.dist3 a b = 0 ↔ a = b := by
  constructor
  · intro h
    unfold Spec.dist3 at h
    have k1 := sq_nonneg (a.x - b.x); have k2 := sq_nonneg (a.y - b.y); have k3 := sq_nonneg (a.z - b.z)
    have h1 : a.x - b.x = 0 := pow_eq_zero_iff (two_ne_zero) |>.1 (by linarith)
    have h2 : a.y - b.y = 0 := pow_eq_zero_iff (two_ne_zero) |>.1 (by linarith)
    have h3 : a.z - b.z = 0 := pow_eq_zero_iff (two_ne_zero) |>.1 (by linarith)
    cases a; cases b
    simp only [Vtx3.mk.injEq] at *
    exact ⟨by linarith, by linarith, by linarith⟩
  · rintro rfl; unfold Spec.dist3; ring

theorem Flat.eq_iff (h : Flat n vs pv) {i j : Nat} {A B : Vtx3 K} {a b : Vtx K} (gA : vs[i]? = some A) (gB : vs[j]? = some B)
    (ga : pv[i]? = some a) (gb : pv[j]? = some b) : a = b ↔ A = B := by
  rw [← dist2_eq_zero, ← dist3_eq_zero, h.dist i j A B a b gA gB ga gb]

theorem Flat.occurs (h : Flat n vs pv) {i j k : Nat} {A B C : Vtx3 K} {a b c : Vtx K} (gA : vs[i]? = some A) (gB : vs[j]? = some B)
    (gC : vs[k]? = some C) (ga : pv[i]? = some a) (gb : pv[j]? = some b) (gc : pv[k]? = some c) :
    Spec.Occurs3 vs out A B C ↔ Spec.Occurs pv out a b c := by
  constructor
  · rintro ⟨o, ho, P, Q, R, g1, g2, g3, hr⟩
    obtain ⟨p, gp⟩ := h.down g1
    obtain ⟨q, gq⟩ := h.down g2
    obtain ⟨r, gr⟩ := h.down g3
    refine ⟨o, ho, p, q, r, gp, gq, gr, ?_⟩
    rwa [h.eq_iff g1 gA gp ga, h.eq_iff g2 gB gq gb, h.eq_iff g3 gC gr gc, h.eq_iff g1 gB gp gb, h.eq_iff g2 gC gq gc, h.eq_iff g3 gA gr ga,
      h.eq_iff g1 gC gp gc, h.eq_iff g2 gA gq ga, h.eq_iff g3 gB gr gb]
  · rintro ⟨o, ho, p, q, r, gp, gq, gr, hr⟩
    obtain ⟨P, g1⟩ := h.up gp
    obtain ⟨Q, g2⟩ := h.up gq
    obtain ⟨R, g3⟩ := h.up gr
    refine ⟨o, ho, P, Q, R, g1, g2, g3, ?_⟩
    rwa [h.eq_iff g1 gA gp ga, h.eq_iff g2 gB gq gb, h.eq_iff g3 gC gr gc, h.eq_iff g1 gB gp gb, h.eq_iff g2 gC gq gc, h.eq_iff g3 gA gr ga,
      h.eq_iff g1 gC gp gc, h.eq_iff g2 gA gq ga, h.eq_iff g3 gB gr gb] at hr

/-- The triangles of a result in space: all triangles, clockwise as seen from the tip of the normal, whose spheres are empty. -/
def Exactly3 (n : Vtx3 K) (vs : List (Vtx3 K)) (out : List Out) : Prop :=
  ∀ A B C, Spec.Occurs3 vs out A B C ↔ A ∈ vs ∧ B ∈ vs ∧ C ∈ vs ∧ Spec.area3 n A B C < 0 ∧
    ∀ M, Spec.Center3 M A B C → ∀ D ∈ vs, Spec.dist3 M A ≤ Spec.dist3 M D

theorem Flat.exactly (h : Flat n vs pv) (hE : ∀ A B C, Spec.Occurs pv out A B C ↔ A ∈ pv ∧ B ∈ pv ∧ C ∈ pv ∧ Clockwise A B C ∧ ∀ q ∈ pv, ¬ InCircle A B C q) :
    Exactly3 n vs out := by
  intro A B C
  have key : ∀ i j k : Nat, vs[i]? = some A → vs[j]? = some B → vs[k]? = some C →
      (Spec.Occurs3 vs out A B C ↔ Spec.area3 n A B C < 0 ∧ ∀ M, Spec.Center3 M A B C → ∀ D ∈ vs, Spec.dist3 M A ≤ Spec.dist3 M D) := by
    intro i j k gA gB gC
    obtain ⟨a, ga⟩ := h.down gA
    obtain ⟨b, gb⟩ := h.down gB
    obtain ⟨c, gc⟩ := h.down gC
    have har := h.area i j k A B C a b c gA gB gC ga gb gc
    rw [h.occurs gA gB gC ga gb gc, hE, ← har]
    constructor
    · rintro ⟨-, -, -, hcw, hem⟩
      refine ⟨hcw, fun M hM D hD => not_lt.1 fun hlt => ?_⟩
      obtain ⟨l, gD⟩ := List.getElem?_of_mem hD
      obtain ⟨d, gd⟩ := h.down gD
      obtain ⟨m, hm⟩ := exists_circumcenter a b c hcw.ne
      exact hem d (List.mem_of_getElem? gd) ⟨m, hm, (h.inside gA gB gC gD ga gb gc gd hcw.ne hM hm).1 hlt⟩
    · rintro ⟨hcw, hem⟩
      refine ⟨List.mem_of_getElem? ga, List.mem_of_getElem? gb, List.mem_of_getElem? gc, hcw, fun d hd => ?_⟩
      rintro ⟨m, hm, hlt⟩
      obtain ⟨l, gd⟩ := List.getElem?_of_mem hd
      obtain ⟨D, gD⟩ := h.up gd
      obtain ⟨M, hM⟩ := h.center gA gB gC (by rw [← har]; exact hcw.ne)
      exact absurd (hem M hM D (List.mem_of_getElem? gD)) ((h.inside gA gB gC gD ga gb gc gd hcw.ne hM hm).2 hlt).not_ge
  constructor
  · intro hocc
    have hm : A ∈ vs ∧ B ∈ vs ∧ C ∈ vs := by
      obtain ⟨o, ho, P, Q, R, g1, g2, g3, hr⟩ := hocc
      have m1 := List.mem_of_getElem? g1; have m2 := List.mem_of_getElem? g2; have m3 := List.mem_of_getElem? g3
      rcases hr with ⟨rfl, rfl, rfl⟩ | ⟨rfl, rfl, rfl⟩ | ⟨rfl, rfl, rfl⟩
      · exact ⟨m1, m2, m3⟩
      · exact ⟨m3, m1, m2⟩
      · exact ⟨m2, m3, m1⟩
    obtain ⟨i, gA⟩ := List.getElem?_of_mem hm.1
    obtain ⟨j, gB⟩ := List.getElem?_of_mem hm.2.1
    obtain ⟨k, gC⟩ := List.getElem?_of_mem hm.2.2
    exact ⟨hm.1, hm.2.1, hm.2.2, (key i j k gA gB gC).1 hocc⟩
  · rintro ⟨hA, hB, hC, hr⟩
    obtain ⟨i, gA⟩ := List.getElem?_of_mem hA
    obtain ⟨j, gB⟩ := List.getElem?_of_mem hB
    obtain ⟨k, gC⟩ := List.getElem?_of_mem hC
    exact (key i j k gA gB gC).2 hr

/-- A vertex is on a sphere through three vertices if and only if its coordinates are on the circle. -/
theorem Flat.on (h : Flat n vs pv) {i j k l : Nat} {A B C D : Vtx3 K} {a b c d m : Vtx K} {M : Vtx3 K} (gA : vs[i]? = some A) (gB : vs[j]? = some B)
    (gC : vs[k]? = some C) (gD : vs[l]? = some D) (ga : pv[i]? = some a) (gb : pv[j]? = some b) (gc : pv[k]? = some c)
    (gd : pv[l]? = some d) (hc : area2 a b c ≠ 0) (hM : Spec.Center3 M A B C) (hm : Circumcenter m a b c) :
    Spec.dist3 M D = Spec.dist3 M A ↔ dist2 m d = dist2 m a := by
  have e3 := dist_combo3 h.plane.1 (h.dot gB gA) (h.dot gC gA) (h.dot gD gA) M
  have e2 := dist_combo2 a b c d m
  rw [h.dist i j A B a b gA gB ga gb, h.dist j k B C b c gB gC gb gc, h.dist k i C A c a gC gA gc ga, h.area j k l B C D b c d gB gC gD gb gc gd,
    h.area k i l C A D c a d gC gA gD gc ga gd, h.area i j l A B D a b d gA gB gD ga gb gd, h.area i j k A B C a b c gA gB gC ga gb gc, ← hm.1, ← hm.2] at e2
  rw [← hM.1, ← hM.2] at e3
  rw [h.area i j k A B C a b c gA gB gC ga gb gc] at hc
  have hs : Spec.area3 n A B C = Spec.area3 n B C D + Spec.area3 n C A D + Spec.area3 n A B D := by unfold Spec.area3; ring
  have hp : Spec.area3 n A B C ^ 2 ≠ 0 := pow_ne_zero 2 hc
  generalize Spec.area3 n A B C = S, Spec.area3 n B C D = w1, Spec.area3 n C A D = w2, Spec.area3 n A B D = w3 at *
  rw [← mul_right_inj' hp, ← mul_right_inj' (a := S ^ 2) (b := dist2 m d) hp, e3, e2]
  have k3 : S * (w1 * Spec.dist3 M A + w2 * Spec.dist3 M A + w3 * Spec.dist3 M A) = S ^ 2 * Spec.dist3 M A := by rw [hs]; ring
  have k2 : S * (w1 * dist2 m a + w2 * dist2 m a + w3 * dist2 m a) = S ^ 2 * dist2 m a := by rw [hs]; ring
  rw [k3, k2]
  constructor <;> intro <;> linarith

theorem Flat.general (h : Flat n vs pv) (ht : Spec.Passes3 n vs out) : Spec.NoFourOnEmptyCircle pv := by
  intro a ha b hb c hc d hd nab nbc nca nda ndb ndc m hm hem heq
  obtain ⟨i, ga⟩ := List.getElem?_of_mem ha
  obtain ⟨j, gb⟩ := List.getElem?_of_mem hb
  obtain ⟨k, gc⟩ := List.getElem?_of_mem hc
  obtain ⟨l, gd⟩ := List.getElem?_of_mem hd
  obtain ⟨A, gA⟩ := h.up ga
  obtain ⟨B, gB⟩ := h.up gb
  obtain ⟨C, gC⟩ := h.up gc
  obtain ⟨D, gD⟩ := h.up gd
  have hne : area2 a b c ≠ 0 := by
    let _ := u32Cfg
    exact area_ne_of_circle hm nab nbc nca
  have hn3 : Spec.area3 n A B C ≠ 0 := by rw [← h.area i j k A B C a b c gA gB gC ga gb gc]; exact hne
  obtain ⟨M, hM⟩ := h.center gA gB gC hn3
  have neq : ∀ {i j : Nat} {A B : Vtx3 K} {a b : Vtx K}, vs[i]? = some A → vs[j]? = some B → pv[i]? = some a → pv[j]? = some b → a ≠ b → A ≠ B :=
    fun gA gB ga gb hn e => hn ((h.eq_iff gA gB ga gb).2 e)
  have emp : ∀ q ∈ vs, Spec.dist3 M A ≤ Spec.dist3 M q := by
    intro Q hQ
    obtain ⟨l', gQ⟩ := List.getElem?_of_mem hQ
    obtain ⟨q, gq⟩ := h.down gQ
    exact not_lt.1 fun hlt => absurd (hem q (List.mem_of_getElem? gq)) ((h.inside gA gB gC gQ ga gb gc gq hne hM hm).1 hlt).not_ge
  refine ht.general A (List.mem_of_getElem? gA) B (List.mem_of_getElem? gB) C (List.mem_of_getElem? gC) D (List.mem_of_getElem? gD)
    hn3 (neq gD gA gd ga nda) (neq gD gB gd gb ndb) (neq gD gC gd gc ndc)
    M hM emp ((h.on gA gB gC gD ga gb gc gd hne hM hm).2 heq)

/-- A result for coordinates that pass the test of C74, is one that passes the test of C101. -/
theorem Flat.passes (h : Flat n vs pv) (hp : Spec.Passes pv out) 
    (hcw : ∀ a b c, (a, b, c) ∈ out → ∃ A B C, pv[a]? = some A ∧ pv[b]? = some B ∧ pv[c]? = some C ∧ Clockwise A B C) :
    Spec.Passes3 n vs out where
  some := hp.some
  sides := by
    intro t ht a b c hc A B gA gB
    obtain ⟨x, gx⟩ := h.down gA
    obtain ⟨y, gy⟩ := h.down gB
    refine (hp.sides t ht a b c hc x y gx gy).imp id fun hall P hP => ?_
    obtain ⟨k, gP⟩ := List.getElem?_of_mem hP
    obtain ⟨p, gp⟩ := h.down gP
    rw [← h.area a b k A B P x y p gA gB gP gx gy gp]
    exact hall p (List.mem_of_getElem? gp)
  flat := by
    intro t ht u hu a b c d hc hd A B C D gA gB gC gD M hM
    obtain ⟨x, gx⟩ := h.down gA
    obtain ⟨y, gy⟩ := h.down gB
    obtain ⟨z, gz⟩ := h.down gC
    obtain ⟨w, gw⟩ := h.down gD
    have hne : area2 x y z ≠ 0 := by
      obtain ⟨A', B', C', gA', gB', gC', hlt⟩ := hcw t.1 t.2.1 t.2.2 ht
      have r1 : area2 y z x = area2 x y z := by unfold area2; ring
      have r2 : area2 z x y = area2 x y z := by unfold area2; ring
      rcases hc with rfl | rfl | rfl <;> simp only [gx, gy, gz, Option.some.injEq] at gA' gB' gC' <;> subst gA' <;> subst gB' <;> subst gC'
      · exact hlt.ne
      · rw [← r1]; exact hlt.ne
      · rw [← r2]; exact hlt.ne
    obtain ⟨m, hm⟩ := exists_circumcenter x y z hne
    exact not_lt.1 fun hlt => hp.flat t ht u hu a b c d hc hd x y z w gx gy gz gw (by rintro ⟨e, he, -⟩; simp at he)
      ⟨m, hm, (h.inside gA gB gC gD gx gy gz gw hne hM hm).1 hlt⟩
  general := by
    intro A hA B hB C hC D hD hn nA nB nC M hM hem heq
    obtain ⟨i, gA⟩ := List.getElem?_of_mem hA
    obtain ⟨j, gB⟩ := List.getElem?_of_mem hB
    obtain ⟨k, gC⟩ := List.getElem?_of_mem hC
    obtain ⟨l, gD⟩ := List.getElem?_of_mem hD
    obtain ⟨a, ga⟩ := h.down gA
    obtain ⟨b, gb⟩ := h.down gB
    obtain ⟨c, gc⟩ := h.down gC
    obtain ⟨d, gd⟩ := h.down gD
    have hne : area2 a b c ≠ 0 := by rw [h.area i j k A B C a b c gA gB gC ga gb gc]; exact hn
    obtain ⟨m, hm⟩ := exists_circumcenter a b c hne
    refine hp.general a (List.mem_of_getElem? ga) b (List.mem_of_getElem? gb) c (List.mem_of_getElem? gc) d (List.mem_of_getElem? gd)
      ?_ ?_ ?_ (fun e => nA ((h.eq_iff gD gA gd ga).1 e)) (fun e => nB ((h.eq_iff gD gB gd gb).1 e)) (fun e => nC ((h.eq_iff gD gC gd gc).1 e))
      m hm ?_ ((h.on gA gB gC gD ga gb gc gd hne hM hm).1 heq)
    · rintro rfl; apply hne; unfold area2; ring
    · rintro rfl; apply hne; unfold area2; ring
    · rintro rfl; apply hne; unfold area2; ring
    · intro q hq
      obtain ⟨l', gq⟩ := List.getElem?_of_mem hq
      obtain ⟨Q, gQ⟩ := h.up gq
      exact not_lt.1 fun hlt => absurd (hem Q (List.mem_of_getElem? gQ)) ((h.inside gA gB gC gQ ga gb gc gq hne hM hm).2 hlt).not_ge

theorem Flat.exactly3 [ExactParams K] [IdCfg] (hF : Flat n vs pv) {fuel : Nat} {bins : Nat → Nat} (h : Good fuel bins pv)
    (ho : triangulation2d fuel bins pv = .ok out) (ht : Spec.Passes3 n vs out) : Exactly3 n vs out := by
  have hor := hF.oriented (C03_clockwise fuel bins pv h out ho)
  refine hF.exactly (h.exactly ho ⟨ht.some, hF.hullSides ht.sides, hF.locally ht.flat ?_, hF.general ht⟩).iff
  intro t hm a b c hc A B C gA gB gC
  obtain ⟨A', B', C', gA', gB', gC', hlt⟩ := hor t hm
  have r1 : Spec.area3 n B C A = Spec.area3 n A B C := by unfold Spec.area3; ring
  have r2 : Spec.area3 n C A B = Spec.area3 n A B C := by unfold Spec.area3; ring
  rcases hc with rfl | rfl | rfl <;> simp only [gA, gB, gC, Option.some.injEq] at gA' gB' gC' <;> subst gA' <;> subst gB' <;> subst gC'
  · exact hlt.ne
  · rw [← r1]; exact hlt.ne
  · rw [← r2]; exact hlt.ne

theorem Exactly3.same (h : Exactly3 n vs out) (h' : Exactly3 n vs' out') (hm : ∀ q, q ∈ vs ↔ q ∈ vs') (A B C : Vtx3 K) :
    Spec.Occurs3 vs out A B C ↔ Spec.Occurs3 vs' out' A B C := by
  rw [h, h', hm, hm, hm]
  simp only [hm]

/-- The opposite normal. -/
def Spec.opposite (n : Vtx3 K) : Vtx3 K := ⟨-n.x, -n.y, -n.z⟩

theorem Exactly3.other (h : Exactly3 n vs out) (h' : Exactly3 (Spec.opposite n) vs' out') (hm : ∀ q, q ∈ vs ↔ q ∈ vs') (A B C : Vtx3 K) :
    Spec.Occurs3 vs out A B C ↔ Spec.Occurs3 vs' out' C B A := by
  have ar : Spec.area3 (Spec.opposite n) C B A = Spec.area3 n A B C := by unfold Spec.area3 Spec.opposite; ring
  rw [h, h', hm, hm, hm, ar]
  simp only [hm]
  have e : (∀ M, Spec.Center3 M A B C → ∀ D ∈ vs', Spec.dist3 M A ≤ Spec.dist3 M D) ↔
      ∀ M, Spec.Center3 M C B A → ∀ D ∈ vs', Spec.dist3 M C ≤ Spec.dist3 M D := by
    constructor
    · intro g M ⟨e1, e2⟩ D hD
      rw [e2]; exact g M ⟨by rw [← e2, ← e1], e2.symm⟩ D hD
    · intro g M ⟨e1, e2⟩ D hD
      rw [e2]; exact g M ⟨by rw [← e2, ← e1], e2.symm⟩ D hD
  rw [e]
  tauto

end Space

section
variable [IdCfg]

theorem exactly3_real {fuel : Nat} {bins : Nat → Nat} {vs : List (Vtx3 ℝ)} {n v0 v1 : Vtx3 ℝ} {pv : List (Vtx ℝ)} {out : List Out}
    (hc : Spec.Coplanar n vs) (h0 : vs[0]? = some v0) (h1 : vs[1]? = some v1) (hne : v0 ≠ v1) (ht : transformTo2d vs n = .ok pv)
    (h : Good fuel bins pv) (ho : triangulation3d fuel bins vs n = .ok out) (hp : Spec.Passes3 n vs out) : Exactly3 n vs out := by
  obtain ⟨pv', ht', hl, h2, h3⟩ := transformTo2d_spec vs n v0 v1 hc h0 h1 hne
  obtain rfl : pv = pv' := by rw [ht] at ht'; simpa using ht'
  rw [triangulation3d_of fuel bins ht hl] at ho
  exact Flat.exactly3 ⟨hc, hl, h2, h3⟩ h ho hp

/-- **C102** in space, over the reals: although the first two vertices define the coordinates, the order of the vertices does not matter,
and the opposite normal reverses the triangles. -/
theorem C102_space (fuel fuel' : Nat) (bins bins' : Nat → Nat) (vs vs' : List (Vtx3 ℝ)) (n v0 v1 v0' v1' : Vtx3 ℝ)
    (hc : Spec.Coplanar n vs) (h0 : vs[0]? = some v0) (h1 : vs[1]? = some v1) (hne : v0 ≠ v1) (h0' : vs'[0]? = some v0')
    (h1' : vs'[1]? = some v1') (hne' : v0' ≠ v1') (hm : ∀ q, q ∈ vs ↔ q ∈ vs') (pv pv' : List (Vtx ℝ)) (out out' : List Out)
    (ht : transformTo2d vs n = .ok pv) (h : Good fuel bins pv) (ho : triangulation3d fuel bins vs n = .ok out)
    (hp : Spec.Passes3 n vs out) (h' : Good fuel' bins' pv') (A B C : Vtx3 ℝ) :
    (transformTo2d vs' n = .ok pv' → triangulation3d fuel' bins' vs' n = .ok out' → Spec.Passes3 n vs' out' →
      (Spec.Occurs3 vs out A B C ↔ Spec.Occurs3 vs' out' A B C)) ∧
    (transformTo2d vs' (Spec.opposite n) = .ok pv' → triangulation3d fuel' bins' vs' (Spec.opposite n) = .ok out' →
      Spec.Passes3 (Spec.opposite n) vs' out' → (Spec.Occurs3 vs out A B C ↔ Spec.Occurs3 vs' out' C B A)) := by
  have hE := exactly3_real hc h0 h1 hne ht h ho hp
  have hc' : Spec.Coplanar n vs' := ⟨hc.1, fun v hv w hw => hc.2 v ((hm v).2 hv) w ((hm w).2 hw)⟩
  have hd : ∀ v, Spec.dot3 (Spec.opposite n) v = - Spec.dot3 n v := fun v => by unfold Spec.dot3 Spec.opposite; ring
  have hc2 : Spec.Coplanar (Spec.opposite n) vs' := by
    refine ⟨?_, fun v hv w hw => ?_⟩
    · rw [← hc.1]; unfold Spec.dot3 Spec.opposite; ring
    · rw [hd, hd, hc'.2 v hv w hw]
  exact ⟨fun ht' ho' hp' => hE.same (exactly3_real hc' h0' h1' hne' ht' h' ho' hp') hm A B C,
    fun ht' ho' hp' => hE.other (exactly3_real hc2 h0' h1' hne' ht' h' ho' hp') hm A B C⟩

variable {f f' : Fmt} [Fl.Ok f] [Fl.Ok f']

theorem exactly3_axis {fuel : Nat} {bins : Nat → Nat} {vs : List (Vtx3 ℚ)} {n a v0 v1 : Vtx3 ℚ} {δ W : ℚ} {out : List Out} (hv : ∀ v ∈ vs, v.Number f)
    (hn : Spec.Axis n) (ha : Spec.Axis a) (hc : Spec.Coplanar n vs) (h0 : vs[0]? = some v0) (h1 : vs[1]? = some v1)
    (hx : v0.x - v1.x = δ * a.x) (hy : v0.y - v1.y = δ * a.y) (hz : v0.z - v1.z = δ * a.z) (hδ : UnitStep f δ)
    (h : Rounded.RGood fuel bins (flVerts f (Spec.coords a n vs)) (Spec.coords a n vs) W)
    (ho : triangulation3d fuel bins (vs.map (flVtx3 f)) (flVtx3 f n) = .ok out) (hp : Spec.Passes3 n vs out) : Exactly3 n vs out := by
  obtain ⟨-, hr, -⟩ := C64_coords fuel bins vs n a v0 v1 δ hv hn ha hc h0 h1 hx hy hz hδ
  have hF := flat_axis hv hn ha hc h0 h1 hx hy hz hδ
  let P := Rounded.params (Fl f) (bins (flVerts f (Spec.coords a n vs)).length) W (Rounded.scaleVal (flVerts f (Spec.coords a n vs)))
  rw [hr, h.run] at ho
  exact hF.exactly3 h.good ho hp

/-- **C102** in space, IEEE formats, planes parallel to two axes: order and number format of the vertices do not matter, nor does the
axis along which the first two vertices are apart. -/
theorem C102_space_axis (fuel fuel' : Nat) (bins bins' : Nat → Nat) (vs vs' : List (Vtx3 ℚ)) (n a a' v0 v1 v0' v1' : Vtx3 ℚ)
    (δ δ' W W' : ℚ) (hv : ∀ v ∈ vs, v.Number f) (hv' : ∀ v ∈ vs', v.Number f') (hn : Spec.Axis n) (ha : Spec.Axis a) (ha' : Spec.Axis a')
    (hc : Spec.Coplanar n vs) (h0 : vs[0]? = some v0) (h1 : vs[1]? = some v1) (h0' : vs'[0]? = some v0') (h1' : vs'[1]? = some v1')
    (hx : v0.x - v1.x = δ * a.x) (hy : v0.y - v1.y = δ * a.y) (hz : v0.z - v1.z = δ * a.z) (hδ : UnitStep f δ)
    (hx' : v0'.x - v1'.x = δ' * a'.x) (hy' : v0'.y - v1'.y = δ' * a'.y) (hz' : v0'.z - v1'.z = δ' * a'.z) (hδ' : UnitStep f' δ')
    (hm : ∀ q, q ∈ vs ↔ q ∈ vs')
    (h : Rounded.RGood fuel bins (flVerts f (Spec.coords a n vs)) (Spec.coords a n vs) W)
    (h' : Rounded.RGood fuel' bins' (flVerts f' (Spec.coords a' n vs')) (Spec.coords a' n vs') W') (out out' : List Out)
    (ho : triangulation3d fuel bins (vs.map (flVtx3 f)) (flVtx3 f n) = .ok out)
    (ho' : triangulation3d fuel' bins' (vs'.map (flVtx3 f')) (flVtx3 f' n) = .ok out') (hp : Spec.Passes3 n vs out)
    (hp' : Spec.Passes3 n vs' out') (A B C : Vtx3 ℚ) : Spec.Occurs3 vs out A B C ↔ Spec.Occurs3 vs' out' A B C :=
  (exactly3_axis hv hn ha hc h0 h1 hx hy hz hδ h ho hp).same
    (exactly3_axis hv' hn ha' ⟨hc.1, fun v hv w hw => hc.2 v ((hm v).2 hv) w ((hm w).2 hw)⟩ h0' h1' hx' hy' hz' hδ' h' ho' hp') hm A B C

end

/-! ## Examples -/

section Example
open Rounded
local instance turnCfg : IdCfg := u32Cfg

/-- The points of `certGrid` turned by a quarter and moved by (15, 0), in another order. -/
def turnGrid : List (Int × Int) := certGrid.reverse.map fun p => (15 - p.2, p.1)

theorem turn_good : RGood (F := Fl binary32) 506 (fun _ => 1) (flPts binary32 turnGrid) (intPts turnGrid) (2 ^ 4) :=
  C44_grid turnGrid 4 (by decide) (by decide) (by decide) ⟨by norm_num, by decide +kernel, by decide +kernel⟩
    (by decide) (by decide +kernel) (by decide) (by decide)

def turnOut : List Out := [(1, 8, 4), (2, 9, 4), (0, 5, 6), (2, 4, 8), (1, 4, 7), (3, 6, 9), (4, 5, 7), (0, 6, 3), (4, 6, 5), (4, 9, 6)]

theorem turn_run : triangulation2d (F := Fl binary32) 506 (fun _ => 1) (flPts binary32 turnGrid) = .ok turnOut := by decide +kernel

theorem turn_passes : Spec.Passes (intPts turnGrid) turnOut :=
  ⟨by decide, hullSides_of_check (by decide +kernel), local_of_check (by decide +kernel), general_of_check (by decide +kernel)⟩

/-- The hypotheses of `C102_turn_rounded` hold for `certGrid` in `f64` and for the turned points in `f32`. -/
example (A B C : Vtx ℚ) : Spec.Occurs (intPts certGrid) certOut A B C ↔
    Spec.Occurs (intPts turnGrid) turnOut (Spec.turn 0 1 ⟨15, 0⟩ A) (Spec.turn 0 1 ⟨15, 0⟩ B) (Spec.turn 0 1 ⟨15, 0⟩ C) :=
  C102_turn_rounded 506 506 _ _ _ _ _ _ _ _ _ _ cert_good turn_good cert_run turn_run cert_passes turn_passes 0 1 (.inr (by norm_num)) _
    (fun q => ⟨(by decide +kernel : ∀ q ∈ intPts turnGrid, ∃ p ∈ intPts certGrid, q = Spec.turn 0 1 (⟨15, 0⟩ : Vtx ℚ) p) q,
      fun ⟨p, hp, e⟩ => e ▸ (by decide +kernel : ∀ p ∈ intPts certGrid, Spec.turn 0 1 (⟨15, 0⟩ : Vtx ℚ) p ∈ intPts turnGrid) p hp⟩) A B C

/-- The points of `certGrid`, mirrored. -/
def mirrorGrid : List (Int × Int) := certGrid.map fun p => (p.1, - p.2)

theorem mirror_good : RGood (F := F64) 506 (fun _ => 1) (flPts binary64 mirrorGrid) (intPts mirrorGrid) (2 ^ 4) :=
  C44_grid mirrorGrid 4 (by decide) (by decide) (by decide) ⟨by norm_num, by decide +kernel, by decide +kernel⟩
    (by decide) (by decide +kernel) (by decide) (by decide)

def mirrorOut : List Out := [(1, 8, 5), (3, 4, 9), (0, 3, 6), (0, 7, 5), (0, 5, 3), (2, 5, 8), (1, 5, 7), (3, 9, 6), (3, 5, 4), (2, 4, 5)]

theorem mirror_run : triangulation2d (F := F64) 506 (fun _ => 1) (flPts binary64 mirrorGrid) = .ok mirrorOut := by decide +kernel

theorem mirror_passes : Spec.Passes (intPts mirrorGrid) mirrorOut :=
  ⟨by decide, hullSides_of_check (by decide +kernel), local_of_check (by decide +kernel), general_of_check (by decide +kernel)⟩

/-- The hypotheses of `C102_mirror_rounded` hold. -/
example (A B C : Vtx ℚ) : Spec.Occurs (intPts certGrid) certOut A B C ↔ Spec.Occurs (intPts mirrorGrid) mirrorOut
    (Spec.turn 1 0 ⟨0, 0⟩ (Spec.mirror C)) (Spec.turn 1 0 ⟨0, 0⟩ (Spec.mirror B)) (Spec.turn 1 0 ⟨0, 0⟩ (Spec.mirror A)) :=
  C102_mirror_rounded 506 506 _ _ _ _ _ _ _ _ _ _ cert_good mirror_good cert_run mirror_run cert_passes mirror_passes 1 0
    (.inl (by norm_num)) _
    (fun q => ⟨(by decide +kernel : ∀ q ∈ intPts mirrorGrid, ∃ p ∈ intPts certGrid, q = Spec.turn 1 0 (⟨0, 0⟩ : Vtx ℚ) (Spec.mirror p)) q,
      fun ⟨p, hp, e⟩ =>
        e ▸ (by decide +kernel : ∀ p ∈ intPts certGrid, Spec.turn 1 0 (⟨0, 0⟩ : Vtx ℚ) (Spec.mirror p) ∈ intPts mirrorGrid) p hp⟩) A B C

/-- The frame with a hole of `ringGrid`, turned by a quarter. -/
def quarterGrid : List (Int × Int) := ringGrid.map fun p => (16 - p.2, p.1)

theorem quarter_good : RGoodC (F := Fl binary32) 600 (fun _ => 1) (flPts binary32 quarterGrid) (intPts quarterGrid) (2 ^ 4) :=
  { toRGood := C44_grid quarterGrid 4 (by decide) (by decide) (by decide) ⟨by norm_num, by decide +kernel, by decide +kernel⟩
      (by decide +kernel) (by decide +kernel) (by decide +kernel) (by decide)
    ray := by unfold Plane.ClearRays Plane.area2 Plane.axes; decide +kernel
    fuelC := by decide }

def quarterOut : List Out := [(2, 9, 10), (1, 2, 10), (1, 10, 5), (1, 5, 0), (0, 5, 7), (0, 7, 4), (4, 7, 8), (4, 8, 6), (3, 4, 6), (2, 3, 6),
  (2, 6, 9), (6, 8, 9), (5, 10, 7)]

theorem quarter_run : constrained2d (F := Fl binary32) 600 (fun _ => 1) (flPts binary32 quarterGrid) ringEdges = .ok quarterOut := by
  decide +kernel

theorem quarter_segments : Spec.segments (intPts quarterGrid) ringEdges =
    [(⟨16,0⟩,⟨0,0⟩),(⟨0,0⟩,⟨0,16⟩),(⟨0,16⟩,⟨16,16⟩),(⟨16,16⟩,⟨16,0⟩),(⟨11,3⟩,⟨11,11⟩),(⟨11,11⟩,⟨7,11⟩),(⟨7,11⟩,⟨7,8⟩),(⟨7,8⟩,⟨7,3⟩),
      (⟨7,3⟩,⟨11,3⟩)] := by
  decide +kernel

theorem quarter_border : Spec.Border (intPts quarterGrid) ringEdges := by
  refine ⟨?_, ?_, ?_, ?_, ?_⟩
  · rw [quarter_segments]; decide +kernel
  · rw [quarter_segments]; decide +kernel
  · rw [quarter_segments]; decide +kernel
  · rw [quarter_segments]; unfold Balanced; decide +kernel
  · rw [quarter_segments]
    rintro ⟨x, y⟩ -
    simp only [winding, List.map_cons, List.map_nil, List.sum_cons, List.sum_nil, crossing_flat]
    rw [crossing_up 0 0 16 (by norm_num), crossing_down 16 16 0 (by norm_num), crossing_up 11 3 11 (by norm_num), crossing_down 7 11 8 (by norm_num),
      crossing_down 7 8 3 (by norm_num)]
    simp only
    split_ifs with h1 h2 h3 h4 <;> first | decide | grind

/-- The hypotheses of `C102_constrained_rounded` hold for the frame in `f64` and the turned frame in `f32`. -/
example (A B C : Vtx ℚ) : Spec.Occurs (intPts ringGrid) ringOut A B C ↔
    Spec.Occurs (intPts quarterGrid) quarterOut (Spec.turn 0 1 ⟨16, 0⟩ A) (Spec.turn 0 1 ⟨16, 0⟩ B) (Spec.turn 0 1 ⟨16, 0⟩ C) :=
  C102_constrained_rounded 600 600 (fun _ => 1) (fun _ => 1) _ _ _ _ _ _ _ _ ring_good quarter_good ringEdges ringEdges
    (nonCrossing_of_check (by decide +kernel)) (nonCrossing_of_check (by decide +kernel)) ring_border quarter_border
    (by decide +kernel) quarter_run (local_of_none (local_of_check (by decide +kernel))) (local_of_none (local_of_check (by decide +kernel)))
    (noneOnCircle_of_check (by decide +kernel)) 0 1 (.inr (by norm_num)) ⟨16, 0⟩
    (fun q => ⟨(by decide +kernel : ∀ q ∈ intPts quarterGrid, ∃ p ∈ intPts ringGrid, q = Spec.turn 0 1 (⟨16, 0⟩ : Vtx ℚ) p) q,
      fun ⟨p, hp, e⟩ => e ▸ (by decide +kernel : ∀ p ∈ intPts ringGrid, Spec.turn 0 1 (⟨16, 0⟩ : Vtx ℚ) p ∈ intPts quarterGrid) p hp⟩)
    (fun r => ⟨(by decide +kernel : ∀ r ∈ Spec.segments (intPts quarterGrid) ringEdges, ∃ e ∈ Spec.segments (intPts ringGrid) ringEdges,
        r = (Spec.turn 0 1 (⟨16, 0⟩ : Vtx ℚ) e.1, Spec.turn 0 1 (⟨16, 0⟩ : Vtx ℚ) e.2)) r,
      fun ⟨e, he, hr⟩ => hr ▸ (by decide +kernel : ∀ e ∈ Spec.segments (intPts ringGrid) ringEdges,
        (Spec.turn 0 1 (⟨16, 0⟩ : Vtx ℚ) e.1, Spec.turn 0 1 (⟨16, 0⟩ : Vtx ℚ) e.2) ∈ Spec.segments (intPts quarterGrid) ringEdges) e he⟩) A B C

/-- The vertices of `panel` in the opposite order, so that the coordinates are along another axis. -/
def panel' : List (Vtx3 ℚ) := [⟨0, 7, 0⟩, ⟨16, 7, 0⟩, ⟨16, 7, 8⟩, ⟨0, 7, 8⟩, ⟨7, 7, 6⟩, ⟨5, 7, 3⟩, ⟨2, 7, 5⟩, ⟨2, 7, 1⟩]

def panelGrid' : List (Int × Int) := [(0, 0), (-16, 0), (-16, -8), (0, -8), (-7, -6), (-5, -3), (-2, -5), (-2, -1)]

theorem panel_coords' : Spec.coords ⟨-1, 0, 0⟩ ⟨0, -1, 0⟩ panel' = intPts panelGrid' := by decide +kernel

theorem panel_fl' : flVerts binary32 (intPts panelGrid') = flPts binary32 panelGrid' := by decide +kernel

theorem panel_good' : RGood (F := Fl binary32) 600 (fun _ => 1) (flVerts binary32 (Spec.coords ⟨-1, 0, 0⟩ ⟨0, -1, 0⟩ panel'))
    (Spec.coords ⟨-1, 0, 0⟩ ⟨0, -1, 0⟩ panel') (2 ^ 4) := by
  rw [panel_coords', panel_fl']
  exact C44_grid panelGrid' 4 (by decide) (by decide) (by decide) ⟨by norm_num, by decide +kernel, by decide +kernel⟩
    (by decide) (by decide +kernel) (by decide) (by decide)

theorem panel_number' : ∀ v ∈ panel', v.Number binary32 := by
  have n : ∀ q : ℚ, (Fl.rnd binary32 q = q ∧ |q| ≤ Fl.big binary32) → binary32.Number q := fun q h => Fl.number_iff.2 h
  intro v hv
  simp only [panel', List.mem_cons, List.not_mem_nil, or_false] at hv
  rcases hv with rfl | rfl | rfl | rfl | rfl | rfl | rfl | rfl <;>
    exact ⟨n _ (by decide +kernel), n _ (by decide +kernel), n _ (by decide +kernel)⟩

theorem panel_step' : UnitStep binary32 16 := by
  have := unitStep_pow2 (f := binary32) (k := 4) (by decide) (by decide) (by decide) (by decide)
  norm_num at this
  exact this

theorem panel_plane' : Spec.Coplanar (⟨0, -1, 0⟩ : Vtx3 ℚ) panel' := by constructor <;> simp [Spec.dot3, panel']

def panelOut : List Out := [(1, 3, 2), (1, 5, 3), (3, 6, 7), (3, 5, 6), (0, 4, 1), (2, 3, 7), (1, 4, 5), (0, 1, 2), (0, 7, 4), (0, 2, 7)]

def panelOut' : List Out := [(0, 3, 6), (5, 7, 6), (1, 4, 2), (1, 5, 4), (4, 5, 6), (3, 4, 6), (0, 6, 7), (2, 4, 3), (1, 7, 5), (0, 7, 1)]

theorem panel_run : triangulation3d 600 (fun _ => 1) (panel.map (flVtx3 binary64)) (flVtx3 binary64 ⟨0, -1, 0⟩) = .ok panelOut := by
  decide +kernel

theorem panel_run' : triangulation3d 600 (fun _ => 1) (panel'.map (flVtx3 binary32)) (flVtx3 binary32 ⟨0, -1, 0⟩) = .ok panelOut' := by
  decide +kernel

theorem clockwise_of_check {vs : List (Vtx ℚ)} {out : List Out}
    (h : out.all (fun t => match vs[t.1]?, vs[t.2.1]?, vs[t.2.2]? with
      | some A, some B, some C => decide (area2 A B C < 0) | _, _, _ => false) = true) :
    ∀ a b c, (a, b, c) ∈ out → ∃ A B C, vs[a]? = some A ∧ vs[b]? = some B ∧ vs[c]? = some C ∧ Clockwise A B C := by
  intro a b c hm
  have hk := List.all_eq_true.1 h _ hm
  simp only at hk
  split at hk
  · rename_i A B C gA gB gC
    simp only [decide_eq_true_eq] at hk
    exact ⟨A, B, C, gA, gB, gC, hk⟩
  · exact absurd hk (by simp)

theorem panel_passes : Spec.Passes3 (⟨0, -1, 0⟩ : Vtx3 ℚ) panel panelOut := by
  refine (flat_axis panel_number .y' .z' panel_plane rfl rfl (by norm_num) (by norm_num) (by norm_num) panel_step).passes ?_ ?_
  · rw [panel_coords]
    exact ⟨by decide, hullSides_of_check (by decide +kernel), local_of_check (by decide +kernel), general_of_check (by decide +kernel)⟩
  · rw [panel_coords]
    exact clockwise_of_check (by decide +kernel)

theorem panel_passes' : Spec.Passes3 (⟨0, -1, 0⟩ : Vtx3 ℚ) panel' panelOut' := by
  refine (flat_axis panel_number' .y' .x' panel_plane' rfl rfl (by norm_num) (by norm_num) (by norm_num) panel_step').passes ?_ ?_
  · rw [panel_coords']
    exact ⟨by decide, hullSides_of_check (by decide +kernel), local_of_check (by decide +kernel), general_of_check (by decide +kernel)⟩
  · rw [panel_coords']
    exact clockwise_of_check (by decide +kernel)

/-- The hypotheses of `C102_space_axis` hold: a panel in `f64` and the same panel in `f32` with coordinates along other axes. -/
example (A B C : Vtx3 ℚ) : Spec.Occurs3 panel panelOut A B C ↔ Spec.Occurs3 panel' panelOut' A B C :=
  C102_space_axis 600 600 (fun _ => 1) (fun _ => 1) panel panel' ⟨0, -1, 0⟩ ⟨0, 0, -1⟩ ⟨-1, 0, 0⟩ _ _ _ _ 4 16 _ _ panel_number panel_number'
    .y' .z' .x' panel_plane rfl rfl rfl rfl (by norm_num) (by norm_num) (by norm_num) panel_step (by norm_num) (by norm_num) (by norm_num)
    panel_step' (fun q => List.Perm.mem_iff (show panel.Perm panel' by decide +kernel)) panel_good.toRGood panel_good' _ _ panel_run panel_run'
    panel_passes panel_passes' A B C

end Example

end CDT

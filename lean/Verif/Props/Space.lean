import Verif.Props.Axis
import Verif.Props.Certificate
import Verif.Props.Enclosing
import Verif.Props.RoundedC
import Verif.Props.Unique
import Verif.Props.Grid

/-!
# C101: results for vertices of a plane in space
-/

set_option linter.unusedSectionVars false

namespace CDT
open FloatOps Plane

variable {K : Type} [Field K] [LinearOrder K] [IsStrictOrderedRing K]

/-! ## Specification -/

namespace Spec

/-- `P` is in the plane of the triangle and strictly inside. -/
def InTriangle3 (n A B C P : Vtx3 K) : Prop := dot3 n P = dot3 n A ∧ area3 n A B P < 0 ∧ area3 n B C P < 0 ∧ area3 n C A P < 0

/-- `P` is in the plane of the triangle and inside or on the boundary. -/
def InClosedTriangle3 (n A B C P : Vtx3 K) : Prop := dot3 n P = dot3 n A ∧ area3 n A B P ≤ 0 ∧ area3 n B C P ≤ 0 ∧ area3 n C A P ≤ 0

/-- The sphere with center `M` through `A` passes through `B` and `C`. -/
def Center3 (M A B C : Vtx3 K) : Prop := dist3 M A = dist3 M B ∧ dist3 M A = dist3 M C

/-- The triangles turn clockwise as seen from the tip of the normal. -/
def Oriented3 (n : Vtx3 K) (vs : List (Vtx3 K)) (out : List (Nat × Nat × Nat)) : Prop :=
  ∀ t ∈ out, ∃ A B C, vs[t.1]? = some A ∧ vs[t.2.1]? = some B ∧ vs[t.2.2]? = some C ∧ area3 n A B C < 0

/-- No point of space is strictly inside two of the triangles. -/
def Disjoint3 (n : Vtx3 K) (vs : List (Vtx3 K)) (out : List (Nat × Nat × Nat)) : Prop :=
  ∀ (i j : Nat) (t u : Nat × Nat × Nat), i ≠ j → out[i]? = some t → out[j]? = some u → ∀ A B C A' B' C',
    vs[t.1]? = some A → vs[t.2.1]? = some B → vs[t.2.2]? = some C →
    vs[u.1]? = some A' → vs[u.2.1]? = some B' → vs[u.2.2]? = some C' →
    ∀ P, ¬ (InTriangle3 n A B C P ∧ InTriangle3 n A' B' C' P)

/-- Every triangle has a sphere through its corners, and no such sphere, wherever its center is, has a vertex inside. -/
def Delaunay3 (vs : List (Vtx3 K)) (out : List (Nat × Nat × Nat)) : Prop :=
  ∀ t ∈ out, ∃ A B C, vs[t.1]? = some A ∧ vs[t.2.1]? = some B ∧ vs[t.2.2]? = some C ∧
    (∃ M, Center3 M A B C) ∧ ∀ M, Center3 M A B C → ∀ D ∈ vs, dist3 M A ≤ dist3 M D

/-- Every point of a triangle between vertices is in a triangle of the result. -/
def Covers3 (n : Vtx3 K) (vs : List (Vtx3 K)) (out : List (Nat × Nat × Nat)) : Prop :=
  ∀ X ∈ vs, ∀ Y ∈ vs, ∀ Z ∈ vs, area3 n X Y Z < 0 → ∀ P, InClosedTriangle3 n X Y Z P →
    ∃ t ∈ out, ∃ A B C, vs[t.1]? = some A ∧ vs[t.2.1]? = some B ∧ vs[t.2.2]? = some C ∧ InClosedTriangle3 n A B C P

/-- Every point strictly inside a triangle between vertices is in a triangle of the result. -/
def CoversInner3 (n : Vtx3 K) (vs : List (Vtx3 K)) (out : List (Nat × Nat × Nat)) : Prop :=
  ∀ X ∈ vs, ∀ Y ∈ vs, ∀ Z ∈ vs, ∀ P, InTriangle3 n X Y Z P →
    ∃ t ∈ out, ∃ A B C, vs[t.1]? = some A ∧ vs[t.2.1]? = some B ∧ vs[t.2.2]? = some C ∧ InClosedTriangle3 n A B C P

/-- A side of a triangle that is no side of another one has no vertex on its outer side. -/
def HullSides3 (n : Vtx3 K) (vs : List (Vtx3 K)) (out : List (Nat × Nat × Nat)) : Prop :=
  ∀ t ∈ out, ∀ a b c, CornersOf t a b c → ∀ A B, vs[a]? = some A → vs[b]? = some B →
    (∃ u ∈ out, ∃ d, CornersOf u b a d) ∨ ∀ P ∈ vs, area3 n A B P ≤ 0

/-- The corner of a neighbor is not inside the spheres through the corners of a triangle. -/
def LocallyDelaunay3 (vs : List (Vtx3 K)) (out : List (Nat × Nat × Nat)) : Prop :=
  ∀ t ∈ out, ∀ u ∈ out, ∀ a b c d, CornersOf t a b c → CornersOf u b a d → ∀ A B C D,
    vs[a]? = some A → vs[b]? = some B → vs[c]? = some C → vs[d]? = some D →
    ∀ M, Center3 M A B C → dist3 M A ≤ dist3 M D

end Spec

/-! ## Geometry of a plane in space -/

open Spec (dot3 dist3 area3)

/-- A point of the plane of a triangle is the combination of its corners by areas. -/
theorem cramer3 {n A B C P : Vtx3 K} (hn : dot3 n n = 1) (hB : dot3 n B = dot3 n A) (hC : dot3 n C = dot3 n A) (hP : dot3 n P = dot3 n A) :
    area3 n A B C * P.x = area3 n B C P * A.x + area3 n C A P * B.x + area3 n A B P * C.x ∧
    area3 n A B C * P.y = area3 n B C P * A.y + area3 n C A P * B.y + area3 n A B P * C.y ∧
    area3 n A B C * P.z = area3 n B C P * A.z + area3 n C A P * B.z + area3 n A B P * C.z := by
  have det : (B.x - A.x) * ((C.y - A.y) * (P.z - A.z) - (C.z - A.z) * (P.y - A.y)) -
      (B.y - A.y) * ((C.x - A.x) * (P.z - A.z) - (C.z - A.z) * (P.x - A.x)) +
      (B.z - A.z) * ((C.x - A.x) * (P.y - A.y) - (C.y - A.y) * (P.x - A.x)) = 0 := by
    set D := (B.x - A.x) * ((C.y - A.y) * (P.z - A.z) - (C.z - A.z) * (P.y - A.y)) -
      (B.y - A.y) * ((C.x - A.x) * (P.z - A.z) - (C.z - A.z) * (P.x - A.x)) +
      (B.z - A.z) * ((C.x - A.x) * (P.y - A.y) - (C.y - A.y) * (P.x - A.x)) with hD
    have e : D * dot3 n n = area3 n A B C * (dot3 n P - dot3 n A) - area3 n C A P * (dot3 n B - dot3 n A) -
        area3 n A B P * (dot3 n C - dot3 n A) := by
      rw [hD]; unfold dot3 area3; ring
    rw [hn, hP, hB, hC] at e
    linear_combination e
  refine ⟨?_, ?_, ?_⟩
  · unfold area3; linear_combination n.x * det
  · unfold area3; linear_combination n.y * det
  · unfold area3; linear_combination n.z * det

/-- Areas with a point of the plane as corner. -/
theorem area_combo3 {n A B C P : Vtx3 K} (hn : dot3 n n = 1) (hB : dot3 n B = dot3 n A) (hC : dot3 n C = dot3 n A)
    (hP : dot3 n P = dot3 n A) (X Y : Vtx3 K) :
    area3 n A B C * area3 n X Y P = area3 n B C P * area3 n X Y A + area3 n C A P * area3 n X Y B + area3 n A B P * area3 n X Y C := by
  obtain ⟨hx, hy, hz⟩ := cramer3 hn hB hC hP
  have hS : area3 n A B C = area3 n B C P + area3 n C A P + area3 n A B P := by unfold area3; ring
  generalize area3 n A B C = S, area3 n B C P = w1, area3 n C A P = w2, area3 n A B P = w3 at *
  unfold area3
  subst hS
  linear_combination ((Y.z - X.z) * n.y - (Y.y - X.y) * n.z) * hx + ((Y.x - X.x) * n.z - (Y.z - X.z) * n.x) * hy +
    ((Y.y - X.y) * n.x - (Y.x - X.x) * n.y) * hz

/-- The sum of the products of two areas and the square of a distance: the power of the point with respect to the circle. -/
def pow3 (w1 w2 w3 ab bc ca : K) : K := w1 * w2 * ab + w2 * w3 * bc + w3 * w1 * ca

/-- Distances from a point of the plane. -/
theorem dist_combo3 {n A B C P : Vtx3 K} (hn : dot3 n n = 1) (hB : dot3 n B = dot3 n A) (hC : dot3 n C = dot3 n A)
    (hP : dot3 n P = dot3 n A) (M : Vtx3 K) :
    area3 n A B C ^ 2 * dist3 M P = area3 n A B C * (area3 n B C P * dist3 M A + area3 n C A P * dist3 M B + area3 n A B P * dist3 M C) -
      pow3 (area3 n B C P) (area3 n C A P) (area3 n A B P) (dist3 A B) (dist3 B C) (dist3 C A) := by
  obtain ⟨hx, hy, hz⟩ := cramer3 hn hB hC hP
  have hS : area3 n A B C = area3 n B C P + area3 n C A P + area3 n A B P := by unfold area3; ring
  have e : area3 n A B C ^ 2 * dist3 M P = (area3 n A B C * M.x - area3 n A B C * P.x) ^ 2 +
      (area3 n A B C * M.y - area3 n A B C * P.y) ^ 2 + (area3 n A B C * M.z - area3 n A B C * P.z) ^ 2 := by
    unfold dist3; ring
  rw [e, hx, hy, hz, hS]
  generalize area3 n B C P = w1, area3 n C A P = w2, area3 n A B P = w3 at *
  unfold dist3 pow3; ring

theorem dist_combo2 (a b c p m : Vtx K) :
    area2 a b c ^ 2 * dist2 m p = area2 a b c * (area2 b c p * dist2 m a + area2 c a p * dist2 m b + area2 a b p * dist2 m c) -
      pow3 (area2 b c p) (area2 c a p) (area2 a b p) (dist2 a b) (dist2 b c) (dist2 c a) := by
  unfold area2 dist2 pow3; ring

/-- Coordinates of vertices of a plane that preserve distances and signed areas. -/
structure Flat (n : Vtx3 K) (vs : List (Vtx3 K)) (pv : List (Vtx K)) : Prop where
  plane : Spec.Coplanar n vs
  len : pv.length = vs.length
  dist : ∀ (i j : Nat) (A B : Vtx3 K) (p q : Vtx K), vs[i]? = some A → vs[j]? = some B → pv[i]? = some p → pv[j]? = some q →
    dist2 p q = dist3 A B
  area : ∀ (i j k : Nat) (A B C : Vtx3 K) (p q r : Vtx K), vs[i]? = some A → vs[j]? = some B → vs[k]? = some C →
    pv[i]? = some p → pv[j]? = some q → pv[k]? = some r → area2 p q r = area3 n A B C

namespace Flat
variable {n : Vtx3 K} {vs : List (Vtx3 K)} {pv : List (Vtx K)} (h : Flat n vs pv)
include h

theorem up {i : Nat} {p : Vtx K} (g : pv[i]? = some p) : ∃ A, vs[i]? = some A := by
  obtain ⟨hi, -⟩ := List.getElem?_eq_some_iff.1 g
  exact ⟨_, List.getElem?_eq_getElem (h.len ▸ hi)⟩

theorem down {i : Nat} {A : Vtx3 K} (g : vs[i]? = some A) : ∃ p, pv[i]? = some p := by
  obtain ⟨hi, -⟩ := List.getElem?_eq_some_iff.1 g
  exact ⟨_, List.getElem?_eq_getElem (h.len.symm ▸ hi)⟩

theorem dot {i j : Nat} {A B : Vtx3 K} (gA : vs[i]? = some A) (gB : vs[j]? = some B) : dot3 n A = dot3 n B :=
  h.plane.2 A (List.mem_of_getElem? gA) B (List.mem_of_getElem? gB)

/-- The coordinates of a point of the plane. -/
theorem point {i j k : Nat} {A B C P : Vtx3 K} (gA : vs[i]? = some A) (gB : vs[j]? = some B) (gC : vs[k]? = some C)
    (hc : area3 n A B C ≠ 0) (hP : dot3 n P = dot3 n A) :
    ∃ p : Vtx K, ∀ (x y : Nat) (X Y : Vtx3 K) (u v : Vtx K), vs[x]? = some X → vs[y]? = some Y → pv[x]? = some u → pv[y]? = some v →
      area2 u v p = area3 n X Y P := by
  obtain ⟨a, ga⟩ := h.down gA
  obtain ⟨b, gb⟩ := h.down gB
  obtain ⟨c, gc⟩ := h.down gC
  set S := area3 n A B C with hS
  refine ⟨⟨(area3 n B C P * a.x + area3 n C A P * b.x + area3 n A B P * c.x) / S,
    (area3 n B C P * a.y + area3 n C A P * b.y + area3 n A B P * c.y) / S⟩, ?_⟩
  intro x y X Y u v gX gY gu gv
  have e := area_combo3 h.plane.1 (h.dot gB gA) (h.dot gC gA) hP X Y
  rw [← h.area x y i X Y A u v a gX gY gA gu gv ga, ← h.area x y j X Y B u v b gX gY gB gu gv gb,
    ← h.area x y k X Y C u v c gX gY gC gu gv gc, ← hS] at e
  have hs : S = area3 n B C P + area3 n C A P + area3 n A B P := by rw [hS]; unfold area3; ring
  apply mul_left_cancel₀ hc
  rw [e]
  generalize area3 n B C P = w1, area3 n C A P = w2, area3 n A B P = w3 at *
  unfold area2
  field_simp
  rw [hs]
  ring

/-- A vertex is inside a sphere through three vertices if and only if its coordinates are inside the circle. -/
theorem inside {i j k l : Nat} {A B C D : Vtx3 K} {a b c d m : Vtx K} {M : Vtx3 K} (gA : vs[i]? = some A) (gB : vs[j]? = some B)
    (gC : vs[k]? = some C) (gD : vs[l]? = some D) (ga : pv[i]? = some a) (gb : pv[j]? = some b) (gc : pv[k]? = some c)
    (gd : pv[l]? = some d) (hc : area2 a b c ≠ 0) (hM : Spec.Center3 M A B C) (hm : Circumcenter m a b c) :
    dist3 M D < dist3 M A ↔ dist2 m d < dist2 m a := by
  have e3 := dist_combo3 h.plane.1 (h.dot gB gA) (h.dot gC gA) (h.dot gD gA) M
  have e2 := dist_combo2 a b c d m
  rw [h.dist i j A B a b gA gB ga gb, h.dist j k B C b c gB gC gb gc, h.dist k i C A c a gC gA gc ga, h.area j k l B C D b c d gB gC gD gb gc gd,
    h.area k i l C A D c a d gC gA gD gc ga gd, h.area i j l A B D a b d gA gB gD ga gb gd, h.area i j k A B C a b c gA gB gC ga gb gc, ← hm.1, ← hm.2] at e2
  rw [← hM.1, ← hM.2] at e3
  rw [h.area i j k A B C a b c gA gB gC ga gb gc] at hc
  have hs : area3 n A B C = area3 n B C D + area3 n C A D + area3 n A B D := by unfold area3; ring
  have hp : 0 < area3 n A B C ^ 2 := by positivity
  generalize area3 n A B C = S, area3 n B C D = w1, area3 n C A D = w2, area3 n A B D = w3 at *
  rw [← mul_lt_mul_iff_right₀ hp, ← mul_lt_mul_iff_right₀ (a := S ^ 2) (b := dist2 m d) hp, e3, e2]
  have k3 : S * (w1 * dist3 M A + w2 * dist3 M A + w3 * dist3 M A) = S ^ 2 * dist3 M A := by rw [hs]; ring
  have k2 : S * (w1 * dist2 m a + w2 * dist2 m a + w3 * dist2 m a) = S ^ 2 * dist2 m a := by rw [hs]; ring
  rw [k3, k2]
  constructor <;> intro <;> linarith

/-- Three vertices not on a line have a sphere through them. -/
theorem center {i j k : Nat} {A B C : Vtx3 K} (gA : vs[i]? = some A) (gB : vs[j]? = some B) (gC : vs[k]? = some C)
    (hc : area3 n A B C ≠ 0) : ∃ M, Spec.Center3 M A B C := by
  obtain ⟨a, ga⟩ := h.down gA
  obtain ⟨b, gb⟩ := h.down gB
  obtain ⟨c, gc⟩ := h.down gC
  have e := h.area i j k A B C a b c gA gB gC ga gb gc
  obtain ⟨m, hm⟩ := exists_circumcenter a b c (by rw [e]; exact hc)
  have hs : area2 a b c = area2 b c m + area2 c a m + area2 a b m := by unfold area2; ring
  have hd1 := h.dist i j A B a b gA gB ga gb
  have hd2 := h.dist j k B C b c gB gC gb gc
  have hd3 := h.dist k i C A c a gC gA gc ga
  set S := area2 a b c with hS
  have hc' : S ≠ 0 := by rw [e]; exact hc
  set w1 := area2 b c m; set w2 := area2 c a m; set w3 := area2 a b m
  set M : Vtx3 K := ⟨(w1 * A.x + w2 * B.x + w3 * C.x) / S, (w1 * A.y + w2 * B.y + w3 * C.y) / S, (w1 * A.z + w2 * B.z + w3 * C.z) / S⟩ with hMd
  have key3 : ∀ X : Vtx3 K, S ^ 2 * dist3 X M = S * (w1 * dist3 X A + w2 * dist3 X B + w3 * dist3 X C) -
      pow3 w1 w2 w3 (dist3 A B) (dist3 B C) (dist3 C A) := by
    intro X
    have : S ^ 2 * dist3 X M = (S * X.x - (w1 * A.x + w2 * B.x + w3 * C.x)) ^ 2 + (S * X.y - (w1 * A.y + w2 * B.y + w3 * C.y)) ^ 2 +
        (S * X.z - (w1 * A.z + w2 * B.z + w3 * C.z)) ^ 2 := by
      simp only [dist3, hMd]
      field_simp
    rw [this, hs]
    unfold dist3 pow3; ring
  have key2 : ∀ x : Vtx K, S ^ 2 * dist2 x m = S * (w1 * dist2 x a + w2 * dist2 x b + w3 * dist2 x c) -
      pow3 w1 w2 w3 (dist2 a b) (dist2 b c) (dist2 c a) := fun x => dist_combo2 a b c m x
  have same : ∀ (l : Nat) (X : Vtx3 K) (x : Vtx K), vs[l]? = some X → pv[l]? = some x → dist3 M X = dist2 m x := by
    intro l X x gX gx
    have k3 := key3 X
    have k2 := key2 x
    rw [h.dist l i X A x a gX gA gx ga, h.dist l j X B x b gX gB gx gb, h.dist l k X C x c gX gC gx gc, hd1, hd2, hd3] at k2
    have : S ^ 2 * dist3 X M = S ^ 2 * dist2 x m := by rw [k3, k2]
    have := mul_left_cancel₀ (pow_ne_zero 2 hc') this
    have s3 : dist3 M X = dist3 X M := by unfold dist3; ring
    have s2 : dist2 m x = dist2 x m := by unfold dist2; ring
    rw [s3, this, s2]
  exact ⟨M, by rw [same i A a gA ga, same j B b gB gb]; exact hm.1, by rw [same i A a gA ga, same k C c gC gc]; exact hm.2⟩

variable {out : List Out}

theorem oriented (hc : ∀ a b c, (a, b, c) ∈ out → ∃ A B C, pv[a]? = some A ∧ pv[b]? = some B ∧ pv[c]? = some C ∧ Clockwise A B C) :
    Spec.Oriented3 n vs out := by
  rintro ⟨i, j, k⟩ ht
  obtain ⟨a, b, c, ga, gb, gc, hcw⟩ := hc i j k ht
  obtain ⟨A, gA⟩ := h.up ga
  obtain ⟨B, gB⟩ := h.up gb
  obtain ⟨C, gC⟩ := h.up gc
  refine ⟨A, B, C, gA, gB, gC, ?_⟩
  rw [← h.area i j k A B C a b c gA gB gC ga gb gc]
  exact hcw

theorem disjoint (hd : ∀ (i j : Nat), i ≠ j → ∀ a b c a' b' c', out[i]? = some (a, b, c) → out[j]? = some (a', b', c') →
      ∀ A B C A' B' C', pv[a]? = some A → pv[b]? = some B → pv[c]? = some C → pv[a']? = some A' → pv[b']? = some B' →
        pv[c']? = some C' → ∀ q, ¬ (InTriangle A B C q ∧ InTriangle A' B' C' q)) : Spec.Disjoint3 n vs out := by
  rintro i j ⟨a, b, c⟩ ⟨a', b', c'⟩ hij hi hj A B C A' B' C' gA gB gC gA' gB' gC' P ⟨⟨hP, p1, p2, p3⟩, -, q1, q2, q3⟩
  obtain ⟨x, gx⟩ := h.down gA
  obtain ⟨y, gy⟩ := h.down gB
  obtain ⟨z, gz⟩ := h.down gC
  obtain ⟨x', gx'⟩ := h.down gA'
  obtain ⟨y', gy'⟩ := h.down gB'
  obtain ⟨z', gz'⟩ := h.down gC'
  have hS : area3 n A B C = area3 n B C P + area3 n C A P + area3 n A B P := by unfold area3; ring
  obtain ⟨p, hp⟩ := h.point gA gB gC (by rw [hS]; linarith) hP
  refine hd i j hij a b c a' b' c' hi hj x y z x' y' z' gx gy gz gx' gy' gz' p ⟨⟨?_, ?_, ?_⟩, ?_, ?_, ?_⟩ <;> unfold Clockwise
  · rw [hp a b A B x y gA gB gx gy]; exact p1
  · rw [hp b c B C y z gB gC gy gz]; exact p2
  · rw [hp c a C A z x gC gA gz gx]; exact p3
  · rw [hp a' b' A' B' x' y' gA' gB' gx' gy']; exact q1
  · rw [hp b' c' B' C' y' z' gB' gC' gy' gz']; exact q2
  · rw [hp c' a' C' A' z' x' gC' gA' gz' gx']; exact q3

theorem hullSides (hs : Spec.HullSides3 n vs out) : Spec.HullSides pv out := by
  intro t ht a b c hc x y gx gy
  obtain ⟨A, gA⟩ := h.up gx
  obtain ⟨B, gB⟩ := h.up gy
  refine (hs t ht a b c hc A B gA gB).imp id fun hall p hp => ?_
  obtain ⟨k, gk⟩ := List.getElem?_of_mem hp
  obtain ⟨P, gP⟩ := h.up gk
  rw [h.area a b k A B P x y p gA gB gP gx gy gk]
  exact hall P (List.mem_of_getElem? gP)

theorem locally (hl : Spec.LocallyDelaunay3 vs out)
    (hcw : ∀ t ∈ out, ∀ a b c, Spec.CornersOf t a b c → ∀ A B C, vs[a]? = some A → vs[b]? = some B → vs[c]? = some C → area3 n A B C ≠ 0) :
    Spec.LocallyDelaunay pv [] out := by
  intro t ht u hu a b c d hc hd x y z w gx gy gz gw _ ⟨m, hm, hlt⟩
  obtain ⟨A, gA⟩ := h.up gx
  obtain ⟨B, gB⟩ := h.up gy
  obtain ⟨C, gC⟩ := h.up gz
  obtain ⟨D, gD⟩ := h.up gw
  have h0 := hcw t ht a b c hc A B C gA gB gC
  obtain ⟨M, hM⟩ := h.center gA gB gC h0
  have := (h.inside gA gB gC gD gx gy gz gw (by rw [h.area a b c A B C x y z gA gB gC gx gy gz]; exact h0) hM hm).2 hlt
  exact absurd (hl t ht u hu a b c d hc hd A B C D gA gB gC gD M hM) this.not_ge

theorem delaunay (hd : Spec.Delaunay pv out) : Spec.Delaunay3 vs out := by
  intro t ht
  obtain ⟨a, b, c, ga, gb, gc, hcw, hem⟩ := hd t ht
  obtain ⟨A, gA⟩ := h.up ga
  obtain ⟨B, gB⟩ := h.up gb
  obtain ⟨C, gC⟩ := h.up gc
  have h2 : area2 a b c ≠ 0 := hcw.ne
  have h3 : area3 n A B C ≠ 0 := by rw [← h.area _ _ _ A B C a b c gA gB gC ga gb gc]; exact h2
  refine ⟨A, B, C, gA, gB, gC, h.center gA gB gC h3, fun M hM D hD => not_lt.1 fun hlt => ?_⟩
  obtain ⟨k, gD⟩ := List.getElem?_of_mem hD
  obtain ⟨d, gd⟩ := h.down gD
  obtain ⟨m, hm⟩ := exists_circumcenter a b c h2
  exact hem d (List.mem_of_getElem? gd) ⟨m, hm, (h.inside gA gB gC gD ga gb gc gd h2 hM hm).1 hlt⟩

theorem covered {i : Nat} {X P : Vtx3 K} {p : Vtx K} (gX : vs[i]? = some X) (hP : dot3 n P = dot3 n X)
    (hp : ∀ (x y : Nat) (X Y : Vtx3 K) (u v : Vtx K), vs[x]? = some X → vs[y]? = some Y → pv[x]? = some u → pv[y]? = some v →
      area2 u v p = area3 n X Y P) (hc : Spec.Covered pv out p) :
    ∃ t ∈ out, ∃ A B C, vs[t.1]? = some A ∧ vs[t.2.1]? = some B ∧ vs[t.2.2]? = some C ∧ Spec.InClosedTriangle3 n A B C P := by
  obtain ⟨t, ht, a, b, c, ga, gb, gc, q1, q2, q3⟩ := hc
  obtain ⟨A, gA⟩ := h.up ga
  obtain ⟨B, gB⟩ := h.up gb
  obtain ⟨C, gC⟩ := h.up gc
  refine ⟨t, ht, A, B, C, gA, gB, gC, by rw [hP]; exact h.dot gX gA, ?_, ?_, ?_⟩
  · rw [← hp _ _ A B a b gA gB ga gb]; exact q1
  · rw [← hp _ _ B C b c gB gC gb gc]; exact q2
  · rw [← hp _ _ C A c a gC gA gc ga]; exact q3

theorem covers (hcov : Spec.CoversConvex pv out) : Spec.Covers3 n vs out := by
  intro X hX Y hY Z hZ hc P ⟨hP, p1, p2, p3⟩
  obtain ⟨i, gX⟩ := List.getElem?_of_mem hX
  obtain ⟨j, gY⟩ := List.getElem?_of_mem hY
  obtain ⟨k, gZ⟩ := List.getElem?_of_mem hZ
  obtain ⟨x, gx⟩ := h.down gX
  obtain ⟨y, gy⟩ := h.down gY
  obtain ⟨z, gz⟩ := h.down gZ
  obtain ⟨p, hp⟩ := h.point gX gY gZ hc.ne hP
  have hcw : Clockwise x y z := by
    unfold Clockwise; rw [h.area i j k X Y Z x y z gX gY gZ gx gy gz]; exact hc
  have hin : InClosedTriangle x y z p := by
    refine ⟨?_, ?_, ?_⟩
    · rw [hp i j X Y x y gX gY gx gy]; exact p1
    · rw [hp j k Y Z y z gY gZ gy gz]; exact p2
    · rw [hp k i Z X z x gZ gX gz gx]; exact p3
  exact h.covered gX hP hp
    (hcov p (closed_in_hull hcw (List.mem_of_getElem? gx) (List.mem_of_getElem? gy) (List.mem_of_getElem? gz) hin))

theorem coversInner {x0 x1 y0 y1 : K} (hr : ∀ p ∈ pv, x0 ≤ p.x ∧ p.x ≤ x1 ∧ y0 ≤ p.y ∧ p.y ≤ y1)
    (hcov : Spec.Covers pv out x0 x1 y0 y1) : Spec.CoversInner3 n vs out := by
  intro X hX Y hY Z hZ P ⟨hP, p1, p2, p3⟩
  obtain ⟨i, gX⟩ := List.getElem?_of_mem hX
  obtain ⟨j, gY⟩ := List.getElem?_of_mem hY
  obtain ⟨k, gZ⟩ := List.getElem?_of_mem hZ
  obtain ⟨x, gx⟩ := h.down gX
  obtain ⟨y, gy⟩ := h.down gY
  obtain ⟨z, gz⟩ := h.down gZ
  have hS : area3 n X Y Z = area3 n Y Z P + area3 n Z X P + area3 n X Y P := by unfold area3; ring
  obtain ⟨p, hp⟩ := h.point gX gY gZ (by rw [hS]; linarith) hP
  rw [← hp i j X Y x y gX gY gx gy] at p1
  rw [← hp j k Y Z y z gY gZ gy gz] at p2
  rw [← hp k i Z X z x gZ gX gz gx] at p3
  obtain ⟨a1, a2, a3, a4⟩ := hr x (List.mem_of_getElem? gx)
  obtain ⟨b1, b2, b3, b4⟩ := hr y (List.mem_of_getElem? gy)
  obtain ⟨c1, c2, c3, c4⟩ := hr z (List.mem_of_getElem? gz)
  have s1 : (area2 x y p + area2 y z p + area2 z x p) * p.x = area2 y z p * x.x + area2 z x p * y.x + area2 x y p * z.x := by
    unfold area2; ring
  have s2 : (area2 x y p + area2 y z p + area2 z x p) * p.y = area2 y z p * x.y + area2 z x p * y.y + area2 x y p * z.y := by
    unfold area2; ring
  have n0 : ¬ (x.x = y.x ∧ y.x = z.x) := by
    rintro ⟨e1, e2⟩
    have : area2 x y p + area2 y z p + area2 z x p = 0 := by unfold area2; rw [← e2, ← e1]; ring
    linarith
  have n1 : ¬ (x.y = y.y ∧ y.y = z.y) := by
    rintro ⟨e1, e2⟩
    have : area2 x y p + area2 y z p + area2 z x p = 0 := by unfold area2; rw [← e2, ← e1]; ring
    linarith
  refine h.covered gX hP hp (hcov p ?_ ?_ ?_ ?_)
  · by_contra hn
    refine n0 ?_
    have := mul_nonneg_of_nonpos_of_nonpos p1.le (by linarith : x0 - z.x ≤ 0)
    have := mul_nonneg_of_nonpos_of_nonpos p2.le (by linarith : x0 - x.x ≤ 0)
    have := mul_nonneg_of_nonpos_of_nonpos p3.le (by linarith : x0 - y.x ≤ 0)
    have := mul_nonneg_of_nonpos_of_nonpos (by linarith : area2 x y p + area2 y z p + area2 z x p ≤ 0) (by linarith : p.x - x0 ≤ 0)
    have e1 : area2 x y p * (x0 - z.x) = 0 := by linarith
    have e2 : area2 y z p * (x0 - x.x) = 0 := by linarith
    have e3 : area2 z x p * (x0 - y.x) = 0 := by linarith
    have := (mul_eq_zero.1 e1).resolve_left p1.ne
    have := (mul_eq_zero.1 e2).resolve_left p2.ne
    have := (mul_eq_zero.1 e3).resolve_left p3.ne
    constructor <;> linarith
  · by_contra hn
    refine n0 ?_
    have := mul_nonneg_of_nonpos_of_nonpos p1.le (by linarith : z.x - x1 ≤ 0)
    have := mul_nonneg_of_nonpos_of_nonpos p2.le (by linarith : x.x - x1 ≤ 0)
    have := mul_nonneg_of_nonpos_of_nonpos p3.le (by linarith : y.x - x1 ≤ 0)
    have := mul_nonneg_of_nonpos_of_nonpos (by linarith : area2 x y p + area2 y z p + area2 z x p ≤ 0) (by linarith : x1 - p.x ≤ 0)
    have e1 : area2 x y p * (z.x - x1) = 0 := by linarith
    have e2 : area2 y z p * (x.x - x1) = 0 := by linarith
    have e3 : area2 z x p * (y.x - x1) = 0 := by linarith
    have := (mul_eq_zero.1 e1).resolve_left p1.ne
    have := (mul_eq_zero.1 e2).resolve_left p2.ne
    have := (mul_eq_zero.1 e3).resolve_left p3.ne
    constructor <;> linarith
  · by_contra hn
    refine n1 ?_
    have := mul_nonneg_of_nonpos_of_nonpos p1.le (by linarith : y0 - z.y ≤ 0)
    have := mul_nonneg_of_nonpos_of_nonpos p2.le (by linarith : y0 - x.y ≤ 0)
    have := mul_nonneg_of_nonpos_of_nonpos p3.le (by linarith : y0 - y.y ≤ 0)
    have := mul_nonneg_of_nonpos_of_nonpos (by linarith : area2 x y p + area2 y z p + area2 z x p ≤ 0) (by linarith : p.y - y0 ≤ 0)
    have e1 : area2 x y p * (y0 - z.y) = 0 := by linarith
    have e2 : area2 y z p * (y0 - x.y) = 0 := by linarith
    have e3 : area2 z x p * (y0 - y.y) = 0 := by linarith
    have := (mul_eq_zero.1 e1).resolve_left p1.ne
    have := (mul_eq_zero.1 e2).resolve_left p2.ne
    have := (mul_eq_zero.1 e3).resolve_left p3.ne
    constructor <;> linarith
  · by_contra hn
    refine n1 ?_
    have := mul_nonneg_of_nonpos_of_nonpos p1.le (by linarith : z.y - y1 ≤ 0)
    have := mul_nonneg_of_nonpos_of_nonpos p2.le (by linarith : x.y - y1 ≤ 0)
    have := mul_nonneg_of_nonpos_of_nonpos p3.le (by linarith : y.y - y1 ≤ 0)
    have := mul_nonneg_of_nonpos_of_nonpos (by linarith : area2 x y p + area2 y z p + area2 z x p ≤ 0) (by linarith : y1 - p.y ≤ 0)
    have e1 : area2 x y p * (z.y - y1) = 0 := by linarith
    have e2 : area2 y z p * (x.y - y1) = 0 := by linarith
    have e3 : area2 z x p * (y.y - y1) = 0 := by linarith
    have := (mul_eq_zero.1 e1).resolve_left p1.ne
    have := (mul_eq_zero.1 e2).resolve_left p2.ne
    have := (mul_eq_zero.1 e3).resolve_left p3.ne
    constructor <;> linarith

end Flat

/-! ## Theorems -/

section
variable [IdCfg] [ExactParams K]

/-- What a result for the coordinates is for the vertices in space. -/
theorem Flat.result {n : Vtx3 K} {vs : List (Vtx3 K)} {pv : List (Vtx K)} (hF : Flat n vs pv) {fuel : Nat} {bins : Nat → Nat}
    (h : Good fuel bins pv) {out : List Out} (ho : triangulation2d fuel bins pv = .ok out) :
    Spec.Oriented3 n vs out ∧ Spec.Disjoint3 n vs out ∧
      (out ≠ [] → Spec.HullSides3 n vs out → Spec.LocallyDelaunay3 vs out → Spec.Delaunay3 vs out ∧ Spec.Covers3 n vs out) := by
  have hor := hF.oriented (C03_clockwise fuel bins pv h out ho)
  refine ⟨hor, hF.disjoint fun i j hij a b c a' b' c' hi hj A B C A' B' C' gA gB gC gA' gB' gC' q =>
    C04_disjoint_partial fuel bins pv h out ho i j hij a b c a' b' c' hi hj A B C A' B' C' gA gB gC gA' gB' gC' q, ?_⟩
  intro hne hs hl
  have hs2 := hF.hullSides hs
  have hl2 := hF.locally hl (by
    intro t ht a b c hc A B C gA gB gC
    obtain ⟨A', B', C', gA', gB', gC', hlt⟩ := hor t ht
    have r1 : area3 n B C A = area3 n A B C := by unfold area3; ring
    have r2 : area3 n C A B = area3 n A B C := by unfold area3; ring
    rcases hc with rfl | rfl | rfl <;> simp only [gA, gB, gC, Option.some.injEq] at gA' gB' gC' <;> subst gA' <;> subst gB' <;> subst gC'
    · exact hlt.ne
    · rw [← r1]; exact hlt.ne
    · rw [← r2]; exact hlt.ne)
  exact ⟨hF.delaunay (C74_delaunay fuel bins pv h out ho hs2 hl2), hF.covers (C74_covers fuel bins pv h out ho hne hs2)⟩

end

section
variable [IdCfg]

theorem triangulation3d_of {F : Type} [FloatOps F] (fuel : Nat) (bins : Nat → Nat) {vs : List (Vtx3 F)} {n : Vtx3 F} {pv : List (Vtx F)}
    (ht : transformTo2d vs n = .ok pv) (hl : pv.length = vs.length) : triangulation3d fuel bins vs n = triangulation2d fuel bins pv := by
  unfold triangulation3d
  split
  · rw [triangulation2d, if_pos (by omega)]
  · rw [ht, Res.ok_bind]

theorem constrained3d_of {F : Type} [FloatOps F] (fuel : Nat) (bins : Nat → Nat) {vs : List (Vtx3 F)} {n : Vtx3 F} {pv : List (Vtx F)}
    (es : List Edge) (ht : transformTo2d vs n = .ok pv) (hl : pv.length = vs.length) :
    constrained3d fuel bins vs n es = constrained2d fuel bins pv es := by
  unfold constrained3d
  split
  · rw [constrained2d, if_pos (by omega)]
  · rw [ht, Res.ok_bind]

/-- **C101**, over the reals: the triangles of a plane in space turn clockwise as seen from the tip of the normal and have no
inner point in common; if the sides and the neighbors pass the tests, all spheres through the corners of a triangle are empty
and the triangles cover everything between the vertices. -/
theorem C101_real (fuel : Nat) (bins : Nat → Nat) (vs : List (Vtx3 ℝ)) (n v0 v1 : Vtx3 ℝ) (hc : Spec.Coplanar n vs)
    (h0 : vs[0]? = some v0) (h1 : vs[1]? = some v1) (hne : v0 ≠ v1) (pv : List (Vtx ℝ)) (ht : transformTo2d vs n = .ok pv)
    (h : Good fuel bins pv) (out : List Out) (ho : triangulation3d fuel bins vs n = .ok out) :
    Spec.Oriented3 n vs out ∧ Spec.Disjoint3 n vs out ∧
      (out ≠ [] → Spec.HullSides3 n vs out → Spec.LocallyDelaunay3 vs out → Spec.Delaunay3 vs out ∧ Spec.Covers3 n vs out) := by
  obtain ⟨pv', ht', hl, h2, h3⟩ := transformTo2d_spec vs n v0 v1 hc h0 h1 hne
  obtain rfl : pv = pv' := by rw [ht] at ht'; simpa using ht'
  rw [triangulation3d_of fuel bins ht hl] at ho
  exact Flat.result ⟨hc, hl, h2, h3⟩ h ho

/-- **C101**, over the reals, with constraints. -/
theorem C101_real_constrained (fuel : Nat) (bins : Nat → Nat) (vs : List (Vtx3 ℝ)) (n v0 v1 : Vtx3 ℝ) (hc : Spec.Coplanar n vs)
    (h0 : vs[0]? = some v0) (h1 : vs[1]? = some v1) (hne : v0 ≠ v1) (pv : List (Vtx ℝ)) (ht : transformTo2d vs n = .ok pv)
    (h : Good fuel bins pv) (es : List Edge) (out : List Out) (ho : constrained3d fuel bins vs n es = .ok out) :
    Spec.Oriented3 n vs out ∧ Spec.Disjoint3 n vs out := by
  obtain ⟨pv', ht', hl, h2, h3⟩ := transformTo2d_spec vs n v0 v1 hc h0 h1 hne
  obtain rfl : pv = pv' := by rw [ht] at ht'; simpa using ht'
  rw [constrained3d_of fuel bins es ht hl] at ho
  have hF : Flat n vs pv := ⟨hc, hl, h2, h3⟩
  exact ⟨hF.oriented (C30_output_clockwise fuel bins pv h es out ho),
    hF.disjoint fun i j hij a b c a' b' c' hi hj A B C A' B' C' gA gB gC gA' gB' gC' q =>
      C30_output_disjoint fuel bins pv h es out ho i j hij a b c a' b' c' hi hj A B C A' B' C' gA gB gC gA' gB' gC' q⟩

variable {f : Fmt} [Fl.Ok f]

theorem flat_axis {vs : List (Vtx3 ℚ)} {n a v0 v1 : Vtx3 ℚ} {δ : ℚ} (hv : ∀ v ∈ vs, v.Number f)
    (hn : Spec.Axis n) (ha : Spec.Axis a) (hc : Spec.Coplanar n vs) (h0 : vs[0]? = some v0) (h1 : vs[1]? = some v1)
    (hx : v0.x - v1.x = δ * a.x) (hy : v0.y - v1.y = δ * a.y) (hz : v0.z - v1.z = δ * a.z) (hδ : UnitStep f δ) :
    Flat n vs (Spec.coords a n vs) := by
  obtain ⟨-, -, -, h2, h3⟩ := C64_coords 0 (fun _ => 0) vs n a v0 v1 δ hv hn ha hc h0 h1 hx hy hz hδ
  exact ⟨hc, by simp [Spec.coords], h2, h3⟩

/-- **C101**, IEEE formats: vertices of a plane parallel to two axes. -/
theorem C101_axis (fuel : Nat) (bins : Nat → Nat) (vs : List (Vtx3 ℚ)) (n a v0 v1 : Vtx3 ℚ) (δ W : ℚ) (hv : ∀ v ∈ vs, v.Number f)
    (hn : Spec.Axis n) (ha : Spec.Axis a) (hc : Spec.Coplanar n vs) (h0 : vs[0]? = some v0) (h1 : vs[1]? = some v1)
    (hx : v0.x - v1.x = δ * a.x) (hy : v0.y - v1.y = δ * a.y) (hz : v0.z - v1.z = δ * a.z) (hδ : UnitStep f δ)
    (h : Rounded.RGood fuel bins (flVerts f (Spec.coords a n vs)) (Spec.coords a n vs) W) (out : List Out)
    (ho : triangulation3d fuel bins (vs.map (flVtx3 f)) (flVtx3 f n) = .ok out) :
    Spec.Oriented3 n vs out ∧ Spec.Disjoint3 n vs out ∧
      (out ≠ [] → Spec.HullSides3 n vs out → Spec.LocallyDelaunay3 vs out → Spec.Delaunay3 vs out ∧ Spec.Covers3 n vs out) := by
  obtain ⟨-, hr, -⟩ := C64_coords fuel bins vs n a v0 v1 δ hv hn ha hc h0 h1 hx hy hz hδ
  have hF := flat_axis hv hn ha hc h0 h1 hx hy hz hδ
  let P := Rounded.params (Fl f) (bins (flVerts f (Spec.coords a n vs)).length) W (Rounded.scaleVal (flVerts f (Spec.coords a n vs)))
  rw [hr, h.run] at ho
  exact hF.result h.good ho

/-- **C101**, IEEE formats, with constraints. -/
theorem C101_axis_constrained (fuel : Nat) (bins : Nat → Nat) (vs : List (Vtx3 ℚ)) (n a v0 v1 : Vtx3 ℚ) (δ W : ℚ) (hv : ∀ v ∈ vs, v.Number f)
    (hn : Spec.Axis n) (ha : Spec.Axis a) (hc : Spec.Coplanar n vs) (h0 : vs[0]? = some v0) (h1 : vs[1]? = some v1)
    (hx : v0.x - v1.x = δ * a.x) (hy : v0.y - v1.y = δ * a.y) (hz : v0.z - v1.z = δ * a.z) (hδ : UnitStep f δ)
    (h : Rounded.RGoodC fuel bins (flVerts f (Spec.coords a n vs)) (Spec.coords a n vs) W) (es : List Edge) (out : List Out)
    (ho : constrained3d fuel bins (vs.map (flVtx3 f)) (flVtx3 f n) es = .ok out) :
    Spec.Oriented3 n vs out ∧ Spec.Disjoint3 n vs out := by
  obtain ⟨-, -, hr, -⟩ := C64_coords fuel bins vs n a v0 v1 δ hv hn ha hc h0 h1 hx hy hz hδ
  have hF := flat_axis hv hn ha hc h0 h1 hx hy hz hδ
  rw [hr es] at ho
  obtain ⟨k1, k2, -⟩ := C30_rounded_output h es out ho
  exact ⟨hF.oriented k1, hF.disjoint k2⟩

/-- **C101**, IEEE formats: if the vertices contain the corners of a rectangle around the others and there is one bin, there is
a result and it is Delaunay in space and covers the rectangle. -/
theorem C101_framed (hcfg : RealCfg) (fuel : Nat) (bins : Nat → Nat) (vs : List (Vtx3 ℚ)) (n a v0 v1 : Vtx3 ℚ) (δ W : ℚ)
    (hv : ∀ v ∈ vs, v.Number f) (hn : Spec.Axis n) (ha : Spec.Axis a) (hc : Spec.Coplanar n vs) (h0 : vs[0]? = some v0)
    (h1 : vs[1]? = some v1) (hx : v0.x - v1.x = δ * a.x) (hy : v0.y - v1.y = δ * a.y) (hz : v0.z - v1.z = δ * a.z) (hδ : UnitStep f δ)
    (h : Rounded.RGood fuel bins (flVerts f (Spec.coords a n vs)) (Spec.coords a n vs) W) (hb : bins vs.length = 1)
    (x0 x1 y0 y1 : ℚ) (hf : Spec.Framed (Spec.coords a n vs) x0 x1 y0 y1) :
    ∃ out, triangulation3d fuel bins (vs.map (flVtx3 f)) (flVtx3 f n) = .ok out ∧
      Spec.Oriented3 n vs out ∧ Spec.Disjoint3 n vs out ∧ Spec.Delaunay3 vs out ∧ Spec.CoversInner3 n vs out := by
  have hF := flat_axis hv hn ha hc h0 h1 hx hy hz hδ
  obtain ⟨out, ho, hd, hcov⟩ := C53_framed_rounded hcfg fuel bins _ _ W h (by simpa [flVerts, Spec.coords] using hb) x0 x1 y0 y1 hf
  obtain ⟨-, hr, -⟩ := C64_coords fuel bins vs n a v0 v1 δ hv hn ha hc h0 h1 hx hy hz hδ
  rw [← hr] at ho
  obtain ⟨k1, k2, -⟩ := C101_axis fuel bins vs n a v0 v1 δ W hv hn ha hc h0 h1 hx hy hz hδ h out ho
  exact ⟨out, ho, k1, k2, hF.delaunay hd, hF.coversInner (framed_range hf) hcov⟩
end
end CDT

/-! ## Examples -/

namespace CDT
open Plane Rounded

local instance spaceCfg : IdCfg := u32Cfg

/-- Vertices in a rectangle of the plane `y = 7`, with its corners, seen from the side of negative `y`. -/
def panel : List (Vtx3 ℚ) := [⟨2, 7, 1⟩, ⟨2, 7, 5⟩, ⟨5, 7, 3⟩, ⟨7, 7, 6⟩, ⟨0, 7, 0⟩, ⟨0, 7, 8⟩, ⟨16, 7, 8⟩, ⟨16, 7, 0⟩]

/-- Their coordinates. -/
def panelGrid : List (Int × Int) := [(-1, 2), (-5, 2), (-3, 5), (-6, 7), (0, 0), (-8, 0), (-8, 16), (0, 16)]

theorem panel_coords : Spec.coords ⟨0, 0, -1⟩ ⟨0, -1, 0⟩ panel = intPts panelGrid := by decide +kernel

theorem panel_fl : flVerts binary64 (intPts panelGrid) = flPts binary64 panelGrid := by decide +kernel

theorem panel_good : RGoodC (F := F64) 600 (fun _ => 1) (flVerts binary64 (Spec.coords ⟨0, 0, -1⟩ ⟨0, -1, 0⟩ panel))
    (Spec.coords ⟨0, 0, -1⟩ ⟨0, -1, 0⟩ panel) (2 ^ 4) := by
  rw [panel_coords, panel_fl]
  exact { toRGood := C44_grid panelGrid 4 (by decide) (by decide) (by decide) ⟨by norm_num, by decide +kernel, by decide +kernel⟩
            (by decide) (by decide +kernel) (by decide) (by decide)
          ray := by unfold Plane.ClearRays Plane.area2 Plane.axes; decide +kernel
          fuelC := by decide }

theorem panel_number : ∀ v ∈ panel, v.Number binary64 := by
  have n : ∀ q : ℚ, (Fl.rnd binary64 q = q ∧ |q| ≤ Fl.big binary64) → binary64.Number q := fun q h => Fl.number_iff.2 h
  intro v hv
  simp only [panel, List.mem_cons, List.not_mem_nil, or_false] at hv
  rcases hv with rfl | rfl | rfl | rfl | rfl | rfl | rfl | rfl <;>
    exact ⟨n _ (by decide +kernel), n _ (by decide +kernel), n _ (by decide +kernel)⟩

theorem panel_step : UnitStep binary64 4 := by
  have := unitStep_pow2 (f := binary64) (k := 2) (by decide) (by decide) (by decide) (by decide)
  norm_num at this
  exact this

theorem panel_plane : Spec.Coplanar (⟨0, -1, 0⟩ : Vtx3 ℚ) panel := by constructor <;> simp [Spec.dot3, panel]

/-- The hypotheses of `C101_framed` hold for these vertices in `f64`. -/
example : ∃ out, triangulation3d 600 (fun _ => 1) (panel.map (flVtx3 binary64)) (flVtx3 binary64 ⟨0, -1, 0⟩) = .ok out ∧
    Spec.Oriented3 ⟨0, -1, 0⟩ panel out ∧ Spec.Disjoint3 ⟨0, -1, 0⟩ panel out ∧ Spec.Delaunay3 panel out ∧
    Spec.CoversInner3 ⟨0, -1, 0⟩ panel out :=
  C101_framed (.inl rfl) 600 (fun _ => 1) panel ⟨0, -1, 0⟩ ⟨0, 0, -1⟩ _ _ 4 _ panel_number .y' .z' panel_plane rfl rfl
    (by norm_num) (by norm_num) (by norm_num) panel_step panel_good.toRGood rfl (-8) 0 0 16
    (by
      rw [panel_coords]
      exact ⟨by norm_num, by norm_num, intPts [(-1, 2), (-5, 2), (-3, 5), (-6, 7)], intPts [(0, 0), (-8, 0), (-8, 16), (0, 16)], rfl,
        by decide +kernel, by decide +kernel⟩)

/-- The result has ten triangles. -/
example : okAnd (triangulation3d 600 (fun _ => 1) (panel.map (flVtx3 binary64)) (flVtx3 binary64 ⟨0, -1, 0⟩))
    (fun ts => decide (ts.length = 10)) = true := by decide +kernel

/-- And with constraints those of `C101_axis_constrained`. -/
example (out : List Out)
    (ho : constrained3d 600 (fun _ => 1) (panel.map (flVtx3 binary64)) (flVtx3 binary64 ⟨0, -1, 0⟩) [⟨0, 3⟩, ⟨3, 1⟩, ⟨1, 0⟩] = .ok out) :
    Spec.Oriented3 ⟨0, -1, 0⟩ panel out ∧ Spec.Disjoint3 ⟨0, -1, 0⟩ panel out :=
  C101_axis_constrained 600 (fun _ => 1) panel ⟨0, -1, 0⟩ ⟨0, 0, -1⟩ _ _ 4 _ panel_number .y' .z' panel_plane rfl rfl
    (by norm_num) (by norm_num) (by norm_num) panel_step panel_good _ out ho

example : okAnd (constrained3d 600 (fun _ => 1) (panel.map (flVtx3 binary64)) (flVtx3 binary64 ⟨0, -1, 0⟩) [⟨0, 3⟩, ⟨3, 1⟩, ⟨1, 0⟩])
    (fun ts => decide (ts.length = 9)) = true := by decide +kernel

end CDT

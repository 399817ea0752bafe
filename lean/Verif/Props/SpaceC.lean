import Verif.Props.Space
import Verif.Props.Visible
import Verif.Props.Polygon

/-!
# C104: constrained results for vertices of a plane in space
-/

set_option linter.unusedSectionVars false

namespace CDT
open FloatOps Plane

variable {K : Type} [Field K] [LinearOrder K] [IsStrictOrderedRing K]

/-! ## Specification -/

namespace Spec

/-- The point of the line from `A` to `B` with parameter `s`. -/
def lerp3 (A B : Vtx3 K) (s : K) : Vtx3 K := ⟨A.x + s * (B.x - A.x), A.y + s * (B.y - A.y), A.z + s * (B.z - A.z)⟩

/-- `P` lies on the closed segment from `A` to `B` in space. -/
def OnSegment3 (A B P : Vtx3 K) : Prop := ∃ s : K, 0 ≤ s ∧ s ≤ 1 ∧ P = lerp3 A B s

/-- `P` lies on the segment from `A` to `B` in space, strictly between its ends. -/
def InsideSegment3 (A B P : Vtx3 K) : Prop := ∃ s : K, 0 < s ∧ s < 1 ∧ P = lerp3 A B s

/-- A constraint joins the positions `A` and `B`, in one direction or the other. -/
def Constrains3 (vs : List (Vtx3 K)) (es : List Edge) (A B : Vtx3 K) : Prop :=
  ∃ e ∈ es, (vs[e.src]? = some A ∧ vs[e.dst]? = some B) ∨ (vs[e.src]? = some B ∧ vs[e.dst]? = some A)

/-- The corner of a neighbor beyond a side that is no constraint is not inside the spheres through the corners of a triangle. -/
def LocallyDelaunay3C (vs : List (Vtx3 K)) (es : List Edge) (out : List (Nat × Nat × Nat)) : Prop :=
  ∀ t ∈ out, ∀ u ∈ out, ∀ a b c d, CornersOf t a b c → CornersOf u b a d → ∀ A B C D,
    vs[a]? = some A → vs[b]? = some B → vs[c]? = some C → vs[d]? = some D → ¬ Constrains3 vs es A B →
    ∀ M, Center3 M A B C → dist3 M A ≤ dist3 M D

/-- A point of space is in one of the closed triangles `out`. -/
def Covered3 (n : Vtx3 K) (vs : List (Vtx3 K)) (out : List (Nat × Nat × Nat)) (P : Vtx3 K) : Prop :=
  ∃ t ∈ out, ∃ A B C, vs[t.1]? = some A ∧ vs[t.2.1]? = some B ∧ vs[t.2.2]? = some C ∧ InClosedTriangle3 n A B C P

/-- `P` can be seen from `Q`: between them there is no vertex and no point of a constraint, and the triangles `out` are not left. -/
def Visible3 (n : Vtx3 K) (vs : List (Vtx3 K)) (es : List Edge) (out : List (Nat × Nat × Nat)) (Q P : Vtx3 K) : Prop :=
  ∀ X, InsideSegment3 Q P X → X ∉ vs ∧ Covered3 n vs out X ∧
    ∀ e ∈ es, ∀ A B, vs[e.src]? = some A → vs[e.dst]? = some B → ¬ OnSegment3 A B X

/-- Constrained Delaunay in space: every triangle has a sphere through its corners, and no such sphere, wherever its center is, has
a vertex inside that can be seen from a point of the triangle. -/
def ConstrainedDelaunay3 (n : Vtx3 K) (vs : List (Vtx3 K)) (es : List Edge) (out : List (Nat × Nat × Nat)) : Prop :=
  ∀ t ∈ out, ∃ A B C, vs[t.1]? = some A ∧ vs[t.2.1]? = some B ∧ vs[t.2.2]? = some C ∧ (∃ M, Center3 M A B C) ∧
    ∀ M, Center3 M A B C → ∀ Q, InTriangle3 n A B C Q → ∀ P ∈ vs, Visible3 n vs es out Q P → dist3 M A ≤ dist3 M P

/-- Twice the signed area of a triangle of space given by vertex numbers, as seen from the tip of the normal. -/
def triangleArea3 (n : Vtx3 K) (vs : List (Vtx3 K)) (t : Nat × Nat × Nat) : K :=
  match vs[t.1]?, vs[t.2.1]?, vs[t.2.2]? with
  | some A, some B, some C => area3 n A B C
  | _, _, _ => 0

/-- Twice the signed area that is passed over when looking from `O` along the constraints. -/
def borderArea3 (n : Vtx3 K) (vs : List (Vtx3 K)) (es : List Edge) (O : Vtx3 K) : K :=
  (es.map fun e => match vs[e.src]?, vs[e.dst]? with
    | some A, some B => area3 n O A B
    | _, _ => 0).sum

end Spec

open Spec (dot3 dist3 area3 lerp3)

theorem dot_lerp3 (n A B : Vtx3 K) (s : K) : dot3 n (lerp3 A B s) = dot3 n A + s * (dot3 n B - dot3 n A) := by
  unfold lerp3 dot3; ring

theorem area_lerp3 (n X Y A B : Vtx3 K) (s : K) :
    area3 n X Y (lerp3 A B s) = area3 n X Y A + s * (area3 n X Y B - area3 n X Y A) := by
  unfold lerp3 area3; ring

theorem area_lerp2 (x y a b : Vtx K) (s : K) :
    area2 x y ⟨a.x + s * (b.x - a.x), a.y + s * (b.y - a.y)⟩ = area2 x y a + s * (area2 x y b - area2 x y a) := by
  unfold area2; ring

/-- `p` are the coordinates of the point `P` of the plane: all areas with two vertices agree. -/
def At3 (n : Vtx3 K) (vs : List (Vtx3 K)) (pv : List (Vtx K)) (P : Vtx3 K) (p : Vtx K) : Prop :=
  (∀ V ∈ vs, dot3 n P = dot3 n V) ∧
    ∀ (x y : Nat) (X Y : Vtx3 K) (u v : Vtx K), vs[x]? = some X → vs[y]? = some Y → pv[x]? = some u → pv[y]? = some v →
      area2 u v p = area3 n X Y P

namespace Flat
variable {n : Vtx3 K} {vs : List (Vtx3 K)} {pv : List (Vtx K)} (h : Flat n vs pv)
include h

theorem at_vertex {i : Nat} {A : Vtx3 K} {a : Vtx K} (gA : vs[i]? = some A) (ga : pv[i]? = some a) : At3 n vs pv A a := by
  refine ⟨fun V hV => ?_, fun x y X Y u v gX gY gu gv => h.area x y i X Y A u v a gX gY gA gu gv ga⟩
  exact h.plane.2 A (List.mem_of_getElem? gA) V hV

theorem at_lerp {P Q : Vtx3 K} {p q : Vtx K} (hp : At3 n vs pv P p) (hq : At3 n vs pv Q q) (s : K) :
    At3 n vs pv (lerp3 P Q s) ⟨p.x + s * (q.x - p.x), p.y + s * (q.y - p.y)⟩ := by
  refine ⟨fun V hV => ?_, fun x y X Y u v gX gY gu gv => ?_⟩
  · rw [dot_lerp3, hp.1 V hV, hq.1 V hV]; ring
  · rw [area_lerp2, area_lerp3, hp.2 x y X Y u v gX gY gu gv, hq.2 x y X Y u v gX gY gu gv]

/-- The coordinates determine the point. -/
theorem at_unique {i j k : Nat} {A B C P Q : Vtx3 K} {p : Vtx K} (gA : vs[i]? = some A) (gB : vs[j]? = some B) (gC : vs[k]? = some C)
    (hc : area3 n A B C ≠ 0) (hp : At3 n vs pv P p) (hq : At3 n vs pv Q p) : P = Q := by
  obtain ⟨a, ga⟩ := h.down gA
  obtain ⟨b, gb⟩ := h.down gB
  obtain ⟨c, gc⟩ := h.down gC
  have mA := List.mem_of_getElem? gA
  obtain ⟨x1, y1, z1⟩ := cramer3 h.plane.1 (h.dot gB gA) (h.dot gC gA) (hp.1 A mA)
  obtain ⟨x2, y2, z2⟩ := cramer3 h.plane.1 (h.dot gB gA) (h.dot gC gA) (hq.1 A mA)
  rw [← hp.2 j k B C b c gB gC gb gc, ← hp.2 k i C A c a gC gA gc ga, ← hp.2 i j A B a b gA gB ga gb] at x1 y1 z1
  rw [← hq.2 j k B C b c gB gC gb gc, ← hq.2 k i C A c a gC gA gc ga, ← hq.2 i j A B a b gA gB ga gb] at x2 y2 z2
  have ex : P.x = Q.x := mul_left_cancel₀ hc (x1.trans x2.symm)
  have ey : P.y = Q.y := mul_left_cancel₀ hc (y1.trans y2.symm)
  have ez : P.z = Q.z := mul_left_cancel₀ hc (z1.trans z2.symm)
  cases P; cases Q; simp_all

variable {out : List Out} {es : List Edge}

theorem constrains {a b : Nat} {A B : Vtx3 K} {x y : Vtx K} (gA : vs[a]? = some A) (gB : vs[b]? = some B) (gx : pv[a]? = some x)
    (gy : pv[b]? = some y) (hc : Spec.Constrains3 vs es A B) : Spec.Constrains pv es x y := by
  have eq : ∀ {i j : Nat} {A : Vtx3 K} {p q : Vtx K}, vs[i]? = some A → vs[j]? = some A → pv[i]? = some p → pv[j]? = some q → p = q := by
    intro i j A p q g1 g2 gp gq
    have := h.dist i j A A p q g1 g2 gp gq
    have z : dist3 A A = 0 := by unfold dist3; ring
    rw [z] at this
    have e1 : p.x - q.x = 0 := by
      unfold dist2 at this
      nlinarith [sq_nonneg (p.x - q.x), sq_nonneg (p.y - q.y)]
    have e2 : p.y - q.y = 0 := by
      unfold dist2 at this
      nlinarith [sq_nonneg (p.x - q.x), sq_nonneg (p.y - q.y)]
    cases p; cases q
    simp only [Vtx.mk.injEq]
    exact ⟨by linarith, by linarith⟩
  obtain ⟨e, he, ⟨g1, g2⟩ | ⟨g1, g2⟩⟩ := hc
  all_goals
    obtain ⟨p, gp⟩ := h.down g1
    obtain ⟨q, gq⟩ := h.down g2
  · exact ⟨e, he, .inl ⟨by rw [gp, eq g1 gA gp gx], by rw [gq, eq g2 gB gq gy]⟩⟩
  · exact ⟨e, he, .inr ⟨by rw [gp, eq g1 gB gp gy], by rw [gq, eq g2 gA gq gx]⟩⟩

theorem locallyC (hl : Spec.LocallyDelaunay3C vs es out) (hor : Spec.Oriented3 n vs out) : Spec.LocallyDelaunay pv es out := by
  intro t ht u hu a b c d hc hd x y z w gx gy gz gw hn ⟨m, hm, hlt⟩
  obtain ⟨A, gA⟩ := h.up gx
  obtain ⟨B, gB⟩ := h.up gy
  obtain ⟨C, gC⟩ := h.up gz
  obtain ⟨D, gD⟩ := h.up gw
  have h0 : area3 n A B C ≠ 0 := by
    obtain ⟨A', B', C', gA', gB', gC', hlt⟩ := hor t ht
    have r1 : area3 n B C A = area3 n A B C := by unfold area3; ring
    have r2 : area3 n C A B = area3 n A B C := by unfold area3; ring
    rcases hc with rfl | rfl | rfl <;> simp only [gA, gB, gC, Option.some.injEq] at gA' gB' gC' <;> subst gA' <;> subst gB' <;> subst gC'
    · exact hlt.ne
    · rw [← r1]; exact hlt.ne
    · rw [← r2]; exact hlt.ne
  obtain ⟨M, hM⟩ := h.center gA gB gC h0
  have := (h.inside gA gB gC gD gx gy gz gw (by rw [h.area a b c A B C x y z gA gB gC gx gy gz]; exact h0) hM hm).2 hlt
  exact absurd (hl t ht u hu a b c d hc hd A B C D gA gB gC gD (fun hcon => hn (h.constrains gA gB gx gy hcon)) M hM) this.not_ge

/-- What is seen in space is seen in the coordinates. -/
theorem visible {i j k : Nat} {A B C P Q : Vtx3 K} {p q : Vtx K} (gA : vs[i]? = some A) (gB : vs[j]? = some B) (gC : vs[k]? = some C)
    (hc : area3 n A B C ≠ 0) (hp : At3 n vs pv P p) (hq : At3 n vs pv Q q) (hv : Spec.Visible3 n vs es out Q P) :
    Spec.Visible pv es out q p := by
  rintro x ⟨s, s0, s1, ex, ey⟩
  have hx : At3 n vs pv (lerp3 Q P s) x := by
    have := h.at_lerp hq hp s
    rw [← ex, ← ey] at this
    exact this
  obtain ⟨v1, ⟨t, ht, A', B', C', gA', gB', gC', -, q1, q2, q3⟩, v3⟩ := hv _ ⟨s, s0, s1, rfl⟩
  refine ⟨fun hm => ?_, ?_, fun e he a b ga gb ⟨r, r0, r1, rx, ry⟩ => ?_⟩
  · obtain ⟨l, gl⟩ := List.getElem?_of_mem hm
    obtain ⟨L, gL⟩ := h.up gl
    rw [h.at_unique gA gB gC hc hx (h.at_vertex gL gl)] at v1
    exact v1 (List.mem_of_getElem? gL)
  · obtain ⟨a, ga⟩ := h.down gA'
    obtain ⟨b, gb⟩ := h.down gB'
    obtain ⟨c, gc⟩ := h.down gC'
    refine ⟨t, ht, a, b, c, ga, gb, gc, ?_, ?_, ?_⟩
    · rw [hx.2 _ _ A' B' a b gA' gB' ga gb]; exact q1
    · rw [hx.2 _ _ B' C' b c gB' gC' gb gc]; exact q2
    · rw [hx.2 _ _ C' A' c a gC' gA' gc ga]; exact q3
  · obtain ⟨E, gE⟩ := h.up ga
    obtain ⟨G, gG⟩ := h.up gb
    have hy : At3 n vs pv (lerp3 E G r) x := by
      have := h.at_lerp (h.at_vertex gE ga) (h.at_vertex gG gb) r
      rw [← rx, ← ry] at this
      exact this
    exact v3 e he E G gE gG ⟨r, r0, r1, h.at_unique gA gB gC hc hx hy⟩

theorem constrainedDelaunay (hd : Spec.ConstrainedDelaunay pv es out) (hor : Spec.Oriented3 n vs out) :
    Spec.ConstrainedDelaunay3 n vs es out := by
  intro t ht
  obtain ⟨A, B, C, gA, gB, gC, hlt⟩ := hor t ht
  obtain ⟨a, ga⟩ := h.down gA
  obtain ⟨b, gb⟩ := h.down gB
  obtain ⟨c, gc⟩ := h.down gC
  have h2 : area2 a b c ≠ 0 := by rw [h.area _ _ _ A B C a b c gA gB gC ga gb gc]; exact hlt.ne
  refine ⟨A, B, C, gA, gB, gC, h.center gA gB gC hlt.ne, fun M hM Q ⟨hQ, q1, q2, q3⟩ P hP hv => not_lt.1 fun hin => ?_⟩
  obtain ⟨k, gP⟩ := List.getElem?_of_mem hP
  obtain ⟨p, gp⟩ := h.down gP
  obtain ⟨m, hm⟩ := exists_circumcenter a b c h2
  obtain ⟨q, hq⟩ := h.point gA gB gC hlt.ne hQ
  have hq' : At3 n vs pv Q q := ⟨fun V hV => by rw [hQ]; exact h.plane.2 A (List.mem_of_getElem? gA) V hV, hq⟩
  refine hd t ht a b c ga gb gc q ⟨?_, ?_, ?_⟩ p (List.mem_of_getElem? gp) (h.visible gA gB gC hlt.ne (h.at_vertex gP gp) hq' hv)
    ⟨m, hm, (h.inside gA gB gC gP ga gb gc gp h2 hM hm).1 hin⟩ <;> unfold Clockwise
  · rw [hq _ _ A B a b gA gB ga gb]; exact q1
  · rw [hq _ _ B C b c gB gC gb gc]; exact q2
  · rw [hq _ _ C A c a gC gA gc ga]; exact q3

theorem triangleArea (t : Out) : Spec.triangleArea2 pv t = Spec.triangleArea3 n vs t := by
  unfold Spec.triangleArea2 Spec.triangleArea3
  have none : ∀ i : Nat, vs[i]? = none ↔ pv[i]? = none := fun i => by
    rw [List.getElem?_eq_none_iff, List.getElem?_eq_none_iff, h.len]
  rcases hA : vs[t.1]? with _ | A <;> rcases hB : vs[t.2.1]? with _ | B <;> rcases hC : vs[t.2.2]? with _ | C
  all_goals try rw [(none _).1 hA]
  all_goals try obtain ⟨a, ga⟩ := h.down hA
  all_goals try rw [ga]
  all_goals try rw [(none _).1 hB]
  all_goals try obtain ⟨b, gb⟩ := h.down hB
  all_goals try rw [gb]
  all_goals try rw [(none _).1 hC]
  all_goals try obtain ⟨c, gc⟩ := h.down hC
  all_goals try rw [gc]
  exact h.area _ _ _ A B C a b c hA hB hC ga gb gc

/-- The shoelace formula, seen from a vertex. -/
theorem borderArea {i : Nat} {O : Vtx3 K} (gO : vs[i]? = some O) (hb : Balanced (Spec.segments pv es)) :
    shoelace (Spec.segments pv es) = Spec.borderArea3 n vs es O := by
  obtain ⟨o, go⟩ := h.down gO
  have e1 : Spec.borderArea3 n vs es O = ((Spec.segments pv es).map fun e => area2 o e.1 e.2).sum := by
    unfold Spec.borderArea3 Spec.segments
    clear hb
    induction es with
    | nil => rfl
    | cons e l ih =>
      rw [List.map_cons, List.sum_cons, ih, List.filterMap_cons]
      have none : ∀ i : Nat, vs[i]? = none → pv[i]? = none := fun i => by
        rw [List.getElem?_eq_none_iff, List.getElem?_eq_none_iff, h.len]; exact id
      rcases hA : vs[e.src]? with _ | A
      · rw [none _ hA]; simp
      obtain ⟨a, ga⟩ := h.down hA
      rcases hB : vs[e.dst]? with _ | B
      · rw [none _ hB, ga]; simp
      obtain ⟨b, gb⟩ := h.down hB
      rw [ga, gb]
      simp only [List.map_cons, List.sum_cons]
      rw [h.area _ _ _ O A B o a b gO hA hB go ga gb]
  rw [e1]
  have hsum : ∀ f : Vtx K → K, ((Spec.segments pv es).map fun e => f e.1).sum = ((Spec.segments pv es).map fun e => f e.2).sum := by
    intro f
    have := (hb.map f).sum_eq
    simpa [List.map_map, Function.comp_def] using this
  have e2 : ∀ l : List (Vtx K × Vtx K), (l.map fun e => area2 o e.1 e.2).sum =
      shoelace l + ((l.map fun e => o.x * e.1.y - o.y * e.1.x).sum - (l.map fun e => o.x * e.2.y - o.y * e.2.x).sum) := by
    intro l
    unfold shoelace
    induction l with
    | nil => simp
    | cons e l ih =>
      simp only [List.map_cons, List.sum_cons, ih]
      unfold area2
      ring
  rw [e2, hsum fun p => o.x * p.y - o.y * p.x]
  ring

theorem area_eq (hb : Balanced (Spec.segments pv es)) (ha : (out.map (Spec.triangleArea2 pv)).sum = shoelace (Spec.segments pv es)) :
    ∀ O ∈ vs, (out.map (Spec.triangleArea3 n vs)).sum = Spec.borderArea3 n vs es O := by
  intro O hO
  obtain ⟨i, gO⟩ := List.getElem?_of_mem hO
  rw [← h.borderArea gO hb, ← ha]
  congr 1
  exact List.map_congr_left fun t _ => (h.triangleArea t).symm

end Flat

/-! ## Theorems -/

section
variable [IdCfg]

/-- **C104**, over the reals: if the sides that are no constraint pass the test, the result is constrained Delaunay in space. -/
theorem C104_real (fuel : Nat) (bins : Nat → Nat) (vs : List (Vtx3 ℝ)) (n v0 v1 : Vtx3 ℝ) (hc : Spec.Coplanar n vs)
    (h0 : vs[0]? = some v0) (h1 : vs[1]? = some v1) (hne : v0 ≠ v1) (pv : List (Vtx ℝ)) (ht : transformTo2d vs n = .ok pv)
    (h : Good fuel bins pv) (es : List Edge) (out : List Out) (ho : constrained3d fuel bins vs n es = .ok out)
    (hl : Spec.LocallyDelaunay3C vs es out) : Spec.ConstrainedDelaunay3 n vs es out := by
  obtain ⟨hor, -⟩ := C101_real_constrained fuel bins vs n v0 v1 hc h0 h1 hne pv ht h es out ho
  obtain ⟨pv', ht', hlen, h2, h3⟩ := transformTo2d_spec vs n v0 v1 hc h0 h1 hne
  obtain rfl : pv = pv' := by rw [ht] at ht'; simpa using ht'
  rw [constrained3d_of fuel bins es ht hlen] at ho
  have hF : Flat n vs pv := ⟨hc, hlen, h2, h3⟩
  exact hF.constrainedDelaunay (C68_global fuel bins pv h es out ho (hF.locallyC hl hor)) hor

/-- **C104**, over the reals: the areas of the triangles add up to the area within the border, whichever vertex it is measured from. -/
theorem C104_area (fuel : Nat) (bins : Nat → Nat) (vs : List (Vtx3 ℝ)) (n v0 v1 : Vtx3 ℝ) (hc : Spec.Coplanar n vs)
    (h0 : vs[0]? = some v0) (h1 : vs[1]? = some v1) (hne : v0 ≠ v1) (pv : List (Vtx ℝ)) (ht : transformTo2d vs n = .ok pv)
    (h : Good fuel bins pv) (hf : fuelFor pv.length ≤ fuel) (es : List Edge) (hx : Spec.NonCrossing pv es) (hb : Spec.Border pv es)
    (out : List Out) (ho : constrained3d fuel bins vs n es = .ok out) :
    ∀ O ∈ vs, (out.map (Spec.triangleArea3 n vs)).sum = Spec.borderArea3 n vs es O := by
  obtain ⟨pv', ht', hlen, h2, h3⟩ := transformTo2d_spec vs n v0 v1 hc h0 h1 hne
  obtain rfl : pv = pv' := by rw [ht] at ht'; simpa using ht'
  rw [constrained3d_of fuel bins es ht hlen] at ho
  have hF : Flat n vs pv := ⟨hc, hlen, h2, h3⟩
  exact hF.area_eq hb.bal (C57_area fuel bins pv h hf es hx hb out ho)

variable {f : Fmt} [Fl.Ok f]

/-- **C104**, IEEE formats: vertices of a plane parallel to two axes. -/
theorem C104_axis (fuel : Nat) (bins : Nat → Nat) (vs : List (Vtx3 ℚ)) (n a v0 v1 : Vtx3 ℚ) (δ W : ℚ) (hv : ∀ v ∈ vs, v.Number f)
    (hn : Spec.Axis n) (ha : Spec.Axis a) (hc : Spec.Coplanar n vs) (h0 : vs[0]? = some v0) (h1 : vs[1]? = some v1)
    (hx : v0.x - v1.x = δ * a.x) (hy : v0.y - v1.y = δ * a.y) (hz : v0.z - v1.z = δ * a.z) (hδ : UnitStep f δ)
    (h : Rounded.RGoodC fuel bins (flVerts f (Spec.coords a n vs)) (Spec.coords a n vs) W) (es : List Edge) (out : List Out)
    (ho : constrained3d fuel bins (vs.map (flVtx3 f)) (flVtx3 f n) es = .ok out) (hl : Spec.LocallyDelaunay3C vs es out) :
    Spec.ConstrainedDelaunay3 n vs es out := by
  obtain ⟨hor, -⟩ := C101_axis_constrained fuel bins vs n a v0 v1 δ W hv hn ha hc h0 h1 hx hy hz hδ h es out ho
  obtain ⟨-, -, hr, -⟩ := C64_coords fuel bins vs n a v0 v1 δ hv hn ha hc h0 h1 hx hy hz hδ
  have hF := flat_axis hv hn ha hc h0 h1 hx hy hz hδ
  rw [hr es] at ho
  exact hF.constrainedDelaunay (C68_rounded fuel bins _ _ W h es out ho (hF.locallyC hl hor)) hor

/-- **C104**, IEEE formats: the area. -/
theorem C104_axis_area (fuel : Nat) (bins : Nat → Nat) (vs : List (Vtx3 ℚ)) (n a v0 v1 : Vtx3 ℚ) (δ W : ℚ) (hv : ∀ v ∈ vs, v.Number f)
    (hn : Spec.Axis n) (ha : Spec.Axis a) (hc : Spec.Coplanar n vs) (h0 : vs[0]? = some v0) (h1 : vs[1]? = some v1)
    (hx : v0.x - v1.x = δ * a.x) (hy : v0.y - v1.y = δ * a.y) (hz : v0.z - v1.z = δ * a.z) (hδ : UnitStep f δ)
    (h : Rounded.RGoodC fuel bins (flVerts f (Spec.coords a n vs)) (Spec.coords a n vs) W) (es : List Edge)
    (hnc : Spec.NonCrossing (Spec.coords a n vs) es) (hb : Spec.Border (Spec.coords a n vs) es) (out : List Out)
    (ho : constrained3d fuel bins (vs.map (flVtx3 f)) (flVtx3 f n) es = .ok out) :
    ∀ O ∈ vs, (out.map (Spec.triangleArea3 n vs)).sum = Spec.borderArea3 n vs es O := by
  obtain ⟨-, -, hr, -⟩ := C64_coords fuel bins vs n a v0 v1 δ hv hn ha hc h0 h1 hx hy hz hδ
  have hF := flat_axis hv hn ha hc h0 h1 hx hy hz hδ
  rw [hr es] at ho
  exact hF.area_eq hb.bal (C57_area_rounded fuel bins _ _ W h es hnc hb out ho)

/-- **C104**, IEEE formats: if the vertices contain the corners of a rectangle around the others, there is one bin, and every
constraint crosses at most one edge of the result without constraints, there is a result and it is constrained Delaunay in space. -/
theorem C104_single (hcfg : RealCfg) (fuel : Nat) (bins : Nat → Nat) (vs : List (Vtx3 ℚ)) (n a v0 v1 : Vtx3 ℚ) (δ W : ℚ)
    (hv : ∀ v ∈ vs, v.Number f) (hn : Spec.Axis n) (ha : Spec.Axis a) (hc : Spec.Coplanar n vs) (h0 : vs[0]? = some v0)
    (h1 : vs[1]? = some v1) (hx : v0.x - v1.x = δ * a.x) (hy : v0.y - v1.y = δ * a.y) (hz : v0.z - v1.z = δ * a.z) (hδ : UnitStep f δ)
    (h : Rounded.RGoodC fuel bins (flVerts f (Spec.coords a n vs)) (Spec.coords a n vs) W) (hb : bins vs.length = 1)
    (x0 x1 y0 y1 : ℚ) (hf : Spec.Framed (Spec.coords a n vs) x0 x1 y0 y1) (es : List Edge)
    (hcl : Spec.ClearOfVertices (Spec.coords a n vs) es) (hnc : Spec.NonCrossing (Spec.coords a n vs) es) (out0 : List Out)
    (ho0 : triangulation3d fuel bins (vs.map (flVtx3 f)) (flVtx3 f n) = .ok out0) (hone : Spec.SingleCross (Spec.coords a n vs) es out0) :
    ∃ out, constrained3d fuel bins (vs.map (flVtx3 f)) (flVtx3 f n) es = .ok out ∧ Spec.ConstrainedDelaunay3 n vs es out := by
  obtain ⟨-, hr0, hr, -⟩ := C64_coords fuel bins vs n a v0 v1 δ hv hn ha hc h0 h1 hx hy hz hδ
  have hF := flat_axis hv hn ha hc h0 h1 hx hy hz hδ
  rw [hr0] at ho0
  obtain ⟨out, ho, hd⟩ := C68_single_rounded hcfg fuel bins _ _ W h (by simpa [flVerts, Spec.coords] using hb) x0 x1 y0 y1 hf es hcl hnc
    out0 ho0 hone
  have ho' := ho
  rw [← hr es] at ho'
  obtain ⟨hor, -⟩ := C101_axis_constrained fuel bins vs n a v0 v1 δ W hv hn ha hc h0 h1 hx hy hz hδ h es out ho'
  exact ⟨out, ho', hF.constrainedDelaunay hd hor⟩

end
end CDT

/-! ## Examples -/

namespace CDT
open Plane Rounded

local instance spaceCCfg : IdCfg := u32Cfg

/-- A square with a square hole and one more vertex, in the plane `z = 5`. -/
def sheet : List (Vtx3 ℚ) := [⟨7, 3, 5⟩, ⟨3, 3, 5⟩, ⟨7, 7, 5⟩, ⟨3, 7, 5⟩, ⟨12, 5, 5⟩, ⟨0, 0, 5⟩, ⟨0, 16, 5⟩, ⟨16, 16, 5⟩, ⟨16, 0, 5⟩]

/-- Their coordinates. -/
def sheetGrid : List (Int × Int) := [(7,3),(3,3),(7,7),(3,7),(12,5),(0,0),(0,16),(16,16),(16,0)]

/-- The outer border clockwise, the hole counter-clockwise. -/
def sheetEdges : List Edge := [⟨5,6⟩,⟨6,7⟩,⟨7,8⟩,⟨8,5⟩,⟨1,0⟩,⟨0,2⟩,⟨2,3⟩,⟨3,1⟩]

theorem sheet_coords : Spec.coords ⟨1, 0, 0⟩ ⟨0, 0, 1⟩ sheet = intPts sheetGrid := by decide +kernel

theorem sheet_fl : flVerts binary64 (intPts sheetGrid) = flPts binary64 sheetGrid := by decide +kernel

theorem sheet_good : RGoodC (F := F64) 600 (fun _ => 1) (flVerts binary64 (Spec.coords ⟨1, 0, 0⟩ ⟨0, 0, 1⟩ sheet))
    (Spec.coords ⟨1, 0, 0⟩ ⟨0, 0, 1⟩ sheet) (2 ^ 4) := by
  rw [sheet_coords, sheet_fl]
  exact { toRGood := C44_grid sheetGrid 4 (by decide) (by decide) (by decide) ⟨by norm_num, by decide +kernel, by decide +kernel⟩
            (by decide) (by decide +kernel) (by decide) (by decide)
          ray := by unfold Plane.ClearRays Plane.area2 Plane.axes; decide +kernel
          fuelC := by decide }

theorem sheet_number : ∀ v ∈ sheet, v.Number binary64 := by
  have n : ∀ q : ℚ, (Fl.rnd binary64 q = q ∧ |q| ≤ Fl.big binary64) → binary64.Number q := fun q h => Fl.number_iff.2 h
  intro v hv
  simp only [sheet, List.mem_cons, List.not_mem_nil, or_false] at hv
  rcases hv with rfl | rfl | rfl | rfl | rfl | rfl | rfl | rfl | rfl <;>
    exact ⟨n _ (by decide +kernel), n _ (by decide +kernel), n _ (by decide +kernel)⟩

theorem sheet_plane : Spec.Coplanar (⟨0, 0, 1⟩ : Vtx3 ℚ) sheet := by constructor <;> simp [Spec.dot3, sheet]

theorem sheet_segments : Spec.segments (intPts sheetGrid) sheetEdges = Spec.segments (intPts holeGrid) holeEdges := by decide +kernel

theorem sheet_border : Spec.Border (intPts sheetGrid) sheetEdges := by
  refine ⟨?_, ?_, ?_, ?_, ?_⟩ <;> rw [sheet_segments]
  · exact hole_border.ne
  · exact hole_border.nodup
  · exact hole_border.norev
  · exact hole_border.bal
  · exact hole_border.win

/-- The hypotheses of `C104_axis_area` hold for these vertices in `f64`. -/
example (out : List Out)
    (ho : constrained3d 600 (fun _ => 1) (sheet.map (flVtx3 binary64)) (flVtx3 binary64 ⟨0, 0, 1⟩) sheetEdges = .ok out) :
    ∀ O ∈ sheet, (out.map (Spec.triangleArea3 ⟨0, 0, 1⟩ sheet)).sum = Spec.borderArea3 ⟨0, 0, 1⟩ sheet sheetEdges O :=
  C104_axis_area 600 (fun _ => 1) sheet ⟨0, 0, 1⟩ ⟨1, 0, 0⟩ _ _ 4 _ sheet_number .z .x sheet_plane rfl rfl
    (by norm_num) (by norm_num) (by norm_num) panel_step sheet_good _ (by rw [sheet_coords]; exact nonCrossing_of_check (by decide +kernel))
    (by rw [sheet_coords]; exact sheet_border) out ho

/-- The border encloses the area 240 (clockwise: negative), and so do the ten triangles. -/
example : Spec.borderArea3 ⟨0, 0, 1⟩ sheet sheetEdges ⟨12, 5, 5⟩ = -480 ∧
    (do let out ← constrained3d 600 (fun _ => 1) (sheet.map (flVtx3 binary64)) (flVtx3 binary64 ⟨0, 0, 1⟩) sheetEdges
        Res.ok (out.length, (out.map (Spec.triangleArea3 ⟨0, 0, 1⟩ sheet)).sum)) = .ok (10, -480) := by decide +kernel

/-- The hypotheses of `C104_single` hold for the outer border and one more constraint, which crosses an edge. -/
example : ∃ out, constrained3d 600 (fun _ => 1) (sheet.map (flVtx3 binary64)) (flVtx3 binary64 ⟨0, 0, 1⟩)
      [⟨5,6⟩,⟨6,7⟩,⟨7,8⟩,⟨8,5⟩,⟨1,4⟩] = .ok out ∧
    Spec.ConstrainedDelaunay3 ⟨0, 0, 1⟩ sheet [⟨5,6⟩,⟨6,7⟩,⟨7,8⟩,⟨8,5⟩,⟨1,4⟩] out :=
  C104_single (.inl rfl) 600 (fun _ => 1) sheet ⟨0, 0, 1⟩ ⟨1, 0, 0⟩ _ _ 4 _ sheet_number .z .x sheet_plane rfl rfl
    (by norm_num) (by norm_num) (by norm_num) panel_step sheet_good rfl 0 16 0 16
    (by
      rw [sheet_coords]
      exact ⟨by norm_num, by norm_num, intPts [(7,3),(3,3),(7,7),(3,7),(12,5)], intPts [(0,0),(0,16),(16,16),(16,0)], rfl,
        by decide +kernel, by decide +kernel⟩) _
    (by rw [sheet_coords]; exact clear_of_check (by decide +kernel)) (by rw [sheet_coords]; exact nonCrossing_of_check (by decide +kernel))
    [(2, 6, 7), (0, 5, 1), (4, 7, 8), (0, 2, 4), (3, 5, 6), (1, 3, 2), (2, 7, 4), (2, 3, 6), (1, 5, 3), (0, 8, 5), (0, 4, 8), (0, 1, 2)]
    (by decide +kernel) (by rw [sheet_coords]; exact single_of_check (by decide +kernel))

/-- Without this constraint the triangle 0 1 2 is in the result, with it it is not. -/
example : okAnd (constrained3d 600 (fun _ => 1) (sheet.map (flVtx3 binary64)) (flVtx3 binary64 ⟨0, 0, 1⟩)
    [⟨5,6⟩,⟨6,7⟩,⟨7,8⟩,⟨8,5⟩,⟨1,4⟩]) (fun ts => decide ((0, 1, 2) ∉ ts ∧ ts.length = 12)) = true := by decide +kernel

end CDT

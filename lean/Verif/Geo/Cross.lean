import Verif.Geo.Segment
import Verif.Geo.Flip

/-! # Crossing tests of the constraint phase in homogeneous coordinates -/

set_option linter.unusedSectionVars false
set_option linter.unusedSimpArgs false
set_option linter.unusedVariables false

namespace CDT
open Plane

section
variable {K : Type} [Field K] [LinearOrder K] [IsStrictOrderedRing K]

/-- The ends of each edge lie strictly on different sides of the other one; the ends may be at
infinity. -/
def HP.Cross (a b c d : HP K) : Prop :=
  HP.o a b c * HP.o a b d < 0 ∧ HP.o c d a * HP.o c d b < 0

theorem HP.Cross.symm {a b c d : HP K} (h : HP.Cross a b c d) : HP.Cross c d a b := ⟨h.2, h.1⟩

theorem HP.Cross.flip {a b c d : HP K} (h : HP.Cross a b c d) : HP.Cross a b d c := by
  refine ⟨by linarith [h.1], ?_⟩
  have := h.2
  rw [HP.o_swap d c a, HP.o_swap d c b] at this
  linarith

theorem HP.Cross.flip' {a b c d : HP K} (h : HP.Cross a b c d) : HP.Cross b a c d := h.symm.flip.symm

theorem HP.cross_flip_iff {a b c d : HP K} : HP.Cross a b d c ↔ HP.Cross a b c d := ⟨fun h => h.flip, fun h => h.flip⟩
theorem HP.cross_flip_iff' {a b c d : HP K} : HP.Cross b a c d ↔ HP.Cross a b c d := ⟨fun h => h.flip', fun h => h.flip'⟩
theorem HP.cross_symm_iff {a b c d : HP K} : HP.Cross c d a b ↔ HP.Cross a b c d := ⟨fun h => h.symm, fun h => h.symm⟩

theorem area2_o (a b c : Vtx K) : area2 a b c = - HP.o (HP.ofVtx a) (HP.ofVtx b) (HP.ofVtx c) := by
  simp only [HP.o, HP.ofVtx, area2]; ring

theorem cross_iff_hp (a b c d : Vtx K) :
    Plane.Cross a b c d ↔ HP.Cross (HP.ofVtx a) (HP.ofVtx b) (HP.ofVtx c) (HP.ofVtx d) := by
  unfold Plane.Cross HP.Cross
  simp only [area2_o, neg_mul_neg]

end

section
variable {K : Type} [Field K] [LinearOrder K] [IsStrictOrderedRing K] [ExactParams K]

/-- Coordinates along and across a direction. -/
theorem semiInf_snd (f : Vtx K) (k : Fin 4) : (semiInf f k).1 = f ∧
    HP.ofVtx (semiInf f k).2 = ⟨f.x + 142 / 100 * (HP.dir k : HP K).x, f.y + 142 / 100 * (HP.dir k : HP K).y, 1⟩ := by
  fin_cases k <;> simp [semiInf, xDelta, yDelta, HP.ofVtx, HP.dir]

/-- A constrained edge of the unit square against an extrapolated semi-infinite edge. -/
theorem cross_semiInf {a b f : Vtx K} (ha : InUnit a) (hb : InUnit b) (hf : InUnit f) (k : Fin 4) :
    Plane.Cross a b (semiInf f k).1 (semiInf f k).2 ↔
      HP.Cross (HP.ofVtx a) (HP.ofVtx b) (HP.ofVtx f) (HP.dir k) := by
  obtain ⟨e1, e2⟩ := semiInf_snd f k
  rw [cross_iff_hp, e1, e2]
  unfold HP.Cross
  have l1 : ∀ p q : HP K, HP.o p q ⟨f.x + 142 / 100 * (HP.dir k : HP K).x, f.y + 142 / 100 * (HP.dir k : HP K).y, 1⟩ =
      HP.o p q (HP.ofVtx f) + 142 / 100 * HP.o p q (HP.dir k) := by
    intro p q
    have : (HP.dir k : HP K).w = 0 := by fin_cases k <;> rfl
    simp only [HP.o, HP.ofVtx, this]; ring
  have l2 : ∀ p : HP K, HP.o (HP.ofVtx f) ⟨f.x + 142 / 100 * (HP.dir k : HP K).x, f.y + 142 / 100 * (HP.dir k : HP K).y, 1⟩ p =
      142 / 100 * HP.o (HP.ofVtx f) (HP.dir k) p := by
    intro p
    rw [HP.o_swap', l1, HP.o_same'', HP.o_swap' (HP.ofVtx f) (HP.dir k) p]; ring
  rw [l1, l2, l2]
  have hpq : 142 / 100 * HP.o (HP.ofVtx f) (HP.dir k) (HP.ofVtx a) * (142 / 100 * HP.o (HP.ofVtx f) (HP.dir k) (HP.ofVtx b)) < 0 ↔
      HP.o (HP.ofVtx f) (HP.dir k) (HP.ofVtx a) * HP.o (HP.ofVtx f) (HP.dir k) (HP.ofVtx b) < 0 := by
    constructor <;> intro h <;> nlinarith
  rw [hpq]
  constructor
  · rintro ⟨h1, h2⟩
    refine ⟨?_, h2⟩
    nlinarith [mul_self_nonneg (HP.o (HP.ofVtx a) (HP.ofVtx b) (HP.ofVtx f))]
  · rintro ⟨h1, h2⟩
    refine ⟨?_, h2⟩
    -- the crossing point is in the square, at distance at most one from `f`
    have key : ∀ g D α β : K, g * D < 0 → α * β < 0 → (∃ m n : K, 0 ≤ m ∧ m ≤ 1 ∧ 0 ≤ n ∧ n ≤ 1 ∧ ∃ l, 0 ≤ l ∧ l ≤ 1 ∧
        D = (α - β) ∧ g = β * (m - l) - α * (n - l)) → g * (g + 142 / 100 * D) < 0 := by
      rintro g D α β h1 h2 ⟨m, n, m0, m1, n0, n1, l, l0, l1, rfl, rfl⟩
      rcases mul_neg_iff.1 h2 with ⟨hα, hβ⟩ | ⟨hα, hβ⟩
      · have : -(β * (m - l) - α * (n - l)) ≤ α - β := by nlinarith
        have hg : β * (m - l) - α * (n - l) < 0 := by
          by_contra h
          nlinarith [mul_nonneg (not_lt.1 h) (by linarith : 0 ≤ (α - β))]
        apply mul_neg_of_neg_of_pos hg
        linarith
      · have : α - β ≤ -(β * (m - l) - α * (n - l)) := by nlinarith
        have hg : 0 < β * (m - l) - α * (n - l) := by
          by_contra h
          nlinarith [mul_nonneg (neg_nonneg.2 (not_lt.1 h)) (by linarith : 0 ≤ -(α - β))]
        apply mul_neg_of_pos_of_neg hg
        linarith
    obtain ⟨a1, a2, a3, a4⟩ := ha
    obtain ⟨b1, b2, b3, b4⟩ := hb
    obtain ⟨f1, f2, f3, f4⟩ := hf
    apply key _ _ _ _ h1 h2
    fin_cases k
    · exact ⟨1 - a.x, 1 - b.x, by linarith, by linarith, by linarith, by linarith, 1 - f.x, by linarith, by linarith,
        by simp only [HP.o, HP.ofVtx, HP.dir]; ring, by simp only [HP.o, HP.ofVtx, HP.dir]; ring⟩
    · exact ⟨a.y, b.y, by linarith, by linarith, by linarith, by linarith, f.y, by linarith, by linarith,
        by simp only [HP.o, HP.ofVtx, HP.dir]; ring, by simp only [HP.o, HP.ofVtx, HP.dir]; ring⟩
    · exact ⟨a.x, b.x, by linarith, by linarith, by linarith, by linarith, f.x, by linarith, by linarith,
        by simp only [HP.o, HP.ofVtx, HP.dir]; ring, by simp only [HP.o, HP.ofVtx, HP.dir]; ring⟩
    · exact ⟨1 - a.y, 1 - b.y, by linarith, by linarith, by linarith, by linarith, 1 - f.y, by linarith, by linarith,
        by simp only [HP.o, HP.ofVtx, HP.dir]; ring, by simp only [HP.o, HP.ofVtx, HP.dir]; ring⟩

/-- Two extrapolated semi-infinite edges. -/
theorem cross_semiInf2 {f g : Vtx K} (hf : InUnit f) (hg : InUnit g) (k l : Fin 4) :
    Plane.Cross (semiInf f k).1 (semiInf f k).2 (semiInf g l).1 (semiInf g l).2 ↔
      HP.Cross (HP.ofVtx f) (HP.dir k) (HP.ofVtx g) (HP.dir l) := by
  have half : ∀ {f g : Vtx K} (hf : InUnit f) (hg : InUnit g) (k l : Fin 4),
      area2 (semiInf f k).1 (semiInf f k).2 (semiInf g l).1 * area2 (semiInf f k).1 (semiInf f k).2 (semiInf g l).2 < 0 ↔
        HP.o (HP.ofVtx f) (HP.dir k) (HP.ofVtx g) * HP.o (HP.ofVtx f) (HP.dir k) (HP.dir l) < 0 := by
    intro f g hf hg k l
    obtain ⟨e1, e2⟩ := semiInf_snd f k
    obtain ⟨e3, e4⟩ := semiInf_snd g l
    have h1 : area2 (semiInf f k).1 (semiInf f k).2 (semiInf g l).1 =
        -(142 / 100 * HP.o (HP.ofVtx f) (HP.dir k) (HP.ofVtx g)) := by
      rw [area2_o, e1, e2, e3]
      fin_cases k <;> simp only [HP.o, HP.ofVtx, HP.dir] <;> ring
    have h2 : area2 (semiInf f k).1 (semiInf f k).2 (semiInf g l).2 =
        -(142 / 100 * (HP.o (HP.ofVtx f) (HP.dir k) (HP.ofVtx g) + 142 / 100 * HP.o (HP.ofVtx f) (HP.dir k) (HP.dir l))) := by
      rw [area2_o, e1, e2, e4]
      fin_cases k <;> fin_cases l <;> simp only [HP.o, HP.ofVtx, HP.dir] <;> ring
    rw [h1, h2]
    obtain ⟨f1, f2, f3, f4⟩ := hf
    obtain ⟨g1, g2, g3, g4⟩ := hg
    have b : -1 ≤ HP.o (HP.ofVtx f) (HP.dir k) (HP.ofVtx g) ∧ HP.o (HP.ofVtx f) (HP.dir k) (HP.ofVtx g) ≤ 1 := by
      fin_cases k <;> simp only [HP.o, HP.ofVtx, HP.dir] <;> constructor <;> linarith
    have c : HP.o (HP.ofVtx f) (HP.dir k) (HP.dir l) = 0 ∨ HP.o (HP.ofVtx f) (HP.dir k) (HP.dir l) = 1 ∨
        HP.o (HP.ofVtx f) (HP.dir k) (HP.dir l) = -1 := by
      fin_cases k <;> fin_cases l <;> simp [HP.o, HP.ofVtx, HP.dir]
    generalize HP.o (HP.ofVtx f) (HP.dir k) (HP.ofVtx g) = x at *
    generalize HP.o (HP.ofVtx f) (HP.dir k) (HP.dir l) = y at *
    constructor
    · intro h; nlinarith [mul_self_nonneg x]
    · intro h
      rcases c with rfl | rfl | rfl
      · simp at h
      · have : x < 0 := by linarith
        nlinarith
      · have : 0 < x := by linarith
        nlinarith
  unfold Plane.Cross HP.Cross
  rw [half hf hg k l, half hg hf l k]

end

/-! ## The two tests on mesh edges and quads -/

section
variable {K : Type} [Field K] [LinearOrder K] [IsStrictOrderedRing K] [ExactParams K] [IdCfg]
variable {vs : List (Vtx K)}

theorem unit_get {v : Nat} {x : Vtx K} (hu : ∀ v ∈ vs, InUnit v) (h : vs[v]? = some x) : InUnit x :=
  hu _ (List.mem_of_getElem? h)

/-- `edge_and_constrained_edge_intersection`: it always answers, and answers `Crossing` exactly for
the edges properly crossed by the constrained edge. -/
theorem edgeIsect_spec (hu : ∀ v ∈ vs, InUnit v) (hn : vs.length ≤ INF0) {e : Edge} (h1 : VOk vs.length e.src)
    (h2 : VOk vs.length e.dst) {a b : Nat} {A B : Vtx K} (ha : vs[a]? = some A) (hb : vs[b]? = some B) :
    ∃ r, edgeIsect vs e (A, B) = .ok r ∧
      (r = .crossing ↔ HP.Cross (hp vs a) (hp vs b) (hp vs e.src) (hp vs e.dst)) := by
  have la := lt_of_getElem? ha
  have lb := lt_of_getElem? hb
  have eA : hp vs a = HP.ofVtx A := hp_fin (by omega) ha
  have eB : hp vs b = HP.ofVtx B := hp_fin (by omega) hb
  have uA := unit_get hu ha
  have uB := unit_get hu hb
  unfold edgeIsect
  by_cases s1 : e.src < INF0
  · rw [if_neg (by rw [isInf_iff]; omega)]
    obtain ⟨X, gX, hX, eX⟩ := getI_fin h1 s1
    by_cases s2 : e.dst < INF0
    · rw [if_neg (by rw [isInf_iff]; omega)]
      obtain ⟨Y, gY, hY, eY⟩ := getI_fin h2 s2
      simp only [gX, gY, Res.ok_bind]
      refine ⟨_, rfl, ?_⟩
      rw [crossing_iff, cross_iff_hp, eA, eB, eX, eY]
    · rw [if_pos (by rw [isInf_iff]; omega)]
      obtain ⟨k, hk⟩ := infLocal_ok (h2.inf s2 hn).1 (h2.inf s2 hn).2
      simp only [hk, gX, Res.ok_bind]
      refine ⟨_, rfl, ?_⟩
      rw [eA, eB, eX, (infLocal_hp vs hk).1, ← cross_semiInf uA uB (unit_get hu hX) k, ← crossing_iff]
  · rw [if_pos (by rw [isInf_iff]; omega)]
    by_cases s2 : e.dst < INF0
    · rw [if_neg (by rw [isInf_iff]; omega)]
      obtain ⟨Y, gY, hY, eY⟩ := getI_fin h2 s2
      obtain ⟨k, hk⟩ := infLocal_ok (h1.inf s1 hn).1 (h1.inf s1 hn).2
      simp only [hk, gY, Res.ok_bind]
      refine ⟨_, rfl, ?_⟩
      rw [eA, eB, eY, (infLocal_hp vs hk).1, ← HP.cross_flip_iff, ← cross_semiInf uA uB (unit_get hu hY) k, ← crossing_iff]
    · rw [if_pos (by rw [isInf_iff]; omega)]
      refine ⟨_, rfl, ?_⟩
      simp only [reduceCtorEq, false_iff]
      rintro ⟨-, h⟩
      rw [HP.o_inf2 (hp_w_inf vs s1) (hp_w_inf vs s2) (hp_w_fin vs (by omega : a < INF0)) (hp_w_fin vs (by omega : b < INF0))] at h
      nlinarith [mul_self_nonneg (HP.o (hp vs e.src) (hp vs e.dst) (hp vs b))]

/-- Both ends of an edge between two clockwise triangles cannot be infinite. -/
theorem quad_not_inf {a b c p : Nat} (h1 : 0 < HP.o (hp vs b) (hp vs a) (hp vs c))
    (h2 : 0 < HP.o (hp vs p) (hp vs a) (hp vs b)) : a < INF0 ∨ b < INF0 := by
  by_contra h
  rw [not_or] at h
  have wa := hp_w_inf vs h.1
  have wb := hp_w_inf vs h.2
  by_cases hc : c < INF0
  · by_cases hp' : p < INF0
    · rw [HP.o_inf2 wb wa (hp_w_fin vs hc) (hp_w_fin vs hp'), HP.o_swap''] at h1
      linarith
    · rw [HP.o_inf3 (hp_w_inf vs hp') wa wb] at h2; exact lt_irrefl _ h2
  · rw [HP.o_inf3 wb wa (hp_w_inf vs hc)] at h1; exact lt_irrefl _ h1

/-- Crossing diagonals, strict convexity. -/
theorem quad_cross_iff {a b c p : Nat} (h1 : 0 < HP.o (hp vs b) (hp vs a) (hp vs c))
    (h2 : 0 < HP.o (hp vs p) (hp vs a) (hp vs b)) : HP.Cross (hp vs a) (hp vs b) (hp vs c) (hp vs p) ↔
      0 < HP.o (hp vs p) (hp vs a) (hp vs c) ∧ 0 < HP.o (hp vs p) (hp vs c) (hp vs b) := by
  unfold HP.Cross
  have e := HP.bary_w (hp vs b) (hp vs a) (hp vs c) (hp vs p)
  have wa := hp_w_nonneg vs a
  have wb := hp_w_nonneg vs b
  have wc := hp_w_nonneg vs c
  have wp := hp_w_nonneg vs p
  have e1 : HP.o (hp vs a) (hp vs b) (hp vs c) = - HP.o (hp vs b) (hp vs a) (hp vs c) := HP.o_swap _ _ _
  have e2 : HP.o (hp vs a) (hp vs b) (hp vs p) = HP.o (hp vs p) (hp vs a) (hp vs b) := HP.o_cyc _ _ _
  have e3 : HP.o (hp vs c) (hp vs p) (hp vs a) = HP.o (hp vs p) (hp vs a) (hp vs c) := HP.o_cyc' _ _ _
  have e4 : HP.o (hp vs c) (hp vs p) (hp vs b) = - HP.o (hp vs p) (hp vs c) (hp vs b) := HP.o_swap _ _ _
  have e5 : HP.o (hp vs a) (hp vs c) (hp vs p) = HP.o (hp vs p) (hp vs a) (hp vs c) := HP.o_cyc _ _ _
  have e6 : HP.o (hp vs c) (hp vs b) (hp vs p) = HP.o (hp vs p) (hp vs c) (hp vs b) := HP.o_cyc _ _ _
  have e7 : HP.o (hp vs b) (hp vs a) (hp vs p) = - HP.o (hp vs p) (hp vs a) (hp vs b) := HP.o_swap'' _ _ _
  rw [e5, e6, e7] at e
  rw [e1, e2, e3, e4]
  have nz : ¬ ((hp vs a).w = 0 ∧ (hp vs b).w = 0) := by
    rintro ⟨za, zb⟩
    have nf : ∀ v, (hp vs v).w = 0 → ¬ v < INF0 := by
      intro v hv hl; rw [hp_w_fin vs hl] at hv; exact one_ne_zero hv
    rcases quad_not_inf h1 h2 with h | h
    · exact nf _ za h
    · exact nf _ zb h
  generalize HP.o (hp vs p) (hp vs a) (hp vs c) = X at *
  generalize HP.o (hp vs p) (hp vs c) (hp vs b) = Y at *
  generalize HP.o (hp vs b) (hp vs a) (hp vs c) = D at *
  generalize HP.o (hp vs p) (hp vs a) (hp vs b) = G at *
  generalize (hp vs a).w = wa' at *
  generalize (hp vs b).w = wb' at *
  generalize (hp vs c).w = wc' at *
  generalize (hp vs p).w = wp' at *
  constructor
  · rintro ⟨-, h⟩
    have h : 0 < X * Y := by linarith
    rcases mul_pos_iff.1 h with h | ⟨hX, hY⟩
    · exact h
    · exfalso
      apply nz
      have t1 : 0 ≤ D * wp' := by positivity
      have t2 : 0 ≤ G * wc' := by positivity
      have t3 : 0 ≤ (-X) * wb' := mul_nonneg (by linarith) wb
      have t4 : 0 ≤ (-Y) * wa' := mul_nonneg (by linarith) wa
      constructor
      · rcases mul_eq_zero.1 (by linarith : (-Y) * wa' = 0) with h | h
        · linarith
        · exact h
      · rcases mul_eq_zero.1 (by linarith : (-X) * wb' = 0) with h | h
        · linarith
        · exact h
  · rintro ⟨hX, hY⟩
    exact ⟨by nlinarith, by nlinarith⟩

/-- `quad_diagonals_intersection` on the quad of two adjacent clockwise triangles. It panics exactly
when the last vertex is infinite; otherwise `Crossing` is the answer exactly for strictly convex
quads. -/
theorem quadDiag_spec (hu : ∀ v ∈ vs, InUnit v) (hn : vs.length ≤ INF0) {a b c p : Nat} (ha : VOk vs.length a)
    (hb : VOk vs.length b) (hc : VOk vs.length c) (hp' : VOk vs.length p)
    (h1 : 0 < HP.o (hp vs b) (hp vs a) (hp vs c)) (h2 : 0 < HP.o (hp vs p) (hp vs a) (hp vs b)) :
    (quadDiag vs ⟨a, b, c, p⟩ = .panic ∧ ¬ p < INF0) ∨
    ∃ r, quadDiag vs ⟨a, b, c, p⟩ = .ok r ∧ p < INF0 ∧
      (r = .crossing ↔ 0 < HP.o (hp vs p) (hp vs a) (hp vs c) ∧ 0 < HP.o (hp vs p) (hp vs c) (hp vs b)) := by
  have geo := quad_cross_iff h1 h2
  have hab := quad_not_inf h1 h2
  have panicInf : ∀ {v : Nat}, v < INF0 → infLocal v = .panic := by
    intro v hv; unfold infLocal; rw [if_pos hv]
  unfold quadDiag collectInfQuad
  by_cases fp : p < INF0
  · right
    obtain ⟨P, gP, xP, eP⟩ := getI_fin hp' fp
    have ip : isInf p = false := by rw [← Bool.not_eq_true, isInf_iff]; omega
    by_cases fa : a < INF0
    · obtain ⟨A, gA, xA, eA⟩ := getI_fin ha fa
      have ia : isInf a = false := by rw [← Bool.not_eq_true, isInf_iff]; omega
      by_cases fb : b < INF0
      · obtain ⟨B, gB, xB, eB⟩ := getI_fin hb fb
        have ib : isInf b = false := by rw [← Bool.not_eq_true, isInf_iff]; omega
        by_cases fc : c < INF0
        · obtain ⟨C, gC, xC, eC⟩ := getI_fin hc fc
          have ic : isInf c = false := by rw [← Bool.not_eq_true, isInf_iff]; omega
          simp [ia, ib, ic, ip, gA, gB, gC, gP, fp]
          rw [← geo, crossing_iff, cross_iff_hp, eA, eB, eC, eP]
        · obtain ⟨k, hk⟩ := infLocal_ok (hc.inf fc hn).1 (hc.inf fc hn).2
          have ic : isInf c = true := by rw [isInf_iff]; omega
          simp [ia, ib, ic, ip, quadDiag1, oppQuadIdx, adjQuadIdx, Quad.v, hk, gA, gB, gP, fp]
          rw [← geo]
          change edgesIntersect (B, A) ((semiInf P k).1, (semiInf P k).2) = _ ↔ _
          rw [crossing_iff, cross_semiInf (unit_get hu xB) (unit_get hu xA) (unit_get hu xP), eA, eB, eP,
            (infLocal_hp vs hk).1, HP.cross_flip_iff', HP.cross_flip_iff]
      · obtain ⟨k, hk⟩ := infLocal_ok (hb.inf fb hn).1 (hb.inf fb hn).2
        have ib : isInf b = true := by rw [isInf_iff]; omega
        by_cases fc : c < INF0
        · obtain ⟨C, gC, xC, eC⟩ := getI_fin hc fc
          have ic : isInf c = false := by rw [← Bool.not_eq_true, isInf_iff]; omega
          simp [ia, ib, ic, ip, quadDiag1, oppQuadIdx, adjQuadIdx, Quad.v, hk, gA, gC, gP, fp]
          rw [← geo]
          change edgesIntersect (P, C) ((semiInf A k).1, (semiInf A k).2) = _ ↔ _
          rw [crossing_iff, cross_semiInf (unit_get hu xP) (unit_get hu xC) (unit_get hu xA), eA, eC, eP,
            (infLocal_hp vs hk).1, HP.cross_symm_iff, HP.cross_flip_iff]
        · obtain ⟨l, hl⟩ := infLocal_ok (hc.inf fc hn).1 (hc.inf fc hn).2
          have ic : isInf c = true := by rw [isInf_iff]; omega
          simp [ia, ib, ic, ip, quadDiag2, oppQuadIdx, adjQuadIdx, Quad.v, hk, hl, gA, gP, fp]
          rw [← geo]
          change edgesIntersect ((semiInf A k).1, (semiInf A k).2) ((semiInf P l).1, (semiInf P l).2) = _ ↔ _
          rw [crossing_iff, cross_semiInf2 (unit_get hu xA) (unit_get hu xP), eA, eP,
            (infLocal_hp vs hk).1, (infLocal_hp vs hl).1, HP.cross_flip_iff]
    · obtain ⟨k, hk⟩ := infLocal_ok (ha.inf fa hn).1 (ha.inf fa hn).2
      have ia : isInf a = true := by rw [isInf_iff]; omega
      have fb : b < INF0 := hab.resolve_left fa
      obtain ⟨B, gB, xB, eB⟩ := getI_fin hb fb
      have ib : isInf b = false := by rw [← Bool.not_eq_true, isInf_iff]; omega
      by_cases fc : c < INF0
      · obtain ⟨C, gC, xC, eC⟩ := getI_fin hc fc
        have ic : isInf c = false := by rw [← Bool.not_eq_true, isInf_iff]; omega
        simp [ia, ib, ic, ip, quadDiag1, oppQuadIdx, adjQuadIdx, Quad.v, hk, gB, gC, gP, fp]
        rw [← geo]
        change edgesIntersect (C, P) ((semiInf B k).1, (semiInf B k).2) = _ ↔ _
        rw [crossing_iff, cross_semiInf (unit_get hu xC) (unit_get hu xP) (unit_get hu xB), eB, eC, eP,
          (infLocal_hp vs hk).1, HP.cross_symm_iff, HP.cross_flip_iff']
      · obtain ⟨l, hl⟩ := infLocal_ok (hc.inf fc hn).1 (hc.inf fc hn).2
        have ic : isInf c = true := by rw [isInf_iff]; omega
        simp [ia, ib, ic, ip, quadDiag2, oppQuadIdx, adjQuadIdx, Quad.v, hk, hl, gB, gP, fp]
        rw [← geo]
        change edgesIntersect ((semiInf B k).1, (semiInf B k).2) ((semiInf P l).1, (semiInf P l).2) = _ ↔ _
        rw [crossing_iff, cross_semiInf2 (unit_get hu xB) (unit_get hu xP), eB, eP,
          (infLocal_hp vs hk).1, (infLocal_hp vs hl).1, HP.cross_flip_iff', HP.cross_flip_iff]
  · left
    refine ⟨?_, fp⟩
    have ip : isInf p = true := by rw [isInf_iff]; omega
    have gP : getI vs p = .panic := by
      unfold getI; rw [List.getElem?_eq_none (by omega)]
    by_cases fa : a < INF0
    · obtain ⟨A, gA, xA, eA⟩ := getI_fin ha fa
      have ia : isInf a = false := by rw [← Bool.not_eq_true, isInf_iff]; omega
      by_cases fb : b < INF0
      · obtain ⟨B, gB, xB, eB⟩ := getI_fin hb fb
        have ib : isInf b = false := by rw [← Bool.not_eq_true, isInf_iff]; omega
        by_cases fc : c < INF0
        · have ic : isInf c = false := by rw [← Bool.not_eq_true, isInf_iff]; omega
          simp [ia, ib, ic, ip, quadDiag1, oppQuadIdx, Quad.v, panicInf fc]
        · obtain ⟨k, hk⟩ := infLocal_ok (hc.inf fc hn).1 (hc.inf fc hn).2
          have ic : isInf c = true := by rw [isInf_iff]; omega
          simp [ia, ib, ic, ip, quadDiag2, oppQuadIdx, Quad.v, hk, gP]
      · obtain ⟨k, hk⟩ := infLocal_ok (hb.inf fb hn).1 (hb.inf fb hn).2
        have ib : isInf b = true := by rw [isInf_iff]; omega
        by_cases fc : c < INF0
        · have ic : isInf c = false := by rw [← Bool.not_eq_true, isInf_iff]; omega
          simp [ia, ib, ic, ip, quadDiag2, oppQuadIdx, Quad.v, hk, gA, panicInf fc]
        · have ic : isInf c = true := by rw [isInf_iff]; omega
          simp [ia, ib, ic, ip]
    · obtain ⟨k, hk⟩ := infLocal_ok (ha.inf fa hn).1 (ha.inf fa hn).2
      have ia : isInf a = true := by rw [isInf_iff]; omega
      have fb : b < INF0 := hab.resolve_left fa
      obtain ⟨B, gB, xB, eB⟩ := getI_fin hb fb
      have ib : isInf b = false := by rw [← Bool.not_eq_true, isInf_iff]; omega
      by_cases fc : c < INF0
      · have ic : isInf c = false := by rw [← Bool.not_eq_true, isInf_iff]; omega
        simp [ia, ib, ic, ip, quadDiag2, oppQuadIdx, Quad.v, hk, gB, panicInf fc]
      · have ic : isInf c = true := by rw [isInf_iff]; omega
        simp [ia, ib, ic, ip]

end

end CDT

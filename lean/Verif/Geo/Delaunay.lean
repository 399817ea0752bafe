import Verif.Geo.CdtAccept

/-! # Insertions inside a convex Delaunay mesh keep it Delaunay -/

set_option linter.unusedSectionVars false
set_option linter.unusedSimpArgs false
set_option linter.unusedVariables false

namespace CDT

section
variable {K : Type} [Field K] [LinearOrder K] [IsStrictOrderedRing K]

/-- Height of a point on the paraboloid. -/
def HP.lift (a : HP K) : K := a.x ^ 2 + a.y ^ 2

/-- In-circle determinant: positive iff `q` is strictly inside the circle of the clockwise triangle `a b c`. -/
def HP.ic (a b c q : HP K) : K :=
  a.lift * HP.o b c q + b.lift * HP.o c a q + c.lift * HP.o a b q - q.lift * HP.o a b c

theorem HP.ic_cyc (a b c q : HP K) : HP.ic b c a q = HP.ic a b c q := by
  unfold HP.ic; rw [HP.o_cyc a b c]; ring

/-- Scalar product of the vectors from `q` to `a` and to `b`. -/
def HP.dot (a b q : HP K) : K := (q.x - a.x) * (q.x - b.x) + (q.y - a.y) * (q.y - b.y)

theorem HP.ic_dot {a b c q : HP K} (ha : a.w = 1) (hb : b.w = 1) (hc : c.w = 1) (hq : q.w = 1) :
    HP.ic a b c q = HP.dot a b c * HP.o a b q - HP.dot a b q * HP.o a b c := by
  simp only [HP.ic, HP.dot, HP.o, HP.lift, ha, hb, hc, hq]; ring

/-- A point of the closed triangle is in its closed circumcircle. -/
theorem HP.ic_inside {a b c q : HP K} (ha : a.w = 1) (hb : b.w = 1) (hc : c.w = 1) (hq : q.w = 1)
    (h : 0 < HP.o a b c) (h1 : 0 ≤ HP.o a b q) (h2 : 0 ≤ HP.o b c q) (h3 : 0 ≤ HP.o c a q) : 0 ≤ HP.ic a b c q := by
  have e : HP.o a b c * HP.ic a b c q = HP.o b c q * HP.o c a q * ((a.x - b.x) ^ 2 + (a.y - b.y) ^ 2) +
      HP.o c a q * HP.o a b q * ((b.x - c.x) ^ 2 + (b.y - c.y) ^ 2) +
      HP.o a b q * HP.o b c q * ((c.x - a.x) ^ 2 + (c.y - a.y) ^ 2) := by
    simp only [HP.ic, HP.o, HP.lift, ha, hb, hc, hq]; ring
  have : 0 ≤ HP.o a b c * HP.ic a b c q := by rw [e]; positivity
  exact nonneg_of_mul_nonneg_right this h

/-- The pencil of circles through `x` and `y`: a point outside the circle of `x y z`, whose closed disc contains
`p`, and outside the circle of `y x c`, which does not contain `p`, is outside the circle of `x y p`. -/
theorem HP.pencil {x y z p q : HP K} (hx : x.w = 1) (hy : y.w = 1) (hz : z.w = 1) (hp : p.w = 1) (hq : q.w = 1)
    (pz : 0 < HP.o x y z) (pp : 0 < HP.o x y p) (hzp : 0 ≤ HP.ic x y z p) (hzq : HP.ic x y z q ≤ 0)
    (hc : HP.o x y q < 0 → ∃ c : HP K, c.w = 1 ∧ 0 < HP.o y x c ∧ HP.ic y x c p ≤ 0 ∧ HP.ic y x c q ≤ 0) :
    HP.ic x y p q ≤ 0 := by
  rw [HP.ic_dot hx hy hz hp] at hzp
  rw [HP.ic_dot hx hy hz hq] at hzq
  rw [HP.ic_dot hx hy hp hq]
  rcases le_or_gt 0 (HP.o x y q) with h | h
  · have : HP.o x y z * (HP.dot x y p * HP.o x y q - HP.dot x y q * HP.o x y p) ≤ 0 := by
      have m1 := mul_nonneg hzp h
      have m2 := mul_nonneg (neg_nonneg.2 hzq) pp.le
      linarith
    exact nonpos_of_mul_nonpos_right this pz
  · obtain ⟨c, hcw, pc, h1, h2⟩ := hc h
    rw [HP.ic_dot hy hx hcw hp, HP.o_swap x y p] at h1
    rw [HP.ic_dot hy hx hcw hq, HP.o_swap x y q] at h2
    have e : ∀ r : HP K, HP.dot y x r = HP.dot x y r := fun r => by simp only [HP.dot]; ring
    simp only [e] at h1 h2
    have : HP.o y x c * (HP.dot x y p * HP.o x y q - HP.dot x y q * HP.o x y p) ≤ 0 := by
      have m1 := mul_nonneg (neg_nonneg.2 h1) (neg_nonneg.2 h.le)
      have m2 := mul_nonneg (neg_nonneg.2 h2) pp.le
      linarith
    exact nonpos_of_mul_nonpos_right this pc

/-- The lifting argument: a triangle `u v w` beyond the edge `a b` of the triangle `p a b` whose circle contains `p`,
next to a triangle `b a c` whose circle does not contain `p`. -/
theorem HP.beyond {u v w a b c p m : HP K} (hu : u.w = 1) (hv : v.w = 1) (hw : w.w = 1) (ha : a.w = 1) (hb : b.w = 1)
    (hc : c.w = 1) (hp : p.w = 1) (hm : m.w = 1) (pT : 0 < HP.o u v w) (pS : 0 < HP.o b a c) (pP : 0 < HP.o p a b)
    (hTp : 0 < HP.ic u v w p) (hTa : HP.ic u v w a ≤ 0) (hTb : HP.ic u v w b ≤ 0) (hSp : HP.ic b a c p ≤ 0)
    (hSu : HP.ic b a c u ≤ 0) (hSv : HP.ic b a c v ≤ 0) (hSw : HP.ic b a c w ≤ 0)
    (i1 : 0 < HP.o u v m) (i2 : 0 < HP.o v w m) (i3 : 0 < HP.o w u m)
    (c1 : 0 < HP.o p a m) (c2 : HP.o p b m < 0) (c3 : HP.o a b m < 0) : False := by
  -- heights of the two planes, times the areas
  have T0 : ∀ g : HP K, g.w = 1 → HP.ic u v w g = u.lift * HP.o v w g + v.lift * HP.o w u g + w.lift * HP.o u v g -
      g.lift * HP.o u v w := fun g _ => rfl
  set D := HP.o u v w with hD
  set E := HP.o b a c with hE
  let LT : HP K → K := fun g => u.lift * HP.o v w g + v.lift * HP.o w u g + w.lift * HP.o u v g
  let LS : HP K → K := fun g => b.lift * HP.o a c g + a.lift * HP.o c b g + c.lift * HP.o b a g
  have eT : ∀ g : HP K, HP.ic u v w g = LT g - g.lift * D := fun g => rfl
  have eS : ∀ g : HP K, HP.ic b a c g = LS g - g.lift * E := fun g => rfl
  -- difference of the planes
  let h : HP K → K := fun g => E * LT g - D * LS g
  have hp0 : 0 < h p := by
    have : h p = E * HP.ic u v w p - D * HP.ic b a c p := by rw [eT, eS]; ring
    rw [this]
    have := mul_pos pS hTp
    have := mul_nonneg pT.le (neg_nonneg.2 hSp)
    linarith
  have ea : HP.ic b a c a = 0 := by simp only [HP.ic, HP.o]; ring
  have eb : HP.ic b a c b = 0 := by simp only [HP.ic, HP.o]; ring
  have ha0 : h a ≤ 0 := by
    have : h a = E * HP.ic u v w a - D * HP.ic b a c a := by rw [eT, eS]; ring
    rw [this, ea]
    have := mul_nonneg pS.le (neg_nonneg.2 hTa)
    linarith
  have hb0 : h b ≤ 0 := by
    have : h b = E * HP.ic u v w b - D * HP.ic b a c b := by rw [eT, eS]; ring
    rw [this, eb]
    have := mul_nonneg pS.le (neg_nonneg.2 hTb)
    linarith
  have eu : HP.ic u v w u = 0 := by simp only [HP.ic, HP.o]; ring
  have ev : HP.ic u v w v = 0 := by simp only [HP.ic, HP.o]; ring
  have ew : HP.ic u v w w = 0 := by simp only [HP.ic, HP.o]; ring
  have key : ∀ g : HP K, h g = E * HP.ic u v w g - D * HP.ic b a c g := fun g => by rw [eT, eS]; ring
  have hu0 : 0 ≤ h u := by
    rw [key, eu]; have := mul_nonneg pT.le (neg_nonneg.2 hSu); linarith
  have hv0 : 0 ≤ h v := by
    rw [key, ev]; have := mul_nonneg pT.le (neg_nonneg.2 hSv); linarith
  have hw0 : 0 ≤ h w := by
    rw [key, ew]; have := mul_nonneg pT.le (neg_nonneg.2 hSw); linarith
  -- `h` is affine
  have aff : ∀ r s t g : HP K, HP.o s t g * h r + HP.o t r g * h s + HP.o r s g * h t = HP.o r s t * h g := by
    intro r s t g
    have bo := fun d e => HP.bary_o r s t g d e
    simp only [h, LT, LS, HP.o]; ring
  have hm0 : 0 ≤ h m := by
    have e := aff u v w m
    have m1 := mul_nonneg i2.le hu0
    have m2 := mul_nonneg i3.le hv0
    have m3 := mul_nonneg i1.le hw0
    have : 0 ≤ D * h m := by rw [hD]; linarith
    exact nonneg_of_mul_nonneg_right this pT
  have e := aff p a b m
  have m1 := mul_neg_of_neg_of_pos c3 hp0
  have m2 : HP.o b p m * h a ≤ 0 := by
    rw [HP.o_swap]; exact mul_nonpos_of_nonneg_of_nonpos (by linarith) ha0
  have m3 := mul_nonpos_of_nonneg_of_nonpos c1.le hb0
  have m4 := mul_nonneg pP.le hm0
  linarith

end

section
variable {K : Type} [Field K] [LinearOrder K] [IsStrictOrderedRing K] [ExactParams K] [IdCfg]
variable {vs : List (Vtx K)} {ts ts0 ts' : List Tri}

/-- Some triangle of the mesh has the vertices `a`, `b`, `c` in this cyclic order. -/
def TriIn (ts : List Tri) (a b c : Nat) : Prop := ∃ (i : Nat) (T : Tri) (j1 j2 j3 : Nat), ts[i]? = some T ∧ Rot T a b c j1 j2 j3

theorem TriIn.next {a b c : Nat} (h : TriIn ts a b c) : TriIn ts b c a := by
  obtain ⟨i, T, _, _, _, hT, hR⟩ := h
  exact ⟨i, T, _, _, _, hT, hR.next⟩

theorem triIn_get {i : Nat} {T : Tri} (h : ts[i]? = some T) : TriIn ts T.v1 T.v2 T.v3 :=
  ⟨i, T, _, _, _, h, rot_self T⟩

theorem TriIn.pos {a b c : Nat} (h : TriIn ts a b c) (hv : Valid (hp vs) ts) : 0 < HP.o (hp vs a) (hp vs b) (hp vs c) := by
  obtain ⟨i, T, _, _, _, hT, hR⟩ := h
  exact hR.pos_iff.1 (hv.pos _ _ hT)

theorem TriIn.occ {a b c : Nat} (h : TriIn ts a b c) : Occ ts a := by
  obtain ⟨i, T, _, _, _, hT, hR⟩ := h
  exact ⟨i, T, hT, hR.hasVert.2 (.inl rfl)⟩

/-- Convex Delaunay mesh: no real mesh vertex is strictly inside the circumcircle of a finite triangle, and all real mesh
vertices are on the inner side of the edges behind which there is one artificial vertex. -/
structure Emp (vs : List (Vtx K)) (ts : List Tri) : Prop where
  circ : ∀ a b c q, TriIn ts a b c → a < INF0 → b < INF0 → c < INF0 → Occ ts q → q < INF0 →
    HP.ic (hp vs a) (hp vs b) (hp vs c) (hp vs q) ≤ 0
  hull : ∀ x y z q, TriIn ts y x z → x < INF0 → y < INF0 → ¬ z < INF0 → Occ ts q → q < INF0 →
    0 ≤ HP.o (hp vs x) (hp vs y) (hp vs q)

/-- The point `P` is in no triangle with an artificial vertex and on the inner side of the hull edges. -/
structure Inner (vs : List (Vtx K)) (ts : List Tri) (P : HP K) : Prop where
  far : ∀ a b c, TriIn ts a b c → ¬ a < INF0 → HP.o (hp vs a) (hp vs b) P < 0 ∨ HP.o (hp vs b) (hp vs c) P < 0 ∨
    HP.o (hp vs c) (hp vs a) P < 0
  hull : ∀ x y z, TriIn ts y x z → x < INF0 → y < INF0 → ¬ z < INF0 → 0 ≤ HP.o (hp vs x) (hp vs y) P

/-- The triangles around the inserted vertex `p`, compared with the mesh `ts0` before the insertion. -/
def StarInv (vs : List (Vtx K)) (ts0 : List Tri) (p : Nat) (ts : List Tri) : Prop :=
  ∀ (i : Nat) (T : Tri), ts[i]? = some T → TriIn ts0 T.v1 T.v2 T.v3 ∨ (T.v1 = p ∧ T.v2 < INF0 ∧ T.v3 < INF0 ∧ ∃ z, z < INF0 ∧
    TriIn ts0 T.v2 T.v3 z ∧ 0 ≤ HP.ic (hp vs T.v2) (hp vs T.v3) (hp vs z) (hp vs p))

theorem Rot.triIn {T : Tri} {a b c j1 j2 j3 : Nat} (hR : Rot T a b c j1 j2 j3) (h : TriIn ts T.v1 T.v2 T.v3) :
    TriIn ts a b c := by
  rcases hR with rfl | rfl | rfl
  · exact h
  · exact h.next
  · exact h.next.next

theorem ic_crS {a b c p : Vtx K} :
    HP.ic (HP.ofVtx b) (HP.ofVtx a) (HP.ofVtx c) (HP.ofVtx p) = - crS a b c p := by
  simp only [HP.ic, HP.o, HP.lift, HP.ofVtx, crS]; ring

/-- The swap test with four real vertices. -/
theorem shouldSwap_ic {a b c p : Nat} (ha : VOk vs.length a) (hb : VOk vs.length b) (hc : VOk vs.length c)
    (hp' : p < vs.length) (hpf : p < INF0) (haf : a < INF0) (hbf : b < INF0)
    (h1 : 0 < HP.o (hp vs b) (hp vs a) (hp vs c)) (h2 : 0 < HP.o (hp vs p) (hp vs a) (hp vs b)) :
    (shouldSwap vs ⟨a, b, c, p⟩ = .ok true → c < INF0 ∧ 0 < HP.ic (hp vs b) (hp vs a) (hp vs c) (hp vs p)) ∧
    (shouldSwap vs ⟨a, b, c, p⟩ = .ok false → c < INF0 → HP.ic (hp vs b) (hp vs a) (hp vs c) (hp vs p) ≤ 0) := by
  obtain ⟨P, gP, _, eP⟩ := getI_fin (vs := vs) (.inl hp') hpf
  obtain ⟨A, gA, _, eA⟩ := getI_fin ha haf
  obtain ⟨B, gB, _, eB⟩ := getI_fin hb hbf
  unfold shouldSwap
  by_cases hcf : c < INF0
  swap
  · rw [if_pos (isInf_iff.2 (by simpa using hcf))]
    exact ⟨fun h => by simp at h, fun _ h => absurd h hcf⟩
  rw [if_neg (by rw [isInf_iff]; simpa using hcf)]
  obtain ⟨C, gC, _, eC⟩ := getI_fin hc hcf
  simp only [isFin_iff.2 haf, isFin_iff.2 hbf, gA, gB, gC, gP, Res.ok_bind, Bool.and_self, if_true]
  rw [eA, eB, eC] at h1
  rw [eP, eA, eB] at h2
  rw [eA, eB, eC, eP, ic_crS]
  constructor
  · intro h
    simp at h
    exact ⟨hcf, by have := (inCircumcircle_iff h1 h2).1 h; linarith⟩
  · intro h _
    simp at h
    by_contra hcon
    have : inCircumcircle A B C P = true := (inCircumcircle_iff h1 h2).2 (by linarith)
    rw [h] at this
    exact Bool.false_ne_true this

/-- One step of the restoration keeps the comparison with the old mesh. -/
theorem StarInv.step {p s o : Nat} {st st' : List (Nat × Nat)} (hI : RInv vs p ts ((s, o) :: st))
    (hS : StarInv vs ts0 p ts) (hfresh : ¬ Occ ts0 p) (hn : vs.length ≤ INF0) (hpl : p < vs.length)
    (hr : checkAndSwap vs p ts s o st = .ok (ts', st')) : StarInv vs ts0 p ts' := by
  have hv := hI.valid
  have hpf : p < INF0 := by omega
  obtain ⟨T, hT, hT1, hT2, ho⟩ := hI.stack (s, o) (by simp)
  obtain ⟨v1, a, b, n2, n23, n1⟩ := T
  simp only at hT hT1 hT2 ho
  subst hT1 hT2
  obtain ⟨U, c, n3, n4, hU, hRU, hcase⟩ := checkAndSwap_total (st := st) hv hn hI.ok hpl hT ho
  rcases hcase with ⟨hsw, hres⟩ | ⟨hsw, ts2, hres, hF, hs', ho', g1, g2⟩
  · rw [hres] at hr; simp at hr; rw [← hr.1]; exact hS
  rw [hres] at hr; simp at hr
  obtain ⟨rfl, _⟩ := hr
  have hR := rot_self (⟨v1, a, b, n2, n23, n1⟩ : Tri)
  simp only at hR
  have pS := hR.pos_iff.1 (hv.pos _ _ hT)
  have pU := hRU.pos_iff.1 (hv.pos _ _ hU)
  have oka : VOk vs.length a := hI.ok.get hT 1
  have okb : VOk vs.length b := hI.ok.get hT 2
  have okc : VOk vs.length c := by
    have := fun k => hI.ok.get hU k
    rw [forall_fin3] at this
    rcases hRU with rfl | rfl | rfl
    · exact this.2.2
    · exact this.1
    · exact this.2.1
  have hab : a < INF0 ∧ b < INF0 := by
    rcases hS _ _ hT with h | ⟨_, h1, h2, _⟩
    · exact absurd h.occ hfresh
    · exact ⟨h1, h2⟩
  obtain ⟨hcf, hic⟩ := (shouldSwap_ic oka okb okc hpl hpf hab.1 hab.2 pU pS).1 hsw
  have hUp : U.v1 ≠ v1 := by
    intro h
    have hh : U.hasVert v1 = true := hasVert_iff.2 (.inl h)
    rw [hRU.hasVert] at hh
    rcases hh with rfl | rfl | rfl
    · rw [HP.o_same''] at pS; exact lt_irrefl _ pS
    · rw [HP.o_same] at pS; exact lt_irrefl _ pS
    · rw [HP.o_same] at g2; exact lt_irrefl _ g2
  have old : TriIn ts0 b a c := by
    rcases hS _ _ hU with h | ⟨h, _⟩
    · exact hRU.triIn h
    · exact absurd h hUp
  intro i X hX
  by_cases his : i = s
  · subst his; rw [hs'] at hX; simp at hX; subst hX
    exact .inr ⟨rfl, hab.1, hcf, b, hab.2, old.next, by rw [HP.ic_cyc]; exact hic.le⟩
  by_cases hio : i = n23
  · subst hio; rw [ho'] at hX; simp at hX; subst hX
    exact .inr ⟨rfl, hcf, hab.2, a, hab.1, old.next.next, by rw [HP.ic_cyc, HP.ic_cyc]; exact hic.le⟩
  obtain ⟨X0, hX0, w1, w2, w3⟩ := hF.verts_other his hio hX
  have := hS _ _ hX0
  rw [w1, w2, w3]
  exact this

/-- The whole restoration. -/
theorem restore_star {p : Nat} (hfresh : ¬ Occ ts0 p) (hn : vs.length ≤ INF0) (hpl : p < vs.length) (fuel : Nat) :
    ∀ (ts : List Tri) (st : List (Nat × Nat)), RInv vs p ts st → StarInv vs ts0 p ts → ∀ ts', restore vs p fuel ts st = .ok ts' →
      StarInv vs ts0 p ts' := by
  induction fuel with
  | zero =>
    intro ts st hI hS ts' h
    cases st with
    | nil => simp [restore] at h; subst h; exact hS
    | cons e st => simp [restore] at h
  | succ n ih =>
    intro ts st hI hS ts' h
    cases st with
    | nil => simp [restore] at h; subst h; exact hS
    | cons e st =>
      obtain ⟨s, o⟩ := e
      obtain ⟨ts1, st1, h1, hI', _⟩ := hI.step hn hpl
      simp only [restore, h1, Res.ok_bind] at h
      exact ih ts1 st1 hI' (hS.step hI hfresh hn hpl h1) ts' h

theorem StarInv.old {p a b c : Nat} (hS : StarInv vs ts0 p ts) (h : TriIn ts a b c)
    (hc : (a ≠ p ∧ b ≠ p ∧ c ≠ p) ∨ (¬ a < INF0 ∨ ¬ b < INF0 ∨ ¬ c < INF0) ∧ p < INF0) : TriIn ts0 a b c := by
  obtain ⟨i, T, _, _, _, hT, hR⟩ := h
  rcases hS i T hT with h | ⟨h1, h2, h3, _⟩
  · exact hR.triIn h
  · exfalso
    rcases hR with rfl | rfl | rfl <;> simp only at h1 h2 h3 <;> subst h1 <;> rcases hc with h | ⟨h | h | h, hp⟩ <;>
      first
      | exact h.1 rfl
      | exact h.2.1 rfl
      | exact h.2.2 rfl
      | exact h ‹_›

theorem StarInv.star {p x y : Nat} (hS : StarInv vs ts0 p ts) (hv : Valid (hp vs) ts) (hfresh : ¬ Occ ts0 p)
    (h : TriIn ts p x y) : x < INF0 ∧ y < INF0 ∧ ∃ z, z < INF0 ∧
    TriIn ts0 x y z ∧ 0 ≤ HP.ic (hp vs x) (hp vs y) (hp vs z) (hp vs p) := by
  have hp0 := h.pos hv
  obtain ⟨i, T, _, _, _, hT, hR⟩ := h
  rcases hS i T hT with h | ⟨h1, h2, h3, h4⟩
  · exact absurd (hR.triIn h).occ hfresh
  · rcases hR with rfl | rfl | rfl
    · exact ⟨h2, h3, h4⟩
    · simp only at h1; subst h1; rw [HP.o_same''] at hp0; exact absurd hp0 (lt_irrefl _)
    · simp only at h1; subst h1; rw [HP.o_same] at hp0; exact absurd hp0 (lt_irrefl _)

theorem StarInv.occ {p q : Nat} (hS : StarInv vs ts0 p ts) (h : Occ ts q) : q = p ∨ Occ ts0 q := by
  obtain ⟨i, T, hT, hh⟩ := h
  rw [hasVert_iff] at hh
  rcases hS i T hT with h | ⟨h1, h2, h3, z, _, h4, _⟩
  · rcases hh with rfl | rfl | rfl
    · exact .inr h.occ
    · exact .inr h.next.occ
    · exact .inr h.next.next.occ
  · rcases hh with rfl | rfl | rfl
    · exact .inl h1
    · exact .inr h4.occ
    · exact .inr h4.next.occ

/-- A triangle around `p` after the restoration and the triangle behind its edge opposite to `p`. -/
theorem star_behind {p x y : Nat} (hI : RInv vs p ts []) (hS : StarInv vs ts0 p ts) (hfresh : ¬ Occ ts0 p)
    (hn : vs.length ≤ INF0) (hpl : p < vs.length) (h : TriIn ts p x y) :
    ∃ c, TriIn ts y x c ∧ TriIn ts0 y x c ∧ (c < INF0 → HP.ic (hp vs y) (hp vs x) (hp vs c) (hp vs p) ≤ 0) := by
  have hv := hI.valid
  obtain ⟨hx, hy, -⟩ := hS.star hv hfresh h
  have hp0 := h.pos hv
  obtain ⟨i, T, j1, j2, j3, hT, hR⟩ := h
  have h1 := hI.first i T hT (hR.hasVert.2 (.inl rfl))
  have hT' : T = ⟨p, x, y, j1, j2, j3⟩ := by
    rcases hR with rfl | rfl | rfl
    · rfl
    · simp only at h1; subst h1; rw [HP.o_same''] at hp0; exact absurd hp0 (lt_irrefl _)
    · simp only at h1; subst h1; rw [HP.o_same] at hp0; exact absurd hp0 (lt_irrefl _)
  subst hT'
  have hN : j2 ≠ NONE := by
    rcases hv.adj _ _ _ _ ⟨_, hT, hR.has2⟩ with ⟨_, h, _⟩ | h
    · exact absurd hx h
    · exact h.1
  obtain ⟨U, hU, hh⟩ := hv.ent_pos ⟨_, hT, hR.has2⟩ hN
  obtain ⟨c, m2, m3, hRU⟩ := hh.rot
  have pU := hRU.pos_iff.1 (hv.pos _ _ hU)
  have hcp : c ≠ p := by
    rintro rfl
    have e : HP.o (hp vs y) (hp vs x) (hp vs c) = - HP.o (hp vs c) (hp vs x) (hp vs y) := by simp only [HP.o]; ring
    linarith
  have hyp : y ≠ p := by rintro rfl; rw [HP.o_same''] at hp0; exact lt_irrefl _ hp0
  have hxp : x ≠ p := by rintro rfl; rw [HP.o_same] at hp0; exact lt_irrefl _ hp0
  refine ⟨c, ⟨_, U, _, _, _, hU, hRU⟩, hS.old ⟨_, U, _, _, _, hU, hRU⟩ (.inl ⟨hyp, hxp, hcp⟩), fun hcf => ?_⟩
  have hsw := (hI.settled i _ hT rfl).resolve_left (by simp) _ _ _ _ _ hT hN U c _ _ _ hU hRU
  have okc : VOk vs.length c := by
    have := fun k => hI.ok.get hU k
    rw [forall_fin3] at this
    rcases hRU with rfl | rfl | rfl
    · exact this.2.2
    · exact this.1
    · exact this.2.1
  exact (shouldSwap_ic (hI.ok.get hT 1) (hI.ok.get hT 2) okc hpl (by omega) hx hy pU hp0).2 hsw hcf

/-- A restored mesh around a vertex inserted inside a convex Delaunay mesh is a convex Delaunay mesh. -/
theorem Emp.insert {p : Nat} (hE : Emp vs ts0) (hI : RInv vs p ts []) (hS : StarInv vs ts0 p ts) (hfresh : ¬ Occ ts0 p)
    (hv0 : Valid (hp vs) ts0) (ht : Tiled vs ts) (hn : vs.length ≤ INF0) (hpl : p < vs.length) (hocc : Occ ts p)
    (hin : Inner vs ts0 (hp vs p)) : Emp vs ts := by
  have hv := hI.valid
  have hpf : p < INF0 := by omega
  have wf := fun {i : Nat} (h : i < INF0) => hp_w_fin vs h
  -- triangles around `p`
  have starEmpty : ∀ x y q, TriIn ts p x y → Occ ts q → q < INF0 →
      HP.ic (hp vs p) (hp vs x) (hp vs y) (hp vs q) ≤ 0 := by
    intro x y q hT hq hqf
    rcases hS.occ hq with rfl | hq0
    · have : HP.ic (hp vs q) (hp vs x) (hp vs y) (hp vs q) = 0 := by simp only [HP.ic, HP.o]; ring
      rw [this]
    obtain ⟨hx, hy, z, hz, hz0, hzp⟩ := hS.star hv hfresh hT
    have pp := hT.pos hv
    rw [← HP.o_cyc] at pp
    obtain ⟨c, hc, hc0, hcp⟩ := star_behind hI hS hfresh hn hpl hT
    rw [← HP.ic_cyc]
    refine HP.pencil (wf hx) (wf hy) (wf hz) (wf hpf) (wf hqf) (hz0.pos hv0) pp hzp
      (hE.circ _ _ _ _ hz0 hx hy hz hq0 hqf) fun hneg => ?_
    by_cases hcf : c < INF0
    · exact ⟨hp vs c, wf hcf, hc.pos hv, hcp hcf, hE.circ _ _ _ _ hc0 hy hx hcf hq0 hqf⟩
    · exact absurd (hE.hull _ _ _ _ hc0 hx hy hcf hq0 hqf) (not_le.2 hneg)
  -- other triangles
  have oldEmpty : ∀ u v w, TriIn ts u v w → u ≠ p → v ≠ p → w ≠ p → u < INF0 → v < INF0 → w < INF0 →
      HP.ic (hp vs u) (hp vs v) (hp vs w) (hp vs p) ≤ 0 := by
    intro u v w hT hup hvp hwp hu hv' hw
    by_contra hcon
    have hcon := not_le.1 hcon
    have hT0 := hS.old hT (.inl ⟨hup, hvp, hwp⟩)
    have pT := hT.pos hv
    obtain ⟨iT, T, _, _, _, gT, hRT⟩ := hT
    obtain ⟨G, y, hG, -⟩ := exists_inner pT (hp_w_nonneg vs u) (hp_w_nonneg vs v) (hp_w_nonneg vs w) (B := hp vs p)
      (by rw [wf hpf]; exact one_pos)
    have hGw := in3_w (hp_w_nonneg vs u) (hp_w_nonneg vs v) (hp_w_nonneg vs w) pT hG
    obtain ⟨d, d0, hd⟩ := (hG.nrm hGw).near
    obtain ⟨e, e0, e1, hgen⟩ := exists_generic vs ts G.nrm d0
    have hm := hd e e0 e1
    set m := G.nrm.move e with hmdef
    have hmw : m.w = 1 := rfl
    obtain ⟨i0, T0, gT0, hT0p⟩ := hocc
    obtain ⟨x0, y0, _, _, _, hR0, -⟩ := vertexIndex_rot4 hT0p (hv.pos _ _ gT0)
    have occT : ∀ {i : Nat} {T : Tri} {a b c j1 j2 j3 : Nat}, ts[i]? = some T → Rot T a b c j1 j2 j3 →
        Occ ts a ∧ Occ ts b ∧ Occ ts c := fun h hR =>
      ⟨⟨_, _, h, hR.hasVert.2 (by simp)⟩, ⟨_, _, h, hR.hasVert.2 (by simp)⟩, ⟨_, _, h, hR.hasVert.2 (by simp)⟩⟩
    have ne0 : ∀ {a b : Nat}, Occ ts a → Occ ts b → a < INF0 → (∃ c, 0 < HP.o (hp vs a) (hp vs b) c) →
        HP.o (hp vs a) (hp vs b) m ≠ 0 := by
      rintro a b ha hb haf ⟨c, hc⟩
      refine hgen a b ha hb (.inl haf) fun h => ?_
      rw [h, HP.o_same] at hc; exact lt_irrefl _ hc
    have n0 := ne0 (occT gT0 hR0).1 (occT gT0 hR0).2.1 hpf ⟨_, hR0.pos_iff.1 (hv.pos _ _ gT0)⟩
    obtain ⟨_, _, _, _, hwedge⟩ := Star.wedge hv hpf (s := i0) ⟨T0, gT0, hT0p⟩
    obtain ⟨k, _, S, a, b, _, _, _, gS, hRS, k1, k2⟩ := hwedge m (hp vs x0) (by rw [HP.o_swap']; exact neg_ne_zero.2 n0)
    have hSt : TriIn ts p a b := ⟨_, S, _, _, _, gS, hRS⟩
    have pS := hSt.pos hv
    obtain ⟨ha, hb, -⟩ := hS.star hv hfresh hSt
    obtain ⟨oP, oa, ob⟩ := occT gS hRS
    have k1 := lt_of_le_of_ne k1 (ne0 oP oa hpf ⟨_, pS⟩).symm
    have k3 : HP.o (hp vs a) (hp vs b) m < 0 := by
      refine lt_of_le_of_ne (not_lt.1 fun hlt => ?_) (ne0 oa ob ha ⟨hp vs p, by rwa [HP.o_cyc]⟩)
      have i1 : In3 (hp vs p) (hp vs a) (hp vs b) m := ⟨k1, hlt, by rw [HP.o_swap]; linarith⟩
      have := ht.disjoint hmw ((inAt_rot gS hRS).2 i1) ((inAt_rot gT hRT).2 hm)
      rw [this, gT] at gS
      simp at gS; subst gS
      have : T.hasVert p = true := hRS.hasVert.2 (.inl rfl)
      rw [hRT.hasVert] at this
      rcases this with h | h | h
      · exact hup h
      · exact hvp h
      · exact hwp h
    obtain ⟨c, hc, hc0, hcp⟩ := star_behind hI hS hfresh hn hpl hSt
    have oa0 := hc0.next.occ
    have ob0 := hc0.occ
    have ou0 := hT0.occ
    have ov0 := hT0.next.occ
    have ow0 := hT0.next.next.occ
    by_cases hcf : c < INF0
    · refine HP.beyond (wf hu) (wf hv') (wf hw) (wf ha) (wf hb) (wf hcf) (wf hpf) hmw pT (hc.pos hv) pS hcon
        (hE.circ _ _ _ _ hT0 hu hv' hw oa0 ha) (hE.circ _ _ _ _ hT0 hu hv' hw ob0 hb) (hcp hcf)
        (hE.circ _ _ _ _ hc0 hb ha hcf ou0 hu) (hE.circ _ _ _ _ hc0 hb ha hcf ov0 hv')
        (hE.circ _ _ _ _ hc0 hb ha hcf ow0 hw) hm.1 hm.2.1 hm.2.2 k1 k2 k3
    · have hh := fun q oq qf => hE.hull a b c q hc0 ha hb hcf oq qf
      have e := HP.bary_o (hp vs u) (hp vs v) (hp vs w) m (hp vs a) (hp vs b)
      have hu1 := hh u ou0 hu
      have hv1 := hh v ov0 hv'
      have hw1 := hh w ow0 hw
      rw [← HP.o_cyc'] at hu1 hv1 hw1 k3
      have m1 := mul_nonneg hm.1.le hw1
      have m2 := mul_nonneg hm.2.1.le hu1
      have m3 := mul_nonneg hm.2.2.le hv1
      have m4 := mul_neg_of_pos_of_neg pT k3
      simp only [HP.o] at m1 m2 m3 m4
      linarith
  refine ⟨?_, ?_⟩
  · intro a b c q hT ha hb hc hq hqf
    by_cases hap : a = p
    · subst hap; exact starEmpty _ _ _ hT hq hqf
    by_cases hbp : b = p
    · subst hbp; rw [← HP.ic_cyc]; exact starEmpty _ _ _ hT.next hq hqf
    by_cases hcp : c = p
    · subst hcp; rw [← HP.ic_cyc, ← HP.ic_cyc]; exact starEmpty _ _ _ hT.next.next hq hqf
    rcases hS.occ hq with rfl | hq0
    · exact oldEmpty _ _ _ hT hap hbp hcp ha hb hc
    · exact hE.circ _ _ _ _ (hS.old hT (.inl ⟨hap, hbp, hcp⟩)) ha hb hc hq0 hqf
  · intro x y z q hT hx hy hz hq hqf
    have hT0 := hS.old hT (.inr ⟨.inr (.inr hz), hpf⟩)
    rcases hS.occ hq with rfl | hq0
    · exact hin.hull _ _ _ hT0 hx hy hz
    · exact hE.hull _ _ _ _ hT0 hx hy hz hq0 hqf

/-- The vertices of the mesh after a split. -/
theorem MStep.star {vid : Nat} (h : MStep (hp vs) ts0 ts) (hl : ts.length = ts0.length + 2) (hv : Valid (hp vs) ts0)
    (hfresh : ¬ Occ ts0 vid) (hocc : Occ ts vid) (hvf : vid < INF0) (hin : Inner vs ts0 (hp vs vid)) : StarInv vs ts0 vid ts := by
  have wf := fun {i : Nat} (h : i < INF0) => hp_w_fin vs h
  -- a triangle containing the new point is finite
  have fin : ∀ {a b c : Nat}, TriIn ts0 a b c → 0 ≤ HP.o (hp vs a) (hp vs b) (hp vs vid) →
      0 ≤ HP.o (hp vs b) (hp vs c) (hp vs vid) → 0 ≤ HP.o (hp vs c) (hp vs a) (hp vs vid) → a < INF0 ∧ b < INF0 ∧ c < INF0 := by
    intro a b c hT h1 h2 h3
    refine ⟨?_, ?_, ?_⟩ <;> by_contra hc
    · rcases hin.far _ _ _ hT hc with h | h | h <;> linarith
    · rcases hin.far _ _ _ hT.next hc with h | h | h <;> linarith
    · rcases hin.far _ _ _ hT.next.next hc with h | h | h <;> linarith
  have inside : ∀ {a b c : Nat}, TriIn ts0 a b c → 0 ≤ HP.o (hp vs a) (hp vs b) (hp vs vid) →
      0 ≤ HP.o (hp vs b) (hp vs c) (hp vs vid) → 0 ≤ HP.o (hp vs c) (hp vs a) (hp vs vid) →
      a < INF0 ∧ b < INF0 ∧ ∃ z, z < INF0 ∧ TriIn ts0 a b z ∧ 0 ≤ HP.ic (hp vs a) (hp vs b) (hp vs z) (hp vs vid) := by
    intro a b c hT h1 h2 h3
    obtain ⟨ha, hb, hc⟩ := fin hT h1 h2 h3
    exact ⟨ha, hb, c, hc, hT, HP.ic_inside (wf ha) (wf hb) (wf hc) (wf hvf) (hT.pos hv) h1 h2 h3⟩
  cases h with
  | split3 ht hs hl' h =>
    rename_i t1 p t
    have hT := triIn_get ht
    have hp : vid = p := by
      obtain ⟨i, T, gT, hh⟩ := hocc
      have hil := lt_of_getElem? gT
      rw [hs.len] at hil
      rw [hasVert_iff] at hh
      by_cases h1 : i = t1
      · subst h1; rw [hs.h1] at gT; simp at gT; subst gT
        rcases hh with rfl | rfl | rfl
        · rfl
        · exact absurd hT.next.next.occ hfresh
        · exact absurd hT.occ hfresh
      by_cases h2 : i = ts0.length
      · subst h2; rw [hs.h2] at gT; simp at gT; subst gT
        rcases hh with rfl | rfl | rfl
        · rfl
        · exact absurd hT.next.occ hfresh
        · exact absurd hT.next.next.occ hfresh
      by_cases h3 : i = ts0.length + 1
      · subst h3; rw [hs.h3] at gT; simp at gT; subst gT
        rcases hh with rfl | rfl | rfl
        · rfl
        · exact absurd hT.occ hfresh
        · exact absurd hT.next.occ hfresh
      exfalso
      obtain ⟨u0, hu0, w1, w2, w3⟩ := hs.verts_other (by omega) h1 gT
      refine hfresh ⟨i, u0, hu0, ?_⟩
      rw [hasVert_iff]; rwa [w1, w2, w3] at hh
    subst hp
    have s0 := (h 0).le
    have s1 := (h 1).le
    have s2 := (h 2).le
    simp only [sideO, Tri.v_0, Tri.v_1, Tri.v_2, show (0 : Fin 3) + 1 = 1 from rfl, show (1 : Fin 3) + 1 = 2 from rfl,
      show (2 : Fin 3) + 1 = 0 from rfl] at s0 s1 s2
    intro i T gT
    have hil := lt_of_getElem? gT
    rw [hs.len] at hil
    by_cases h1 : i = t1
    · subst h1; rw [hs.h1] at gT; simp at gT; subst gT
      exact .inr ⟨rfl, inside hT.next.next s2 s0 s1⟩
    by_cases h2 : i = ts0.length
    · subst h2; rw [hs.h2] at gT; simp at gT; subst gT
      exact .inr ⟨rfl, inside hT.next s1 s2 s0⟩
    by_cases h3 : i = ts0.length + 1
    · subst h3; rw [hs.h3] at gT; simp at gT; subst gT
      exact .inr ⟨rfl, inside hT s0 s1 s2⟩
    obtain ⟨u0, hu0, w1, w2, w3⟩ := hs.verts_other (by omega) h1 gT
    rw [w1, w2, w3]
    exact .inl (triIn_get hu0)
  | split4 hs hl' h0 h1 h2 =>
    rename_i t1 t2 p x y o1 o2 n1 n2 n3 n4
    have hA : TriIn ts0 x y o1 := by obtain ⟨a, ga, hRa⟩ := hs.g1; exact ⟨_, a, _, _, _, ga, hRa⟩
    have hB : TriIn ts0 y x o2 := by obtain ⟨a, ga, hRa⟩ := hs.g2; exact ⟨_, a, _, _, _, ga, hRa⟩
    have hp : vid = p := by
      obtain ⟨i, T, gT, hh⟩ := hocc
      have hil := lt_of_getElem? gT
      rw [hs.len] at hil
      rw [hasVert_iff] at hh
      by_cases h1 : i = t1
      · subst h1; rw [hs.h1] at gT; simp at gT; subst gT
        rcases hh with rfl | rfl | rfl
        · rfl
        · exact absurd hA.next.next.occ hfresh
        · exact absurd hA.occ hfresh
      by_cases h2 : i = t2
      · subst h2; rw [hs.h2] at gT; simp at gT; subst gT
        rcases hh with rfl | rfl | rfl
        · rfl
        · exact absurd hA.occ hfresh
        · exact absurd hB.next.next.occ hfresh
      by_cases h3 : i = ts0.length
      · subst h3; rw [hs.h3] at gT; simp at gT; subst gT
        rcases hh with rfl | rfl | rfl
        · rfl
        · exact absurd hA.next.occ hfresh
        · exact absurd hA.next.next.occ hfresh
      by_cases h4 : i = ts0.length + 1
      · subst h4; rw [hs.h4] at gT; simp at gT; subst gT
        rcases hh with rfl | rfl | rfl
        · rfl
        · exact absurd hB.next.next.occ hfresh
        · exact absurd hB.occ hfresh
      exfalso
      obtain ⟨u0, hu0, w1, w2, w3⟩ := hs.verts_other (by omega) h1 h2 gT
      refine hfresh ⟨i, u0, hu0, ?_⟩
      rw [hasVert_iff]; rwa [w1, w2, w3] at hh
    subst hp
    obtain ⟨q1, q2, q3, q4⟩ := hs.pos4 hv h0 h1 h2
    have a1 : 0 ≤ HP.o (hp vs x) (hp vs y) (hp vs vid) := h0.ge
    have b1 : 0 ≤ HP.o (hp vs y) (hp vs x) (hp vs vid) := by rw [HP.o_swap, h0, neg_zero]
    have b2 : 0 ≤ HP.o (hp vs x) (hp vs o2) (hp vs vid) := by rw [HP.o_cyc]; exact q2.le
    have b3 : 0 ≤ HP.o (hp vs o2) (hp vs y) (hp vs vid) := by rw [HP.o_cyc]; exact q4.le
    intro i T gT
    have hil := lt_of_getElem? gT
    rw [hs.len] at hil
    by_cases k1 : i = t1
    · subst k1; rw [hs.h1] at gT; simp at gT; subst gT
      exact .inr ⟨rfl, inside hA.next.next h2.le a1 h1.le⟩
    by_cases k2 : i = t2
    · subst k2; rw [hs.h2] at gT; simp at gT; subst gT
      exact .inr ⟨rfl, inside hB.next b2 b3 b1⟩
    by_cases k3 : i = ts0.length
    · subst k3; rw [hs.h3] at gT; simp at gT; subst gT
      exact .inr ⟨rfl, inside hA.next h1.le h2.le a1⟩
    by_cases k4 : i = ts0.length + 1
    · subst k4; rw [hs.h4] at gT; simp at gT; subst gT
      exact .inr ⟨rfl, inside hB.next.next b3 b1 b2⟩
    obtain ⟨u0, hu0, w1, w2, w3⟩ := hs.verts_other (by omega) k1 k2 gT
    rw [w1, w2, w3]
    exact .inl (triIn_get hu0)
  | flip hs h1 h2 => rw [hs.len] at hl; omega

/-- All triangles of `ts` with an artificial vertex are triangles of `ts0`. -/
def FarOld (ts0 ts : List Tri) : Prop := ∀ a b c, TriIn ts a b c → (¬ a < INF0 ∨ ¬ b < INF0 ∨ ¬ c < INF0) → TriIn ts0 a b c

theorem FarOld.refl (ts : List Tri) : FarOld ts ts := fun _ _ _ h _ => h
theorem FarOld.trans {ts1 : List Tri} (h : FarOld ts0 ts1) (h' : FarOld ts1 ts) : FarOld ts0 ts :=
  fun _ _ _ hT hf => h _ _ _ (h' _ _ _ hT hf) hf

theorem Inner.mono {P : HP K} (h : Inner vs ts0 P) (hf : FarOld ts0 ts) : Inner vs ts P :=
  ⟨fun _ _ _ hT ha => h.far _ _ _ (hf _ _ _ hT (.inl ha)) ha,
    fun _ _ _ hT hx hy hz => h.hull _ _ _ (hf _ _ _ hT (.inr (.inr hz))) hx hy hz⟩

/-- One insertion. -/
theorem insertVertex_emp {done ins : List Nat} {s s' : DT} {vid fuel : Nat} (hI : DInv vs done ins s)
    (hsep : Sep vs) (hn : vs.length ≤ INF0) (hvl : vid < vs.length) (hvd : vid ∉ done)
    (hfuel : 4 + 3 * (s.ts.length + 2) ≤ fuel) (hlen : s.ts.length + 2 ≤ NONE) (hE : Emp vs s.ts) (ht : Tiled vs s.ts)
    (hin : Inner vs s.ts (hp vs vid)) (hr : insertVertex vs fuel s vid = .ok s') :
    Emp vs s'.ts ∧ FarOld s.ts s'.ts ∧ Tiled vs s'.ts ∧ ∃ ins', DInv vs (vid :: done) ins' s' := by
  obtain ⟨sh, h1, h2⟩ := insertWith_shape hI hsep hn hvl hvd hlen
  rw [insertVertex_with, h1] at hr
  cases sh with
  | fail => simp [Shape.eval] at hr
  | keep s1 =>
    simp [Shape.eval] at hr; subst hr
    rw [h2.2]
    exact ⟨hE, .refl _, ht, _, h2.1⟩
  | go ts1 st =>
    obtain ⟨a1, a2, a3, a4, a5, a6⟩ := h2
    obtain ⟨s2, f1, f2, f3, f4, f5⟩ := finish_total hI hn hvl hvd a1 a2 a3 a4 a5 a6 hfuel hlen
    simp only [Shape.eval] at hr
    rw [f1] at hr; simp at hr; subst hr
    have hvi : vid ∉ ins := fun h => hvd (hI.sub _ h)
    have hvf : vid < INF0 := by omega
    have hfresh : ¬ Occ s.ts vid := by
      rintro ⟨i, t, gt, htv⟩
      have := fun k => hI.verts.get gt k
      rw [forall_fin3] at this
      rw [hasVert_iff] at htv
      simp only [Tri.v_0, Tri.v_1, Tri.v_2] at this
      rcases htv with h | h | h
      · rw [h] at this; rcases this.1 with h' | h'
        · exact hvi h'
        · omega
      · rw [h] at this; rcases this.2.1 with h' | h'
        · exact hvi h'
        · omega
      · rw [h] at this; rcases this.2.2 with h' | h'
        · exact hvi h'
        · omega
    have hS1 := a1.star a2 hI.valid hfresh a3 hvf hin
    obtain ⟨ts2, g1, g2, g3⟩ := restore_total hn hvl fuel ts1 st a4 (by rw [a2]; omega)
    have hts : s2.ts = ts2 := by
      have hl2 := restore_length g1
      have hl3 := g2.valid.len
      simp only [finishInsert, g1, Res.ok_bind, lastId_ok (ts := ts2) (by omega) (by omega)] at f1
      simp at f1; rw [← f1]
    have hS2 := restore_star hfresh hn hvl fuel ts1 st a4 hS1 ts2 g1
    rw [← hts] at hS2
    have ht2 := tiled_steps f4 hI.valid ht
    refine ⟨hE.insert f5 hS2 hfresh hI.valid ht2 hn hvl ?_ hin, fun a b c hT hf => hS2.old hT (.inr ⟨hf, hvf⟩), ht2, _, f2⟩
    rw [hts]; exact steps_occ (flips_steps (vs := vs) g3) a3

/-- All insertions. -/
theorem insertAll_emp {fuel : Nat} (hsep : Sep vs) (hn : 2 * vs.length + 2 ≤ NONE) (hfuel : 6 * vs.length + 10 ≤ fuel)
    (rest done ins : List Nat) (s s' : DT) (hI : DInv vs done ins s) (hnd : rest.Nodup) (hdis : ∀ v ∈ rest, v ∉ done)
    (hlt : ∀ v ∈ rest, v < vs.length) (hcard : done.length + rest.length ≤ vs.length) (hE : Emp vs s.ts) (ht : Tiled vs s.ts)
    (hin : ∀ v ∈ rest, Inner vs s.ts (hp vs v)) (hr : insertAll vs fuel rest s = .ok s') :
    Emp vs s'.ts ∧ FarOld s.ts s'.ts := by
  induction rest generalizing done ins s with
  | nil => simp [insertAll] at hr; subst hr; exact ⟨hE, .refl _⟩
  | cons v rest ih =>
    have hl := hI.len
    simp only [List.length_cons] at hcard
    rw [List.nodup_cons] at hnd
    simp only [insertAll] at hr
    cases h1 : insertVertex vs fuel s v with
    | err e => rw [h1] at hr; simp at hr
    | panic => rw [h1] at hr; simp at hr
    | diverge => rw [h1] at hr; simp at hr
    | ok s1 =>
      rw [h1] at hr; simp only [Res.ok_bind] at hr
      obtain ⟨e1, e2, e3, ins', e4⟩ := insertVertex_emp hI hsep
        (by unfold NONE at hn; unfold INF0; have := IdCfg.big; omega) (hlt v (by simp)) (hdis v (by simp)) (by omega) (by omega)
        hE ht (hin v (by simp)) h1
      obtain ⟨r1, r2⟩ := ih _ _ _ e4 hnd.2 (by
          intro w hw hc
          rcases List.mem_cons.1 hc with rfl | hc
          · exact hnd.1 hw
          · exact hdis w (by simp [hw]) hc)
        (fun w hw => hlt w (by simp [hw])) (by simp; omega) e1 e3 (fun w hw => (hin w (by simp [hw])).mono e2) hr
      exact ⟨r1, e2.trans r2⟩

end

end CDT

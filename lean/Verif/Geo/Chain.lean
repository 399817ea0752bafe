import Mathlib.Algebra.Order.Field.Basic
import Mathlib.Tactic.Linarith
import Mathlib.Tactic.Ring
import Mathlib.Tactic.ByContra

/-! # Convex chains

The triangles with one artificial vertex, in the order around that vertex, form a chain of finite edges: `N u v` says that the chain
goes from `u` to `v`, where the ends of the chain are marked by vertices that are not finite. The coordinate `t` increases along the
chain and `s` points to the outside. This module is about chains in general. -/

namespace CDT

namespace Chain

variable {K : Type} [Field K] [LinearOrder K] [IsStrictOrderedRing K]

/-- `c` is not strictly outside the line from `u` to `v`. -/
def Below (t s : Nat → K) (u v c : Nat) : Prop := (s c - s u) * (t v - t u) ≤ (s v - s u) * (t c - t u)

/-- The open interval of a link. -/
def Bet (F : Nat → Prop) (t : Nat → K) (u v : Nat) (r : K) : Prop := (F u → t u < r) ∧ (F v → r < t v)

/-- A chain of links over disjoint intervals, where the finite vertices have a link on both sides. -/
structure Ok (F : Nat → Prop) (t : Nat → K) (N : Nat → Nat → Prop) : Prop where
  mono : ∀ u v, N u v → F u → F v → t u < t v
  fin : ∀ u v, N u v → F u ∨ F v
  next : ∀ u v, N u v → F v → ∃ d, N v d
  prev : ∀ u v, N u v → F u → ∃ e, N e u
  disj : ∀ u v x y, N u v → N x y → ∀ r, Bet F t u v r → Bet F t x y r → u = x ∧ v = y

/-- No vertex of the chain is strictly outside the line of a link. -/
def Convex (F : Nat → Prop) (t s : Nat → K) (N : Nat → Nat → Prop) : Prop :=
  ∀ u v c, N u v → F u → F v → F c → (∃ d, N c d) → Below t s u v c

variable {F : Nat → Prop} {t s : Nat → K} {N N0 : Nat → Nat → Prop} {p : Nat}

theorem Ok.mirror (h : Ok F t N) : Ok F (fun v => - t v) (fun u v => N v u) where
  mono u v hN hu hv := by have := h.mono _ _ hN hv hu; linarith
  fin u v hN := (h.fin _ _ hN).symm
  next u v hN hv := h.prev _ _ hN hv
  prev u v hN hu := h.next _ _ hN hu
  disj u v x y h1 h2 r b1 b2 := by
    have := h.disj v u y x h1 h2 (-r) ⟨fun h => by have := b1.2 h; linarith, fun h => by have := b1.1 h; linarith⟩
      ⟨fun h => by have := b2.2 h; linarith, fun h => by have := b2.1 h; linarith⟩
    exact this.symm

theorem below_mirror {u v c : Nat} : Below (fun v => - t v) s v u c ↔ Below t s u v c := by
  unfold Below
  constructor <;> intro h <;> nlinarith

theorem Convex.mirror (h : Convex F t s N) (hN : Ok F t N) : Convex F (fun v => - t v) s (fun u v => N v u) := by
  intro u v c h1 hu hv hc hd
  obtain ⟨d, hd⟩ := hd
  obtain ⟨e, he⟩ := hN.next _ _ hd hc
  exact below_mirror.2 (h v u c h1 hv hu hc ⟨e, he⟩)

theorem Convex.of_mirror (h : Convex F (fun v => - t v) s (fun u v => N v u)) (hN : Ok F t N) : Convex F t s N := by
  intro u v c h1 hu hv hc hd
  obtain ⟨d, hd⟩ := hd
  obtain ⟨e, he⟩ := hN.prev _ _ hd hc
  exact below_mirror.1 (h v u c h1 hv hu hc ⟨e, he⟩)

/-- A link that ends at `c`, when the interval of another link reaches `c`. -/
theorem Ok.hit (h : Ok F t N) {u v e c : Nat} (h1 : N u v) (h2 : N e c) (hc : F c) (hu : F u → t u < t c)
    (hv : F v → t c ≤ t v) : u = e ∧ v = c := by
  have he := fun he => h.mono _ _ h2 he hc
  obtain ⟨m, hm, m1, m2⟩ : ∃ m, m < t c ∧ (F u → t u ≤ m) ∧ (F e → t e ≤ m) := by
    by_cases fu : F u <;> by_cases fe : F e
    · exact ⟨max (t u) (t e), max_lt (hu fu) (he fe), fun _ => le_max_left _ _, fun _ => le_max_right _ _⟩
    · exact ⟨t u, hu fu, fun _ => le_rfl, fun h => absurd h fe⟩
    · exact ⟨t e, he fe, fun h => absurd h fu, fun _ => le_rfl⟩
    · exact ⟨t c - 1, by linarith, fun h => absurd h fu, fun h => absurd h fe⟩
  refine h.disj _ _ _ _ h1 h2 ((m + t c) / 2) ⟨fun fu => ?_, fun fv => ?_⟩ ⟨fun fe => ?_, fun _ => ?_⟩
  · have := m1 fu; linarith
  · have := hv fv; linarith
  · have := m2 fe; linarith
  · linarith

/-- A chain before and after the insertion of `p`. -/
structure Ins (F : Nat → Prop) (t s : Nat → K) (N0 N : Nat → Nat → Prop) (p : Nat) : Prop where
  ok0 : Ok F t N0
  ok : Ok F t N
  convex : Convex F t s N0
  fp : F p
  old : ∀ u v, N u v → u ≠ p → v ≠ p → N0 u v
  left : ∀ u, N u p → F u → ∃ d, N0 u d
  right : ∀ v, N p v → F v → ∃ d, N0 v d
  loc : (∃ d, N p d) → ∃ x y, N0 x y ∧ (F x → t x ≤ t p) ∧ (F y → t p ≤ t y) ∧
    (F x → F y → (s y - s x) * (t p - t x) ≤ (s p - s x) * (t y - t x))
  set1 : ∀ x u, N x u → N u p → F x → F u → Below t s x u p
  set2 : ∀ v x, N v x → N p v → F x → F v → Below t s v x p

theorem Ins.mirror (h : Ins F t s N0 N p) : Ins F (fun v => - t v) s (fun u v => N0 v u) (fun u v => N v u) p where
  ok0 := h.ok0.mirror
  ok := h.ok.mirror
  convex := h.convex.mirror h.ok0
  fp := h.fp
  old u v hN hu hv := h.old v u hN hv hu
  left u hN hu := by
    obtain ⟨d, hd⟩ := h.right u hN hu
    exact h.ok0.prev _ _ hd hu
  right v hN hv := by
    obtain ⟨d, hd⟩ := h.left v hN hv
    exact h.ok0.prev _ _ hd hv
  loc := by
    rintro ⟨d, hd⟩
    obtain ⟨x, y, h0, h1, h2, h3⟩ := h.loc (h.ok.next _ _ hd h.fp)
    refine ⟨y, x, h0, fun hy => by have := h2 hy; linarith, fun hx => by have := h1 hx; linarith, fun hy hx => ?_⟩
    have := h3 hx hy
    nlinarith
  set1 x u h1 h2 hx hu := below_mirror.2 (h.set2 u x h1 h2 hx hu)
  set2 v x h1 h2 hx hv := below_mirror.2 (h.set1 x v h1 h2 hx hv)

theorem Ins.adj (h : Ins F t s N0 N p) {c : Nat} (hc : F c) (hcp : c ≠ p) (hd : ∃ d, N c d) : ∃ d, N0 c d := by
  obtain ⟨d, hd⟩ := hd
  by_cases e : d = p
  · subst e; exact h.left _ hd hc
  · exact ⟨d, h.old _ _ hd hcp e⟩

theorem below_two {x w p c : Nat} (h1 : Below t s x w c) (h2 : Below t s x w p) (ht : t x < t w) (hc : t c ≤ t w) (hp : t w < t p) :
    Below t s w p c := by
  unfold Below at *
  have a := mul_le_mul_of_nonneg_right h1 (sub_nonneg.2 hp.le)
  have b := mul_le_mul_of_nonneg_right h2 (sub_nonneg.2 hc)
  refine le_of_mul_le_mul_right ?_ (sub_pos.2 ht)
  nlinarith

theorem below_three {x y w p c : Nat} (h1 : Below t s x y w) (h2 : Below t s x y c)
    (h3 : (s y - s x) * (t p - t x) ≤ (s p - s x) * (t y - t x)) (ht : t x < t y) (hw : t w < t p) (hc : t p < t c) :
    Below t s w p c := by
  unfold Below at *
  have a := mul_le_mul_of_nonneg_right h1 (sub_nonneg.2 hc.le)
  have b := mul_le_mul_of_nonneg_right h2 (sub_nonneg.2 hw.le)
  have c' := mul_le_mul_of_nonneg_right h3 (sub_nonneg.2 (hw.trans hc).le)
  refine le_of_mul_le_mul_right ?_ (sub_pos.2 ht)
  nlinarith

theorem below_far {u v x w p : Nat} (h1 : Below t s u v w) (h2 : Below t s x w v) (h3 : Below t s x w p) (hu : t u < t v)
    (hvw : t v < t w) (hx : t x < t w) (hp : t w < t p) : Below t s u v p := by
  unfold Below at *
  have hU := sub_pos.2 hu
  have hX := sub_pos.2 hx
  have a1 : (s w - s v) * (t v - t u) ≤ (s v - s u) * (t w - t v) := by linarith
  have a2 : (s w - s x) * (t w - t v) ≤ (s w - s v) * (t w - t x) := by linarith
  have a3 : (s p - s w) * (t w - t x) ≤ (s w - s x) * (t p - t w) := by linarith
  have a4 : (s w - s x) * (t v - t u) ≤ (s v - s u) * (t w - t x) := by
    refine le_of_mul_le_mul_right ?_ (sub_pos.2 hvw)
    have b1 := mul_le_mul_of_nonneg_right a1 hX.le
    have b2 := mul_le_mul_of_nonneg_right a2 hU.le
    linarith
  have g : (s p - s v) * (t v - t u) ≤ (s v - s u) * (t p - t v) := by
    refine le_of_mul_le_mul_right ?_ hX
    have b1 := mul_le_mul_of_nonneg_right a3 hU.le
    have b2 := mul_le_mul_of_nonneg_right a1 hX.le
    have b3 := mul_le_mul_of_nonneg_right a4 (sub_nonneg.2 hp.le)
    linarith
  linarith

/-- The inserted vertex is below the links before it. -/
theorem Ins.before (h : Ins F t s N0 N p) {u v : Nat} (hN : N u v) (hu : F u) (hv : F v) (hup : u ≠ p) (hvp : v ≠ p)
    (hd : ∃ d, N p d) (ht : t v < t p) : Below t s u v p := by
  obtain ⟨d, hd⟩ := hd
  obtain ⟨w, hw⟩ := h.ok.prev _ _ hd h.fp
  have huv := h.ok.mono _ _ hN hu hv
  have fw : F w := by
    by_contra c
    exact hvp (h.ok.hit hw hN hv (fun h => absurd h c) (fun _ => ht.le)).2.symm
  have hvw : t v ≤ t w := by
    by_contra c
    exact hvp (h.ok.hit hw hN hv (fun _ => not_le.1 c) (fun _ => ht.le)).2.symm
  have hwp := h.ok.mono _ _ hw fw h.fp
  obtain ⟨x, hx⟩ := h.ok.prev _ _ hw fw
  by_cases e : w = v
  · subst e
    obtain ⟨rfl, -⟩ := h.ok.hit hx hN hv (fun fx => h.ok.mono _ _ hx fx fw) (fun _ => le_rfl)
    exact h.set1 _ _ hx hw hu fw
  have fx : F x := by
    by_contra c
    exact e (h.ok.hit hx hN hv (fun h => absurd h c) (fun _ => hvw)).2
  have hvx : t v ≤ t x := by
    by_contra c
    exact e (h.ok.hit hx hN hv (fun _ => not_le.1 c) (fun _ => hvw)).2
  have hxw := h.ok.mono _ _ hx fx fw
  have hxp : x ≠ p := by rintro rfl; exact lt_asymm hxw hwp
  have hwp' : w ≠ p := by rintro rfl; exact lt_irrefl _ hwp
  exact below_far (h.convex _ _ _ (h.old _ _ hN hup hvp) hu hv fw (h.left _ hw fw))
    (h.convex _ _ _ (h.old _ _ hx hxp hwp') fx fw hv (h.adj hv hvp (h.ok.next _ _ hN hv))) (h.set1 _ _ hx hw fx fw) huv
    (lt_of_le_of_lt hvx hxw) hxw hwp

/-- The vertices are below the link that ends at the inserted vertex. -/
theorem Ins.link (h : Ins F t s N0 N p) {w c : Nat} (hN : N w p) (fw : F w) (fc : F c) (hcp : c ≠ p) (hd : ∃ d, N c d) :
    Below t s w p c := by
  have hwp := h.ok.mono _ _ hN fw h.fp
  have hwp' : w ≠ p := by rintro rfl; exact lt_irrefl _ hwp
  by_cases hcw : c = w
  · subst hcw; unfold Below; linarith
  have hd0 := h.adj fc hcp hd
  obtain ⟨d, hd⟩ := hd
  obtain ⟨e, he⟩ := h.ok.prev _ _ hd fc
  rcases le_or_gt (t c) (t w) with hc | hc
  · obtain ⟨x, hx⟩ := h.ok.prev _ _ hN fw
    have fx : F x := by
      by_contra g
      exact hcw (h.ok.hit hx he fc (fun h => absurd h g) (fun _ => hc)).2.symm
    have hcx : t c ≤ t x := by
      by_contra g
      exact hcw (h.ok.hit hx he fc (fun _ => not_le.1 g) (fun _ => hc)).2.symm
    have hxw := h.ok.mono _ _ hx fx fw
    have hxp : x ≠ p := by rintro rfl; exact lt_asymm hxw hwp
    exact below_two (h.convex _ _ _ (h.old _ _ hx hxp hwp') fx fw fc hd0) (h.set1 _ _ hx hN fx fw) hxw hc hwp
  · have hpc : t p < t c := by
      by_contra g
      exact hcp (h.ok.hit hN he fc (fun _ => hc) (fun _ => not_lt.1 g)).2.symm
    obtain ⟨x, y, h0, h1, h2, h3⟩ := h.loc (h.ok.next _ _ hN h.fp)
    have hw0 := h.left _ hN fw
    have fx : F x := by
      by_contra g
      have fy := (h.ok0.fin _ _ h0).resolve_left g
      obtain ⟨d', hd'⟩ := hw0
      obtain ⟨e', he'⟩ := h.ok0.prev _ _ hd' fw
      have := (h.ok0.hit h0 he' fw (fun h => absurd h g) (fun hy => hwp.le.trans (h2 hy))).2
      subst this
      exact absurd (h2 fy) (not_le.2 hwp)
    have fy : F y := by
      by_contra g
      obtain ⟨d', hd'⟩ := hd0
      have := (h.ok0.mirror.hit h0 hd' fc (fun h => absurd h g) (fun hx => by have := h1 hx; linarith)).2
      subst this
      exact absurd (h1 fx) (not_le.2 hpc)
    exact below_three (h.convex _ _ _ h0 fx fy fw hw0) (h.convex _ _ _ h0 fx fy fc hd0) (h3 fx fy) (h.ok0.mono _ _ h0 fx fy) hwp hpc

/-- The chain stays convex. -/
theorem Ins.stays (h : Ins F t s N0 N p) : Convex F t s N := by
  intro u v c hN hu hv hc hd
  by_cases hup : u = p
  · subst hup
    by_cases hcp : c = u
    · subst hcp; unfold Below; linarith
    obtain ⟨d, hd⟩ := hd
    exact below_mirror.1 (h.mirror.link hN hv hc hcp (h.ok.prev _ _ hd hc))
  by_cases hvp : v = p
  · subst hvp
    by_cases hcp : c = v
    · subst hcp; unfold Below; linarith
    exact h.link hN hu hc hcp hd
  by_cases hcp : c = p
  · subst hcp
    rcases lt_or_ge (t v) (t c) with g | g
    · exact h.before hN hu hv hup hvp hd g
    · obtain ⟨d, hd⟩ := hd
      obtain ⟨e, he⟩ := h.ok.prev _ _ hd h.fp
      have hcu : t c ≤ t u := by
        by_contra g'
        exact hvp (h.ok.hit hN he h.fp (fun _ => not_le.1 g') (fun _ => g)).2
      rcases lt_or_eq_of_le hcu with g' | g'
      · exact below_mirror.1 (h.mirror.before hN hv hu hvp hup ⟨e, he⟩ (by linarith))
      · exfalso
        refine hup (h.ok.mirror.hit hN hd h.fp (fun _ => ?_) (fun _ => ?_)).2
        · have := h.ok.mono _ _ hN hu hv; linarith
        · linarith
  · exact h.convex _ _ _ (h.old _ _ hN hup hvp) hu hv hc (h.adj hc hcp hd)

end Chain

end CDT

import Verif.Proofs.Generic
import Verif.Proofs.BinSort
import Verif.Proofs.SoftFloat
import Verif.Props.Simple

/-!
# The restoration loop ends in every arithmetic with a few laws of zero

A swap around the inserted vertex `p` never happens when `p` is an end of the examined edge: the predicates compare
a zero (or NaN) with a threshold. Give every triangle the weight 3, 1 or 0 according to whether `p` occurs 0, 1 or
more times among its vertices: every swap decreases the total weight, whatever the neighbor data.
-/

set_option linter.unusedSectionVars false
set_option linter.unusedSimpArgs false

namespace CDT
open FloatOps

/-- Zero or NaN. -/
def Nullish {F : Type} [FloatOps F] (x : F) : Prop := FloatOps.eq x zero = true ∨ isNan x = true

/-- Laws of zero and NaN which hold in IEEE arithmetic for all operands, infinities and NaN included. -/
class NullLaws (F : Type) [FloatOps F] : Prop where
  sub_self : ∀ x : F, Nullish (sub x x)
  mul_left : ∀ x y : F, Nullish x → Nullish (mul x y)
  mul_comm : ∀ x y : F, mul x y = mul y x
  add : ∀ x y : F, Nullish x → Nullish y → Nullish (add x y)
  sub : ∀ x y : F, Nullish x → Nullish y → Nullish (sub x y)
  not_neg : ∀ x : F, Nullish x → lt x zero = false
  not_le_eps : ∀ x : F, Nullish x → le x (neg eps) = false

section
variable {F : Type} [FloatOps F] [NullLaws F]

theorem Nullish.mul_right {x y : F} (h : Nullish y) : Nullish (mul x y) := by
  rw [NullLaws.mul_comm]; exact NullLaws.mul_left _ _ h

theorem inCircumcircle_null {a b c p : Vtx F}
    (hc : Nullish (add (mul (sub b.x p.x) (sub a.x p.x)) (mul (sub b.y p.y) (sub a.y p.y))))
    (hs : Nullish (FloatOps.sub (mul (sub b.x p.x) (sub a.y p.y)) (mul (sub a.x p.x) (sub b.y p.y)))) :
    inCircumcircle a b c p = false := by
  unfold inCircumcircle
  simp only
  rw [NullLaws.not_neg _ hc, NullLaws.not_neg _ (NullLaws.add _ _ hc.mul_right (NullLaws.mul_left _ _ hs))]
  simp

theorem inCircumcircle_fst (p b c : Vtx F) : inCircumcircle p b c p = false :=
  inCircumcircle_null
    (NullLaws.add _ _ (NullLaws.sub_self _).mul_right (NullLaws.sub_self _).mul_right)
    (NullLaws.sub _ _ (NullLaws.sub_self _).mul_right (NullLaws.mul_left _ _ (NullLaws.sub_self _)))

theorem inCircumcircle_snd (a p c : Vtx F) : inCircumcircle a p c p = false :=
  inCircumcircle_null
    (NullLaws.add _ _ (NullLaws.mul_left _ _ (NullLaws.sub_self _)) (NullLaws.mul_left _ _ (NullLaws.sub_self _)))
    (NullLaws.sub _ _ (NullLaws.mul_left _ _ (NullLaws.sub_self _)) (NullLaws.sub_self _).mul_right)

theorem strictlyRight_fst (p b : Vtx F) : strictlyRightOfEdge (p, b) p = false :=
  NullLaws.not_le_eps _ (NullLaws.sub _ _ (NullLaws.mul_left _ _ (NullLaws.sub_self _))
    (NullLaws.mul_left _ _ (NullLaws.sub_self _)))

theorem strictlyRight_snd (a p : Vtx F) : strictlyRightOfEdge (a, p) p = false := by
  apply NullLaws.not_le_eps
  unfold edgeSide
  simp only
  rw [NullLaws.mul_comm]
  exact NullLaws.sub_self _

end

/-! ## Instances -/

/-- Exact arithmetic. -/
instance exact_nullLaws {K : Type} [Field K] [LinearOrder K] [IsStrictOrderedRing K] [ExactParams K] : NullLaws K := by
  have hz : ∀ x : K, Nullish x ↔ x = 0 := by
    intro x
    simp [Nullish, FloatOps.eq, FloatOps.isNan, FloatOps.zero]
  constructor
  · intro x; rw [hz]; simp [FloatOps.sub]
  · intro x y h; rw [hz] at *; simp [FloatOps.mul, h]
  · intro x y; exact _root_.mul_comm x y
  · intro x y h h'; rw [hz] at *; simp [FloatOps.add, h, h']
  · intro x y h h'; rw [hz] at *; simp [FloatOps.sub, h, h']
  · intro x h; rw [hz] at *; simp [FloatOps.lt, FloatOps.zero, h]
  · intro x h
    rw [hz] at *
    simp [FloatOps.le, FloatOps.neg, FloatOps.eps, h, ExactParams.eps_pos]

/-- IEEE arithmetic, infinities and NaN included. -/
instance fl_nullLaws {f : Fmt} : NullLaws (Fl f) := by
  have m0 : Fl.mk f 0 = .fin 0 := by
    have hb : (0 : ℚ) ≤ Fl.big f := by unfold Fl.big; positivity
    simp [Fl.mk, Fl.rnd_zero, not_lt.2 hb]
  have hz : ∀ x : Fl f, Nullish x ↔ x = .fin 0 ∨ x = .nan := by
    rintro (_ | _ | x) <;> simp [Nullish, FloatOps.eq, FloatOps.isNan, FloatOps.zero, Fl.eq]
  constructor
  · rintro (_ | s | x) <;> rw [hz] <;> simp [FloatOps.sub, Fl.sub, m0]
  · rintro (_ | s | x) (_ | t | y) h <;> rw [hz] at * <;> simp_all [FloatOps.mul, Fl.mul, m0]
  · rintro (_ | s | x) (_ | t | y) <;> simp [FloatOps.mul, Fl.mul, _root_.mul_comm]
    all_goals cases s <;> cases t <;> rfl
  · rintro (_ | s | x) (_ | t | y) h h' <;> rw [hz] at * <;> simp_all [FloatOps.add, Fl.add, m0]
  · rintro (_ | s | x) (_ | t | y) h h' <;> rw [hz] at * <;> simp_all [FloatOps.sub, Fl.sub, m0]
  · rintro (_ | s | x) h <;> rw [hz] at h <;> simp_all [FloatOps.lt, FloatOps.zero, Fl.lt]
  · have e : (0 : ℚ) < mkRat 1 (2 ^ (f.prec - 1)) := by rw [Rat.mkRat_eq_div]; positivity
    rintro (_ | s | x) h <;> rw [hz] at h <;> simp_all [FloatOps.le, FloatOps.neg, FloatOps.eps, Fl.le, Fl.neg]

/-! ## The potential -/

variable {F : Type} [FloatOps F] [IdCfg]

/-- 3, 1 or 0 when `p` occurs 0, 1 or more times. -/
def weight (p : Nat) (t : Tri) : Nat :=
  if t.v1 = p then (if t.v2 = p ∨ t.v3 = p then 0 else 1)
  else if t.v2 = p then (if t.v3 = p then 0 else 1)
  else if t.v3 = p then 1 else 3

/-- Total weight. -/
def potential (p : Nat) (ts : List Tri) : Nat := (ts.map (weight p)).sum

theorem weight_le (p : Nat) (t : Tri) : weight p t ≤ 3 := by
  unfold weight; repeat' split
  all_goals omega

theorem potential_le (p : Nat) (ts : List Tri) : potential p ts ≤ 3 * ts.length := by
  induction ts with
  | nil => simp [potential]
  | cons t ts ih =>
    have := weight_le p t
    simp only [potential, List.map_cons, List.sum_cons, List.length_cons] at *
    omega

theorem potential_set (p : Nat) (ts : List Tri) (i : Nat) (t u : Tri) (h : ts[i]? = some t) :
    potential p (ts.set i u) + weight p t = potential p ts + weight p u := by
  induction ts generalizing i with
  | nil => simp at h
  | cons s ts ih =>
    cases i with
    | zero =>
      simp at h; subst h
      simp only [potential, List.set_cons_zero, List.map_cons, List.sum_cons]; omega
    | succ i =>
      have := ih i (by simpa using h)
      simp only [potential, List.set_cons_succ, List.map_cons, List.sum_cons] at *; omega

theorem weight_updN (p : Nat) (t : Tri) (o n : Nat) : weight p (t.updN o n) = weight p t := by
  have h0 := Tri.updN_v t o n 0
  have h1 := Tri.updN_v t o n 1
  have h2 := Tri.updN_v t o n 2
  simp only [Tri.v] at h0 h1 h2
  unfold weight
  rw [h0, h1, h2]

theorem updNb_potential {ts ts' : List Tri} {n o w : Nat} (p : Nat) (h : updNb ts n o w = .ok ts') :
    potential p ts' = potential p ts := by
  rcases updNb_ok h with ⟨_, rfl⟩ | ⟨_, t, ht, rfl⟩
  · rfl
  · have := potential_set p ts n t (t.updN o w) ht
    rw [weight_updN] at this; omega

/-- No swap when the inserted vertex is an end of the examined edge. -/
theorem shouldSwap_end [NullLaws F] {vs : List (Vtx F)} {q : Quad} (hp : isFin q.q4 = true) (h : shouldSwap vs q = .ok true) :
    q.q1 ≠ q.q4 ∧ q.q2 ≠ q.q4 := by
  constructor
  · intro e
    unfold shouldSwap at h
    rw [e, hp] at h
    split at h
    · simp at h
    · split at h
      · simp only [Res.bind_eq_ok] at h
        obtain ⟨a, ha, b, hb, c, hc, d, hd, h⟩ := h
        rw [ha] at hd; cases hd
        rw [inCircumcircle_fst] at h; simp at h
      · simp only [Bool.not_true, Bool.false_and, Bool.false_eq_true, if_false] at h
        simp only [inHalfPlane1, Res.bind_eq_ok] at h
        obtain ⟨a, ha, b, hb, d, hd, h⟩ := h
        simp [Quad.v, oppEdgeIdx, edgeToVert0, edgeToVert1] at ha hb
        rw [e, hd] at ha; cases ha; rw [strictlyRight_fst] at h; simp at h
  · intro e
    unfold shouldSwap at h
    rw [e, hp] at h
    split at h
    · simp at h
    · split at h
      · simp only [Res.bind_eq_ok] at h
        obtain ⟨a, ha, b, hb, c, hc, d, hd, h⟩ := h
        rw [hb] at hd; cases hd
        rw [inCircumcircle_snd] at h; simp at h
      · simp only [Bool.not_true, Bool.and_false, Bool.false_eq_true, if_false] at h
        rename_i hn
        have hq : isFin q.q1 = false := by simpa using hn
        rw [hq] at h
        simp only [Bool.not_false, if_true] at h
        simp only [inHalfPlane1, Res.bind_eq_ok] at h
        obtain ⟨a, ha, b, hb, d, hd, h⟩ := h
        simp [Quad.v, oppEdgeIdx, edgeToVert0, edgeToVert1] at ha hb
        rw [e, hd] at hb; cases hb; rw [strictlyRight_snd] at h; simp at h

theorem shouldSwap_ne_diverge (vs : List (Vtx F)) (q : Quad) : shouldSwap vs q ≠ .diverge := by
  have hh : ∀ i, inHalfPlane1 vs q i ≠ .diverge := fun i => by
    unfold inHalfPlane1
    exact Res.bind_ne_diverge (getI_ne_diverge _ _) fun _ _ => Res.bind_ne_diverge (getI_ne_diverge _ _) fun _ _ =>
      Res.bind_ne_diverge (getI_ne_diverge _ _) fun _ _ => by simp
  unfold shouldSwap
  split
  · simp
  · split
    · exact Res.bind_ne_diverge (getI_ne_diverge _ _) fun _ _ => Res.bind_ne_diverge (getI_ne_diverge _ _) fun _ _ =>
        Res.bind_ne_diverge (getI_ne_diverge _ _) fun _ _ => Res.bind_ne_diverge (getI_ne_diverge _ _) fun _ _ => by simp
    · split
      · simp
      · split <;> exact hh _

theorem checkAndSwap_ne_diverge (vs : List (Vtx F)) (p : Nat) (ts : List Tri) (a b : Nat) (st : List (Nat × Nat)) :
    checkAndSwap vs p ts a b st ≠ .diverge := by
  unfold checkAndSwap
  refine Res.bind_ne_diverge (getI_ne_diverge _ _) fun _ _ => ?_
  refine Res.bind_ne_diverge (shouldSwap_ne_diverge _ _) fun c _ => ?_
  split
  · exact Res.bind_ne_diverge (getI_ne_diverge _ _) fun _ _ => Res.bind_ne_diverge (updNb_ne_diverge _ _ _ _) fun _ _ =>
      Res.bind_ne_diverge (updNb_ne_diverge _ _ _ _) fun _ _ => by simp
  · simp

theorem pushQ_length (st : List (Nat × Nat)) (a b : Nat) : (pushQ st a b).length ≤ st.length + 1 := by
  unfold pushQ; split <;> simp

/-- Every step of the loop pops an entry or decreases the potential. -/
theorem checkAndSwap_potential [NullLaws F] {vs : List (Vtx F)} {p : Nat} {ts : List Tri} {a b : Nat}
    {st : List (Nat × Nat)} {r : List Tri × List (Nat × Nat)} (hp : isFin p = true)
    (h : checkAndSwap vs p ts a b st = .ok r) :
    r.2.length + 2 * potential p r.1 ≤ st.length + 2 * potential p ts := by
  obtain ⟨t2, ht2, ⟨_, rfl⟩ | ⟨hs, t1, ts1, ht1, h1, h2, hst⟩⟩ := checkAndSwap_ok h
  · simp
  · have hq4 : (quadOf t2 a p).1.q4 = p := (quadOf_verts (Q := fun _ => True) t2 a p (by simp)).2.2.2
    obtain ⟨e1, e2⟩ := shouldSwap_end (by rw [hq4]; exact hp) hs
    rw [hq4] at e1 e2
    have hlen : r.2.length ≤ st.length + 2 := by
      rw [hst]
      exact (pushQ_length _ _ _).trans (by have := pushQ_length st a (quadOf t2 a p).2.1; omega)
    suffices hw : potential p r.1 + 1 ≤ potential p ts by omega
    rw [updNb_potential p h2, updNb_potential p h1, hq4]
    -- weights of the two new triangles against the old one
    have key : ∀ n n' n'' m m' m'', weight p (⟨p, (quadOf t2 a p).1.q1, (quadOf t2 a p).1.q3, n, n', n''⟩ : Tri) +
        weight p (⟨p, (quadOf t2 a p).1.q3, (quadOf t2 a p).1.q2, m, m', m''⟩ : Tri) + 1 ≤ weight p t2 := by
      intro n n' n'' m m' m''
      unfold quadOf at e1 e2 ⊢
      unfold weight
      split at e1
      · by_cases hv : t2.v3 = p <;> simp_all
      · split at e1
        · by_cases hv : t2.v1 = p <;> simp_all
        · by_cases hv : t2.v2 = p <;> simp_all
    have k := key t1.n12 (quadOf t2 a p).2.1 b a (quadOf t2 a p).2.2 t1.n31
    revert k
    generalize (⟨p, (quadOf t2 a p).1.q1, (quadOf t2 a p).1.q3, t1.n12, (quadOf t2 a p).2.1, b⟩ : Tri) = A
    generalize (⟨p, (quadOf t2 a p).1.q3, (quadOf t2 a p).1.q2, a, (quadOf t2 a p).2.2, t1.n31⟩ : Tri) = B
    intro k
    by_cases hab : a = b
    · subst hab
      rw [List.set_set]
      have := potential_set p ts a t2 B ht2
      omega
    · have s1 := potential_set p ts a t1 A ht1
      have s2 := potential_set p (ts.set a A) b t2 B (by rw [List.getElem?_set_ne hab]; exact ht2)
      omega

/-- **Restoration ends.** For any mesh, any stack and any neighbor data. -/
theorem restore_terminates [NullLaws F] (vs : List (Vtx F)) (p : Nat) (hp : isFin p = true) (fuel : Nat) (ts : List Tri)
    (st : List (Nat × Nat)) (h : st.length + 2 * potential p ts ≤ fuel) : restore vs p fuel ts st ≠ .diverge := by
  induction fuel generalizing ts st with
  | zero =>
    cases st with
    | nil => simp [restore]
    | cons x st => simp at h
  | succ n ih =>
    cases st with
    | nil => simp [restore]
    | cons x st =>
      obtain ⟨a, b⟩ := x
      simp only [restore]
      refine Res.bind_ne_diverge (checkAndSwap_ne_diverge _ _ _ _ _ _) fun r hr => ih _ _ ?_
      have := checkAndSwap_potential hp hr
      simp only [List.length_cons] at h
      omega

theorem finishInsert_ne_diverge [NullLaws F] (vs : List (Vtx F)) (fuel vid : Nat) (hp : isFin vid = true) (m : Option (List Nat))
    (r : List Tri × List (Nat × Nat)) (hl : r.2.length + 6 * r.1.length ≤ fuel) : finishInsert vs fuel vid m r ≠ .diverge := by
  unfold finishInsert
  have := potential_le vid r.1
  refine Res.bind_ne_diverge (restore_terminates vs vid hp fuel _ _ (by omega)) fun ts _ => ?_
  exact Res.bind_ne_diverge (by unfold lastId; repeat' split <;> simp) fun _ _ => by simp

theorem finishInsert_length {vs : List (Vtx F)} {fuel vid : Nat} {m : Option (List Nat)} {r : List Tri × List (Nat × Nat)}
    {s : DT} (h : finishInsert vs fuel vid m r = .ok s) : s.ts.length = r.1.length := by
  simp only [finishInsert, Res.bind_eq_ok] at h
  obtain ⟨ts, ht, tid, _, h⟩ := h
  simp only [Res.ok.injEq] at h
  subst h
  exact restore_length ht

theorem split3_stack {ts : List Tri} {t p : Nat} {r : List Tri × List (Nat × Nat)} (h : split3 ts t p = .ok r) :
    r.2.length ≤ 4 := by
  obtain ⟨t, t3, ts1, _, _, _, _, e⟩ := split3_ok h
  rw [e]
  have := pushQ_length ([] : List (Nat × Nat)) t3 t.n12
  have := pushQ_length (pushQ [] t3 t.n12) (nextId ts) t.n23
  refine (pushQ_length _ _ _).trans ?_
  simp at *; omega

theorem split4_stack {ts : List Tri} {t1 : Nat} {ei : Fin 3} {e : Edge} {p : Nat}
    {r : List Tri × List (Nat × Nat)} (h : split4 ts t1 ei e p = .ok r) : r.2.length ≤ 4 := by
  obtain ⟨a, b, t4, ts1, _, _, _, _, _, e⟩ := split4_ok h
  rw [e]
  refine (pushQ_length _ _ _).trans ?_
  refine (Nat.add_le_add_right (pushQ_length _ _ _) 1).trans ?_
  refine (Nat.add_le_add_right (pushQ_length _ _ _) 2).trans ?_
  exact (Nat.add_le_add_right (pushQ_length _ _ _) 3).trans (by simp)

theorem addId_ne_diverge (a b : Nat) : addId a b ≠ .diverge := by unfold addId; split <;> simp

theorem split3_ne_diverge (ts : List Tri) (t p : Nat) : split3 ts t p ≠ .diverge := by
  unfold split3
  exact Res.bind_ne_diverge (addId_ne_diverge _ _) fun _ _ => Res.bind_ne_diverge (getI_ne_diverge _ _) fun _ _ =>
    Res.bind_ne_diverge (updNb_ne_diverge _ _ _ _) fun _ _ => Res.bind_ne_diverge (updNb_ne_diverge _ _ _ _) fun _ _ => by simp

theorem split4_ne_diverge (ts : List Tri) (t : Nat) (ei : Fin 3) (e : Edge) (p : Nat) : split4 ts t ei e p ≠ .diverge := by
  unfold split4
  exact Res.bind_ne_diverge (getI_ne_diverge _ _) fun _ _ => Res.bind_ne_diverge (addId_ne_diverge _ _) fun _ _ =>
    Res.bind_ne_diverge (getI_ne_diverge _ _) fun _ _ =>
    Res.bind_ne_diverge (updNb_ne_diverge _ _ _ _) fun _ _ => Res.bind_ne_diverge (updNb_ne_diverge _ _ _ _) fun _ _ => by simp

/-- An insertion ends, and adds two triangles or none. -/
theorem insertVertex_terminates [NullLaws F] (vs : List (Vtx F)) (hn : vs.length ≤ INF0) (fuel : Nat) (s : DT) (vid : Nat)
    (hf : 4 + 6 * (s.ts.length + 2) ≤ fuel) :
    insertVertex vs fuel s vid ≠ .diverge ∧ ∀ s', insertVertex vs fuel s vid = .ok s' → s'.ts.length ≤ s.ts.length + 2 := by
  have hfin : ∀ p, getI vs vid = .ok p → isFin vid = true := fun p h => by
    rw [getI_eq_ok] at h
    rw [isFin_iff]
    have := lt_of_getElem? h
    omega
  have h3 : ∀ t p, getI vs vid = .ok p → ∀ r, split3 s.ts t vid = .ok r →
      finishInsert vs fuel vid s.merge r ≠ .diverge ∧
        ∀ s', finishInsert vs fuel vid s.merge r = .ok s' → s'.ts.length ≤ s.ts.length + 2 := by
    intro t p hp r hr
    have l := split3_length hr
    have := split3_stack hr
    refine ⟨finishInsert_ne_diverge vs fuel vid (hfin p hp) _ _ (by rw [l]; omega), fun s' h => ?_⟩
    rw [finishInsert_length h, l]
  have h4 : ∀ t ei e p, getI vs vid = .ok p → ∀ r, split4 s.ts t ei e vid = .ok r →
      finishInsert vs fuel vid s.merge r ≠ .diverge ∧
        ∀ s', finishInsert vs fuel vid s.merge r = .ok s' → s'.ts.length ≤ s.ts.length + 2 := by
    intro t ei e p hp r hr
    have l := split4_length hr
    have := split4_stack hr
    refine ⟨finishInsert_ne_diverge vs fuel vid (hfin p hp) _ _ (by rw [l]; omega), fun s' h => ?_⟩
    rw [finishInsert_length h, l]
  have hjp : ∀ (b : Bool) (x : Res (Vtx F)) (f : Vtx F → Bool) (J : Bool → Res DT), x ≠ .diverge →
      (∀ c, J c ≠ .diverge ∧ ∀ s', J c = .ok s' → s'.ts.length ≤ s.ts.length + 2) →
      (if b = true then (do let a ← x; let c ← pure (f a); J c) else (do let c ← pure false; J c)) ≠ .diverge ∧
      ∀ s', (if b = true then (do let a ← x; let c ← pure (f a); J c) else (do let c ← pure false; J c)) = .ok s' →
        s'.ts.length ≤ s.ts.length + 2 := by
    intro b x f J hx hJ
    cases b with
    | false => exact hJ false
    | true =>
      refine ⟨Res.bind_ne_diverge hx fun a _ => (hJ (f a)).1, fun s' h => ?_⟩
      simp only [if_true, Res.bind_eq_ok] at h
      obtain ⟨a, _, c, hc, h⟩ := h
      exact (hJ c).2 s' h
  have hoe : ∀ p t ei e, getI vs vid = .ok p → insertOnEdge vs fuel s vid p t ei e ≠ .diverge ∧
      ∀ s', insertOnEdge vs fuel s vid p t ei e = .ok s' → s'.ts.length ≤ s.ts.length + 2 := by
    intro p t ei e hp
    unfold insertOnEdge
    refine hjp (isFin e.dst) (getI vs e.dst) (fun b => tooClose b p) (fun c => if c = true then
      Res.ok { s with merge := setMerge s.merge vid e.dst } else do
        let r ← split4 s.ts t ei e vid
        finishInsert vs fuel vid s.merge r) (getI_ne_diverge _ _) fun c => ?_
    cases c with
    | true =>
      refine ⟨by simp, fun s' h => ?_⟩
      simp only [if_true, Res.ok.injEq] at h
      subst h; simp
    | false =>
      refine ⟨Res.bind_ne_diverge (split4_ne_diverge _ _ _ _ _) fun r hr => (h4 t ei e p hp r hr).1, fun s' h => ?_⟩
      simp only [Bool.false_eq_true, if_false, Res.bind_eq_ok] at h
      obtain ⟨r, hr, h⟩ := h
      exact (h4 t ei e p hp r hr).2 s' h
  unfold insertVertex
  constructor
  · refine Res.bind_ne_diverge (getI_ne_diverge _ _) fun p hp => ?_
    refine Res.bind_ne_diverge (C40_placement_walk _ _ _ _).1 fun pl _ => ?_
    cases pl with
    | notFound => simp
    | inside t => exact Res.bind_ne_diverge (split3_ne_diverge _ _ _) fun r hr => (h3 t p hp r hr).1
    | onEdge t ei e =>
      exact (hjp (isFin e.src) (getI vs e.src) (fun b => tooClose b p) (fun c => if c = true then
        Res.ok { s with merge := setMerge s.merge vid e.src } else insertOnEdge vs fuel s vid p t ei e) (getI_ne_diverge _ _)
        fun c => by
          cases c with
          | true => exact ⟨by simp, fun s' h => by simp only [if_true, Res.ok.injEq] at h; subst h; simp⟩
          | false => exact hoe p t ei e hp).1
  · intro s' h
    simp only [Res.bind_eq_ok] at h
    obtain ⟨p, hp, pl, _, h⟩ := h
    cases pl with
    | notFound => simp at h
    | inside t =>
      simp only [Res.bind_eq_ok] at h
      obtain ⟨r, hr, h⟩ := h
      exact (h3 t p hp r hr).2 s' h
    | onEdge t ei e =>
      exact (hjp (isFin e.src) (getI vs e.src) (fun b => tooClose b p) (fun c => if c = true then
        Res.ok { s with merge := setMerge s.merge vid e.src } else insertOnEdge vs fuel s vid p t ei e) (getI_ne_diverge _ _)
        fun c => by
          cases c with
          | true => exact ⟨by simp, fun s' h => by simp only [if_true, Res.ok.injEq] at h; subst h; simp⟩
          | false => exact hoe p t ei e hp).2 s' h

theorem insertAll_terminates [NullLaws F] (vs : List (Vtx F)) (hn : vs.length ≤ INF0) (fuel : Nat) (l : List Nat) (s : DT)
    (hf : 4 + 6 * (s.ts.length + 2 * l.length) ≤ fuel) : insertAll vs fuel l s ≠ .diverge := by
  induction l generalizing s with
  | nil => simp [insertAll]
  | cons v l ih =>
    simp only [List.length_cons] at hf
    obtain ⟨h1, h2⟩ := insertVertex_terminates vs hn fuel s v (by omega)
    exact Res.bind_ne_diverge h1 fun s' hs' => ih s' (by have := h2 s' hs'; omega)

theorem binSort_ne_diverge (bins : Nat) (vs : List (Vtx F)) : binSort bins vs ≠ .diverge := by
  have h1 : ∀ (vs : List (Vtx F)) (cnt : List Nat), countBins bins vs cnt ≠ .diverge := by
    intro vs
    induction vs with
    | nil => simp [countBins]
    | cons v vs ih =>
      intro cnt
      unfold countBins
      refine Res.bind_ne_diverge ?_ fun b _ => Res.bind_ne_diverge (getI_ne_diverge _ _) fun c _ =>
        Res.bind_ne_diverge (ih _) fun _ _ => by simp
      unfold binIndex binIndexPos
      repeat' split
      all_goals simp
  have h2 : ∀ (bs : List Nat) (vid : Nat) (cnt sorted : List Nat), placeLoop bs vid cnt sorted ≠ .diverge := by
    intro bs
    induction bs with
    | nil => simp [placeLoop]
    | cons b bs ih =>
      intro vid cnt sorted
      unfold placeLoop
      refine Res.bind_ne_diverge (getI_ne_diverge _ _) fun c _ => ?_
      split
      · simp
      · exact Res.bind_ne_diverge (by unfold setI; split <;> simp) fun _ _ => ih _ _ _
  unfold binSort
  exact Res.bind_ne_diverge (h1 _ _) fun _ _ => h2 _ _ _ _

/-- The core ends: `12 n + 16` iterations of each restoration loop are enough. -/
theorem wrap_terminates [NullLaws F] (fuel bins : Nat) (vs : List (Vtx F)) (m : Option (List Nat)) (hn : vs.length + 3 ≤ IdCfg.maxId)
    (hf : 12 * vs.length + 16 ≤ fuel) : wrapAndTriangulate fuel bins vs m ≠ .diverge := by
  unfold wrapAndTriangulate
  refine Res.bind_ne_diverge (binSort_ne_diverge _ _) fun l hl => ?_
  have hlen : l.length = vs.length := by
    have := (binSort_perm (by omega) hl).length_eq
    simpa using this
  cases l with
  | nil => simp
  | cons v l =>
    refine Res.bind_ne_diverge (by unfold lastId; repeat' split <;> simp) fun tid _ => ?_
    refine insertAll_terminates vs (by unfold INF0; omega) fuel l _ ?_
    simp [initialTriangles] at hlen ⊢
    omega

end CDT

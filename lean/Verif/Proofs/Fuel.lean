import Verif.Proofs.Common
import Verif.Model.Constrained

/-!
# The fuel of the model is not observable

Every loop of the code that has no syntactic bound takes a fuel argument in the model. Here: an outcome other than
`diverge` does not change when more fuel is supplied. Hence the outcome of a function is determined by its inputs,
and `diverge` for every fuel is non-termination of the Rust loop.
-/

set_option linter.unusedSectionVars false

namespace CDT

/-- More fuel does not change an outcome other than `diverge`. -/
def FuelMono {α : Type} (f : Nat → Res α) : Prop := ∀ n m, n ≤ m → f n ≠ .diverge → f m = f n

namespace FuelMono
variable {α β : Type}

theorem const (x : Res α) : FuelMono fun _ => x := fun _ _ _ _ => rfl

theorem bind {f : Nat → Res α} {g : α → Nat → Res β} (hf : FuelMono f) (hg : ∀ a, FuelMono (g a)) :
    FuelMono fun n => f n >>= fun a => g a n := by
  intro n m h hd
  have h1 : f n ≠ .diverge := by
    intro e; apply hd; simp only [e]; rfl
  simp only at hd ⊢
  rw [hf n m h h1]
  cases e : f n with
  | ok a =>
    rw [e] at hd
    exact hg a n m h hd
  | err e => rfl
  | panic => rfl
  | diverge => exact absurd e h1

theorem ite {c : Prop} [Decidable c] {f g : Nat → Res α} (hf : FuelMono f) (hg : FuelMono g) :
    FuelMono fun n => if c then f n else g n := by
  by_cases h : c
  · simpa only [if_pos h] using hf
  · simpa only [if_neg h] using hg

theorem of_step {f : Nat → Res α} (h : ∀ n, f n ≠ .diverge → f (n + 1) = f n) : FuelMono f := by
  intro n m hnm hd
  induction m, hnm using Nat.le_induction with
  | base => rfl
  | succ k _ ih => rw [h k (by rw [ih]; exact hd), ih]

/-- Two outcomes other than `diverge` are equal. -/
theorem unique {f : Nat → Res α} (h : FuelMono f) {n m : Nat} (hn : f n ≠ .diverge) (hm : f m ≠ .diverge) : f n = f m := by
  rcases Nat.le_total n m with e | e
  · exact (h n m e hn).symm
  · exact h m n e hm

end FuelMono

variable {F : Type} [FloatOps F] [IdCfg]

theorem restore_fuel (vs : List (Vtx F)) (p : Nat) (ts : List Tri) (st : List (Nat × Nat)) :
    FuelMono fun n => restore vs p n ts st := by
  apply FuelMono.of_step
  intro n
  induction n generalizing ts st with
  | zero =>
    cases st with
    | nil => intro _; simp [restore]
    | cons x st => intro h; simp [restore] at h
  | succ n ih =>
    cases st with
    | nil => intro _; simp [restore]
    | cons x st =>
      obtain ⟨a, b⟩ := x
      intro h
      simp only [restore] at h ⊢
      cases e : checkAndSwap vs p ts a b st with
      | ok r => rw [e] at h; exact ih _ _ h
      | err e => rfl
      | panic => rfl
      | diverge => rfl

theorem finishInsert_fuel (vs : List (Vtx F)) (vid : Nat) (m : Option (List Nat)) (r : List Tri × List (Nat × Nat)) :
    FuelMono fun n => finishInsert vs n vid m r :=
  (restore_fuel vs vid r.1 r.2).bind fun _ => .const _

theorem jp_fuel {α : Type} (c : Bool) (x : Res (Vtx F)) (f : Vtx F → Bool) (J : Bool → Nat → Res α) (hJ : ∀ b, FuelMono (J b)) :
    FuelMono fun n => if c = true then (do let a ← x; let b ← pure (f a); J b n) else (do let b ← pure false; J b n) :=
  .ite ((FuelMono.const _).bind fun a => (FuelMono.const _).bind fun b => hJ b) ((FuelMono.const _).bind fun b => hJ b)

theorem insertOnEdge_fuel (vs : List (Vtx F)) (s : DT) (vid : Nat) (p : Vtx F) (t : Nat) (ei : Fin 3) (e : Edge) :
    FuelMono fun n => insertOnEdge vs n s vid p t ei e := by
  unfold insertOnEdge
  refine jp_fuel (isFin e.dst) (getI vs e.dst) (fun b => tooClose b p) (fun c n => if c = true then
    Res.ok { s with merge := setMerge s.merge vid e.dst } else do
      let r ← split4 s.ts t ei e vid
      finishInsert vs n vid s.merge r) fun c => ?_
  apply FuelMono.ite (.const _)
  exact (FuelMono.const _).bind fun r => finishInsert_fuel _ _ _ _

theorem insertVertex_fuel (vs : List (Vtx F)) (s : DT) (vid : Nat) : FuelMono fun n => insertVertex vs n s vid := by
  unfold insertVertex
  refine (FuelMono.const _).bind fun p => (FuelMono.const _).bind fun pl => ?_
  cases pl with
  | notFound => exact .const _
  | inside t => exact (FuelMono.const _).bind fun r => finishInsert_fuel _ _ _ _
  | onEdge t ei e =>
    refine jp_fuel (isFin e.src) (getI vs e.src) (fun b => tooClose b p) (fun c n => if c = true then
      Res.ok { s with merge := setMerge s.merge vid e.src } else insertOnEdge vs n s vid p t ei e) fun c => ?_
    apply FuelMono.ite (.const _)
    exact insertOnEdge_fuel _ _ _ _ _ _ _

theorem insertAll_fuel (vs : List (Vtx F)) (l : List Nat) (s : DT) : FuelMono fun n => insertAll vs n l s := by
  induction l generalizing s with
  | nil => exact .const _
  | cons v l ih => exact (insertVertex_fuel vs s v).bind fun s' => ih s'

theorem wrap_fuel (bins : Nat) (vs : List (Vtx F)) (m : Option (List Nat)) :
    FuelMono fun n => wrapAndTriangulate n bins vs m := by
  unfold wrapAndTriangulate
  refine (FuelMono.const _).bind fun l => ?_
  cases l with
  | nil => exact .const _
  | cons v l => exact (FuelMono.const _).bind fun _ => insertAll_fuel _ _ _

theorem triangulation2d_fuel (bins : Nat → Nat) (vs : List (Vtx F)) : FuelMono fun n => triangulation2d n bins vs := by
  unfold triangulation2d
  exact .ite (.const _) ((wrap_fuel _ _ _).bind fun _ => .const _)

theorem triangulation3d_fuel (bins : Nat → Nat) (vs : List (Vtx3 F)) (nrm : Vtx3 F) :
    FuelMono fun n => triangulation3d n bins vs nrm := by
  unfold triangulation3d
  exact .ite (.const _) ((FuelMono.const _).bind fun _ => triangulation2d_fuel _ _)

theorem removeCrossed_fuel (vs : List (Vtx F)) (cv : EV F) (s : RC) : FuelMono fun n => removeCrossed vs cv n s := by
  apply FuelMono.of_step
  intro n
  induction n generalizing s with
  | zero =>
    cases h : s.isects with
    | nil => intro _; simp [removeCrossed, h]
    | cons x st => intro h'; simp [removeCrossed, h] at h'
  | succ n ih =>
    cases hs : s.isects with
    | nil => intro _; simp [removeCrossed, hs]
    | cons d rest =>
      intro h
      rw [removeCrossed, hs] at h
      rw [removeCrossed, hs, removeCrossed, hs]
      simp only at h ⊢
      cases e : removeStep vs cv d { s with isects := rest } with
      | ok r => rw [e] at h; exact ih _ h
      | err e => rfl
      | panic => rfl
      | diverge => rfl

theorem restoreC_fuel (vs : List (Vtx F)) (ce : Edge) (s : RS) : FuelMono fun n => restoreC vs ce n s := by
  apply FuelMono.of_step
  intro n
  induction n generalizing s with
  | zero =>
    cases h : s.diags with
    | nil => intro _; simp [restoreC, h]
    | cons x st => intro h'; simp [restoreC, h] at h'
  | succ n ih =>
    cases hs : s.diags with
    | nil => intro _; simp [restoreC, hs]
    | cons d rest =>
      intro h
      rw [restoreC, hs] at h
      rw [restoreC, hs, restoreC, hs]
      simp only at h ⊢
      cases e : restoreStepC vs ce d { s with diags := rest } with
      | ok r => rw [e] at h; exact ih _ h
      | err e => rfl
      | panic => rfl
      | diverge => rfl

theorem insertEdge_fuel (vs : List (Vtx F)) (ce : Edge) (s : AC) : FuelMono fun n => insertEdge vs n ce s := by
  unfold insertEdge
  refine (FuelMono.const _).bind fun a => (FuelMono.const _).bind fun b => (FuelMono.const _).bind fun l => ?_
  cases l with
  | nil => exact .const _
  | cons d l => exact (removeCrossed_fuel _ _ _).bind fun rc => (restoreC_fuel _ _ _).bind fun _ => .const _

theorem applyOne_fuel (vs : List (Vtx F)) (merge : List Nat) (e : Edge) (s : AC) :
    FuelMono fun n => applyOne vs n merge e s := by
  unfold applyOne
  exact (FuelMono.const _).bind fun a => (FuelMono.const _).bind fun b => .ite (.const _) (.ite (.const _) (insertEdge_fuel _ _ _))

theorem applyLoop_fuel (vs : List (Vtx F)) (merge : List Nat) (es : List Edge) (s : AC) :
    FuelMono fun n => applyLoop vs n merge es s := by
  induction es generalizing s with
  | nil => exact .const _
  | cons e es ih => exact (applyOne_fuel vs merge e s).bind fun s' => ih s'

theorem constrainedMesh_fuel (bins : Nat → Nat) (vs : List (Vtx F)) (es : List Edge) :
    FuelMono fun n => constrainedMesh n bins vs es := by
  unfold constrainedMesh applyConstraints
  exact (wrap_fuel _ _ _).bind fun s => (FuelMono.const _).bind fun _ => applyLoop_fuel _ _ _ _

theorem explore_fuel (S : List Edge) (ts : List Tri) (st : List Nat) (s : Flood) : FuelMono fun n => explore S ts n st s := by
  apply FuelMono.of_step
  intro n
  induction n generalizing st s with
  | zero =>
    cases st with
    | nil => intro _; simp [explore]
    | cons x st => intro h; simp [explore] at h
  | succ n ih =>
    cases st with
    | nil => intro _; simp [explore]
    | cons x st =>
      intro h
      rw [explore] at h
      rw [explore, explore]
      by_cases hx : x = NONE
      · rw [if_pos hx] at h; rw [if_pos hx, if_pos hx]; exact ih _ _ h
      · rw [if_neg hx] at h; rw [if_neg hx, if_neg hx]
        cases e : getI s.visited x with
        | ok v =>
          rw [e] at h
          cases v with
          | true => exact ih _ _ h
          | false =>
            cases e2 : getI ts x with
            | ok t =>
              simp only [e2, Res.ok_bind] at h ⊢
              exact ih _ _ h
            | err e => rfl
            | panic => rfl
            | diverge => rfl
        | err e => rfl
        | panic => rfl
        | diverge => rfl

theorem floodLoop_fuel (S : List Edge) (ts l : List Tri) (i : Nat) (s : Flood) : FuelMono fun n => floodLoop S ts n l i s := by
  induction l generalizing i s with
  | nil => exact .const _
  | cons t l ih =>
    simp only [floodLoop]
    exact (FuelMono.const _).bind fun v => .ite ((explore_fuel _ _ _ _).bind fun s' => ih _ _) (ih _ _)

theorem cdtFilter_fuel (ts : List Tri) (S : List Edge) : FuelMono fun n => cdtFilter n ts S :=
  (floodLoop_fuel _ _ _ _ _).bind fun _ => .const _

theorem constrained2d_fuel (bins : Nat → Nat) (vs : List (Vtx F)) (es : List Edge) :
    FuelMono fun n => constrained2d n bins vs es := by
  unfold constrained2d
  exact .ite (.const _) ((constrainedMesh_fuel _ _ _).bind fun _ => cdtFilter_fuel _ _)

theorem constrained3d_fuel (bins : Nat → Nat) (vs : List (Vtx3 F)) (nrm : Vtx3 F) (es : List Edge) :
    FuelMono fun n => constrained3d n bins vs nrm es := by
  unfold constrained3d
  exact .ite (.const _) ((FuelMono.const _).bind fun _ => constrained2d_fuel _ _ _)

/-! ## Cycles of `remove_crossed_edges` -/

/-- `k` iterations of `remove_crossed_edges`, none of them with an empty queue. -/
def removeIter (vs : List (Vtx F)) (cv : EV F) : Nat → RC → Option RC
  | 0, s => some s
  | k + 1, s => match s.isects with
    | [] => none
    | d :: rest => match removeStep vs cv d { s with isects := rest } with
      | .ok s' => removeIter vs cv k s'
      | _ => none

theorem removeCrossed_iter {vs : List (Vtx F)} {cv : EV F} {k : Nat} {s s' : RC} (h : removeIter vs cv k s = some s') (n : Nat) :
    removeCrossed vs cv (k + n) s = removeCrossed vs cv n s' := by
  induction k generalizing s with
  | zero => simp [removeIter] at h; subst h; simp
  | succ k ih =>
    rw [removeIter] at h
    cases hs : s.isects with
    | nil => rw [hs] at h; simp at h
    | cons d rest =>
      rw [hs] at h
      simp only at h
      rw [show k + 1 + n = (k + n) + 1 by omega, removeCrossed, hs]
      simp only
      cases e : removeStep vs cv d { s with isects := rest } with
      | ok r => rw [e] at h; exact ih h
      | err e' => rw [e] at h; simp at h
      | panic => rw [e] at h; simp at h
      | diverge => rw [e] at h; simp at h

/-- A state that comes back after `p > 0` iterations: the loop does not end. -/
theorem removeCrossed_cycle {vs : List (Vtx F)} {cv : EV F} {k p : Nat} {s s' : RC} (hp : 0 < p)
    (h1 : removeIter vs cv k s = some s') (h2 : removeIter vs cv p s' = some s') (n : Nat) :
    removeCrossed vs cv n s = .diverge := by
  have hne : s'.isects ≠ [] := by
    intro e
    obtain ⟨q, rfl⟩ : ∃ q, p = q + 1 := ⟨p - 1, by omega⟩
    rw [removeIter, e] at h2
    simp at h2
  have h3 : ∀ q, removeCrossed vs cv (q * p) s' = .diverge := by
    intro q
    induction q with
    | zero =>
      rw [Nat.zero_mul, removeCrossed]
      cases e : s'.isects with
      | nil => exact absurd e hne
      | cons => rfl
    | succ q ih =>
      rw [show (q + 1) * p = p + q * p by ring, removeCrossed_iter h2, ih]
  by_contra hd
  have := removeCrossed_fuel vs cv s n (k + n * p) (by nlinarith) hd
  simp only at this
  rw [removeCrossed_iter h1, h3] at this
  exact hd this.symm

end CDT

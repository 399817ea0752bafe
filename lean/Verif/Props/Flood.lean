import Mathlib.Data.Finset.Prod
import Mathlib.Data.List.Count
import Verif.Props.Counts
import Verif.Spec.Domain

/-! # C21 – C26: constraint bookkeeping, domain filtering, constrained restoration (any arithmetic) -/

set_option linter.unusedSectionVars false
set_option linter.unusedSimpArgs false
set_option linter.unusedVariables false

namespace CDT
open FloatOps Spec

variable {F : Type} [FloatOps F] [IdCfg]

/-! ## The flood fill -/

theorem mem_ite_cons {c : Prop} [Decidable c] {st : List Nat} {x j : Nat} :
    (j ∈ if c then st else x :: st) ↔ j ∈ st ∨ (¬ c ∧ j = x) := by
  by_cases h : c <;> simp [h, or_comm]

theorem mem_pushUnconstrained {S : List Edge} {t : Tri} {st : List Nat} {j : Nat} :
    j ∈ pushUnconstrained S t st ↔ j ∈ st ∨ ∃ e, (e, j) ∈ sides t ∧ e ∉ S := by
  have e0 : t.edge 0 = ⟨t.v1, t.v2⟩ := rfl
  have e1 : t.edge 1 = ⟨t.v2, t.v3⟩ := rfl
  have e2 : t.edge 2 = ⟨t.v3, t.v1⟩ := rfl
  unfold pushUnconstrained sides
  rw [e0, e1, e2]
  simp only [mem_ite_cons, List.mem_cons, Prod.mk.injEq, List.not_mem_nil, or_false]
  constructor
  · rintro (((h | ⟨h, rfl⟩) | ⟨h, rfl⟩) | ⟨h, rfl⟩)
    · exact .inl h
    · exact .inr ⟨_, .inl ⟨rfl, rfl⟩, h⟩
    · exact .inr ⟨_, .inr (.inl ⟨rfl, rfl⟩), h⟩
    · exact .inr ⟨_, .inr (.inr ⟨rfl, rfl⟩), h⟩
  · rintro (h | ⟨e, ⟨rfl, rfl⟩ | ⟨rfl, rfl⟩ | ⟨rfl, rfl⟩, he⟩)
    · simp [h]
    · simp [he]
    · simp [he]
    · simp [he]

theorem pushUnconstrained_length (S : List Edge) (t : Tri) (st : List Nat) :
    (pushUnconstrained S t st).length ≤ st.length + 3 := by
  unfold pushUnconstrained
  simp only
  split <;> split <;> split <;> simp

theorem hasConstrained_iff {S : List Edge} {t : Tri} :
    hasConstrained S t = true ↔ ∃ e j, (e, j) ∈ sides t ∧ e ∈ S := by
  have e0 : t.edge 0 = ⟨t.v1, t.v2⟩ := rfl
  have e1 : t.edge 1 = ⟨t.v2, t.v3⟩ := rfl
  have e2 : t.edge 2 = ⟨t.v3, t.v1⟩ := rfl
  unfold hasConstrained sides
  rw [e0, e1, e2]
  simp only [Bool.or_eq_true, decide_eq_true_eq, List.mem_cons, Prod.mk.injEq, List.not_mem_nil,
    or_false]
  constructor
  · rintro ((h | h) | h)
    · exact ⟨_, _, .inl ⟨rfl, rfl⟩, h⟩
    · exact ⟨_, _, .inr (.inl ⟨rfl, rfl⟩), h⟩
    · exact ⟨_, _, .inr (.inr ⟨rfl, rfl⟩), h⟩
  · rintro ⟨e, j, ⟨rfl, rfl⟩ | ⟨rfl, rfl⟩ | ⟨rfl, rfl⟩, h⟩ <;> simp [h]

/-- The output item of triangle `i`, if it is finite. -/
def itemAt (ts : List Tri) (i : Nat) : Option Out :=
  match ts[i]? with
  | some t => if t.isFinite then some t.verts else none
  | none => none

/-- Link between the state of the filter and the ghost list `vis` of visited ids, in order. -/
structure FloodInv (S : List Edge) (ts : List Tri) (s : Flood) (vis : List Nat) : Prop where
  len : s.visited.length = ts.length
  flag : ∀ i, s.visited[i]? = some true ↔ i ∈ vis
  nodup : vis.Nodup
  out : s.out = vis.filterMap (itemAt ts)
  sound : ∀ i ∈ vis, InDomain S ts i

theorem FloodInv.visit {S : List Edge} {ts : List Tri} {s : Flood} {vis : List Nat}
    (h : FloodInv S ts s vis) {n : Nat} {t : Tri} (ht : ts[n]? = some t)
    (hv : s.visited[n]? = some false) (hd : InDomain S ts n) :
    FloodInv S ts ⟨s.visited.set n true, emit t s.out⟩ (vis ++ [n]) where
  len := by simpa using h.len
  flag := by
    intro i
    have hl := lt_of_getElem? hv
    by_cases hi : i = n
    · subst hi; simp [hl]
    · simp only [List.getElem?_set_ne (Ne.symm hi), h.flag, List.mem_append, List.mem_singleton, hi,
        or_false]
  nodup := by
    rw [List.nodup_append]
    refine ⟨h.nodup, by simp, ?_⟩
    intro a ha b hb
    simp at hb
    subst hb
    rintro rfl
    rw [← h.flag, hv] at ha
    simp at ha
  out := by
    simp only [List.filterMap_append, List.filterMap_cons, List.filterMap_nil, itemAt, ht, ← h.out,
      emit]
    split <;> simp
  sound := by
    intro i hi
    rcases List.mem_append.1 hi with hi | hi
    · exact h.sound i hi
    · simp at hi; subst hi; exact hd

/-- All steps out of the visited triangles lead to visited triangles or to the stack. -/
def Closed (S : List Edge) (ts : List Tri) (vis st : List Nat) : Prop :=
  ∀ i ∈ vis, ∀ j, Step S ts i j → j ∈ vis ∨ j ∈ st

theorem explore_spec {S : List Edge} {ts : List Tri} {fuel : Nat} {st : List Nat} {s s' : Flood}
    {vis : List Nat} (h : explore S ts fuel st s = .ok s') (hi : FloodInv S ts s vis)
    (hst : ∀ j ∈ st, j ≠ NONE → InDomain S ts j) (hc : Closed S ts vis st) :
    ∃ vis', FloodInv S ts s' vis' ∧ Closed S ts vis' [] ∧ ∀ i ∈ vis, i ∈ vis' := by
  induction fuel generalizing st s vis with
  | zero =>
    cases st with
    | nil => simp [explore] at h; subst h; exact ⟨vis, hi, hc, fun i h => h⟩
    | cons n st => simp [explore] at h
  | succ k ih =>
    cases st with
    | nil => simp [explore] at h; subst h; exact ⟨vis, hi, hc, fun i h => h⟩
    | cons n st =>
      have hst' : ∀ j ∈ st, j ≠ NONE → InDomain S ts j := fun j hj => hst j (by simp [hj])
      simp only [explore] at h
      split at h
      · rename_i hn
        refine ih h hi hst' ?_
        intro i hiv j hj
        rcases hc i hiv j hj with hm | hm
        · exact .inl hm
        · rcases List.mem_cons.1 hm with rfl | hm
          · obtain ⟨_, _, _, _, _, hne⟩ := hj
            exact absurd hn hne
          · exact .inr hm
      · rename_i hn
        rw [Res.bind_eq_ok] at h
        obtain ⟨b, hb, h⟩ := h
        rw [getI_eq_ok] at hb
        cases b with
        | true =>
          simp only [if_true] at h
          refine ih h hi hst' ?_
          intro i hiv j hj
          rcases hc i hiv j hj with hm | hm
          · exact .inl hm
          · rcases List.mem_cons.1 hm with rfl | hm
            · exact .inl ((hi.flag _).1 hb)
            · exact .inr hm
        | false =>
          simp only [Bool.false_eq_true, if_false, Res.bind_eq_ok] at h
          obtain ⟨t, ht, h⟩ := h
          rw [getI_eq_ok] at ht
          have hd := hst n (by simp) hn
          refine (ih h (hi.visit ht hb hd) ?_ ?_).imp fun vis' h' =>
            ⟨h'.1, h'.2.1, fun i hi => h'.2.2 i (by simp [hi])⟩
          · intro j hj hjn
            rcases mem_pushUnconstrained.1 hj with hj | ⟨e, he, heS⟩
            · exact hst' j hj hjn
            · obtain ⟨s0, hs0, hr⟩ := hd
              exact ⟨s0, hs0, hr.tail ⟨t, ht, e, he, heS, hjn⟩⟩
          · intro i hiv j hj
            rcases List.mem_append.1 hiv with hiv | hiv
            · rcases hc i hiv j hj with hm | hm
              · exact .inl (by simp [hm])
              · rcases List.mem_cons.1 hm with rfl | hm
                · exact .inl (by simp)
                · exact .inr (mem_pushUnconstrained.2 (.inl hm))
            · simp at hiv; subst hiv
              obtain ⟨t', ht', e, he, heS, _⟩ := hj
              rw [ht] at ht'
              simp at ht'
              subst ht'
              exact .inr (mem_pushUnconstrained.2 (.inr ⟨e, he, heS⟩))

theorem floodLoop_spec {S : List Edge} {ts : List Tri} {fuel : Nat} {l : List Tri} {idx : Nat}
    {s s' : Flood} {vis : List Nat} (h : floodLoop S ts fuel l idx s = .ok s')
    (hl : ts.drop idx = l) (hi : FloodInv S ts s vis) (hc : Closed S ts vis [])
    (hseed : ∀ i < idx, Seed S ts i → i ∈ vis) :
    ∃ vis', FloodInv S ts s' vis' ∧ Closed S ts vis' [] ∧ ∀ i, Seed S ts i → i ∈ vis' := by
  induction l generalizing idx s vis with
  | nil =>
    simp [floodLoop] at h; subst h
    refine ⟨vis, hi, hc, fun i hs => hseed i ?_ hs⟩
    obtain ⟨t, ht, _⟩ := hs
    have := lt_of_getElem? ht
    have h2 : ts.length ≤ idx := by
      have := congrArg List.length hl
      simp at this; omega
    omega
  | cons t l ih =>
    have ht : ts[idx]? = some t := by
      have := congrArg (fun x => x[0]?) hl
      simpa using this
    have hl' : ts.drop (idx + 1) = l := by
      have := congrArg List.tail hl
      simpa [List.tail_drop] using this
    simp only [floodLoop, Res.bind_eq_ok] at h
    obtain ⟨b, hb, h⟩ := h
    rw [getI_eq_ok] at hb
    by_cases hcond : (!b && hasConstrained S t) = true
    · rw [if_pos hcond, Res.bind_eq_ok] at h
      obtain ⟨s1, h1, h⟩ := h
      simp only [Bool.and_eq_true, Bool.not_eq_true'] at hcond
      obtain ⟨rfl, hcon⟩ := hcond
      have hseedi : Seed S ts idx := ⟨t, ht, hasConstrained_iff.1 hcon⟩
      have hd : InDomain S ts idx := ⟨idx, hseedi, .refl⟩
      obtain ⟨vis', hv1, hv2, hv3⟩ := explore_spec h1 (hi.visit ht hb hd) (by
          intro j hj hjn
          rcases mem_pushUnconstrained.1 hj with hj | ⟨e, he, heS⟩
          · simp at hj
          · exact ⟨idx, hseedi, Relation.ReflTransGen.single ⟨t, ht, e, he, heS, hjn⟩⟩)
        (by
          intro i hiv j hj
          rcases List.mem_append.1 hiv with hiv | hiv
          · rcases hc i hiv j hj with hm | hm
            · exact .inl (by simp [hm])
            · simp at hm
          · simp at hiv; subst hiv
            obtain ⟨t', ht', e, he, heS, _⟩ := hj
            rw [ht] at ht'
            simp at ht'
            subst ht'
            exact .inr (mem_pushUnconstrained.2 (.inr ⟨e, he, heS⟩)))
      refine ih h hl' hv1 hv2 ?_
      intro i hlt hs
      by_cases hii : i = idx
      · subst hii; exact hv3 i (by simp)
      · exact hv3 i (by simp [hseed i (by omega) hs])
    · rw [if_neg hcond] at h
      refine ih h hl' hi hc ?_
      intro i hlt hs
      by_cases hii : i = idx
      · subst hii
        obtain ⟨t', ht', hx⟩ := hs
        rw [ht] at ht'
        simp at ht'
        subst ht'
        have := hasConstrained_iff.2 hx
        cases b with
        | true => exact (hi.flag _).1 hb
        | false => simp [this] at hcond
      · exact hseed i (by omega) hs

theorem itemAt_iff {ts : List Tri} {i : Nat} :
    (FiniteAt ts i ∧ itemAt ts i = some (vertsAt ts i)) ∨ (¬ FiniteAt ts i ∧ itemAt ts i = none) := by
  unfold FiniteAt itemAt vertsAt
  cases ts[i]? with
  | none => right; simp
  | some t =>
    by_cases h : t.v1 < INF0 ∧ t.v2 < INF0 ∧ t.v3 < INF0
    · left
      refine ⟨⟨t, rfl, h⟩, ?_⟩
      have : t.isFinite = true := by simp [Tri.isFinite, isFin_iff, h]
      simp [this, Tri.verts]
    · right
      refine ⟨by rintro ⟨t', ht', hf⟩; simp at ht'; subst ht'; exact h hf, ?_⟩
      have : ¬ t.isFinite = true := by
        simp only [Tri.isFinite, Bool.and_eq_true, isFin_iff]; tauto
      simp [this]

open Classical in
theorem filterMap_item (ts : List Tri) (vis : List Nat) :
    vis.filterMap (itemAt ts) = (vis.filter fun i => decide (FiniteAt ts i)).map (vertsAt ts) := by
  induction vis with
  | nil => rfl
  | cons i vis ih =>
    rcases itemAt_iff (ts := ts) (i := i) with ⟨h1, h2⟩ | ⟨h1, h2⟩
    · simp [List.filterMap_cons, h2, h1, ih]
    · simp [List.filterMap_cons, h2, h1, ih]

theorem replicate_false_not_true (n i : Nat) : ¬ (List.replicate n false)[i]? = some true := by
  rw [List.getElem?_replicate]; split <;> simp

/-- **C23**, the filter: for every mesh and every constraint set, the output is the list of the finite
triangles of the constrained domains (`Spec.InDomain`), each mesh triangle once. -/
theorem C23_filter (fuel : Nat) (ts : List Tri) (S : List Edge) (out : List Out)
    (h : cdtFilter fuel ts S = .ok out) : ∃ ids, IsDomainList S ts out ids := by
  classical
  simp only [cdtFilter, Res.bind_eq_ok] at h
  obtain ⟨s, hs, h⟩ := h
  simp at h; subst h
  obtain ⟨vis, h1, h2, h3⟩ := floodLoop_spec (vis := []) hs (by simp)
    ⟨by simp, by intro i; simp [replicate_false_not_true], by simp, by simp, by simp⟩
    (by intro i hi; simp at hi) (by omega)
  refine ⟨vis.filter fun i => decide (FiniteAt ts i), h1.nodup.filter _, ?_, ?_⟩
  · intro i
    simp only [List.mem_filter, decide_eq_true_eq]
    constructor
    · rintro ⟨a, b⟩; exact ⟨h1.sound i a, b⟩
    · rintro ⟨⟨s0, hs0, hr⟩, b⟩
      refine ⟨?_, b⟩
      have hs1 := h3 s0 hs0
      clear b
      induction hr with
      | refl => exact hs1
      | tail _ hst ih =>
        rcases h2 _ ih _ hst with hm | hm
        · exact hm
        · simp at hm
  · rw [h1.out, filterMap_item]

/-- **C23**, the entry point: the constrained triangulation outputs exactly the constrained domains of the
final mesh with respect to the set of effective constraints. -/
theorem C23_constrained2d (fuel : Nat) (bins : Nat → Nat) (vs : List (Vtx F)) (es : List Edge)
    (out : List Out) (hn : 3 ≤ vs.length) (h : constrained2d fuel bins vs es = .ok out) :
    ∃ r ids, constrainedMesh fuel bins vs es = .ok r ∧ IsDomainList r.S r.ts out ids := by
  unfold constrained2d at h
  rw [if_neg (by omega)] at h
  simp only [Res.bind_eq_ok] at h
  obtain ⟨r, hr, h⟩ := h
  obtain ⟨ids, hi⟩ := C23_filter fuel r.ts r.S out h
  exact ⟨r, ids, hr, hi⟩

/-- **C24**: a region without a triangle owning a constrained edge, that can be entered only
through constrained directed edges, contributes nothing. -/
theorem C24_hole (fuel : Nat) (ts : List Tri) (S : List Edge) (out : List Out)
    (h : cdtFilter fuel ts S = .ok out) (R : Nat → Prop)
    (hseed : ∀ i, R i → ¬ Seed S ts i)
    (henter : ∀ i j t e, ¬ R i → R j → ts[i]? = some t → (e, j) ∈ sides t → j ≠ NONE → e ∈ S) :
    ∃ ids, IsDomainList S ts out ids ∧ ∀ i ∈ ids, ¬ R i := by
  obtain ⟨ids, hi⟩ := C23_filter fuel ts S out h
  refine ⟨ids, hi, fun i him => ?_⟩
  obtain ⟨s, hs, hr⟩ := ((hi.2.1 i).1 him).1
  have hs' : ¬ R s := fun h => hseed s h hs
  clear him
  induction hr with
  | refl => exact hs'
  | tail _ hst ih =>
    obtain ⟨t, ht, e, he, heS, hne⟩ := hst
    intro hR
    exact heS (henter _ _ t e ih hR ht he hne)

/-! ## C25 -/

theorem count_set_true {l : List Bool} {n : Nat} (h : l[n]? = some false) :
    (l.set n true).count false + 1 = l.count false := by
  induction l generalizing n with
  | nil => simp at h
  | cons b l ih =>
    cases n with
    | zero => simp at h; subst h; simp
    | succ n =>
      simp only [List.getElem?_cons_succ] at h
      simp only [List.set_cons_succ, List.count_cons]
      have := ih h
      omega

theorem explore_ne_diverge {S : List Edge} {ts : List Tri} {fuel : Nat} {st : List Nat} {s : Flood}
    (hf : st.length + 3 * s.visited.count false ≤ fuel) : explore S ts fuel st s ≠ .diverge := by
  induction fuel generalizing st s with
  | zero =>
    cases st with
    | nil => simp [explore]
    | cons n st => simp at hf
  | succ k ih =>
    cases st with
    | nil => simp [explore]
    | cons n st =>
      simp only [List.length_cons] at hf
      simp only [explore]
      split
      · exact ih (by omega)
      · refine Res.bind_ne_diverge (getI_ne_diverge _ _) fun b hb => ?_
        rw [getI_eq_ok] at hb
        cases b with
        | true => simp only [if_true]; exact ih (by omega)
        | false =>
          simp only [Bool.false_eq_true, if_false]
          refine Res.bind_ne_diverge (getI_ne_diverge _ _) fun t _ => ih ?_
          have h1 := pushUnconstrained_length S t st
          have h2 := count_set_true hb
          simp only; omega

theorem explore_ok {S : List Edge} {ts : List Tri} (hn : ∀ t ∈ ts, ∀ k, t.n k = NONE ∨ t.n k < ts.length)
    {fuel : Nat} {st : List Nat} {s : Flood} (hst : ∀ j ∈ st, j = NONE ∨ j < ts.length)
    (hl : s.visited.length = ts.length)
    (hf : st.length + 3 * s.visited.count false ≤ fuel) :
    ∃ s', explore S ts fuel st s = .ok s' ∧ s'.visited.length = ts.length ∧
      s'.visited.count false ≤ s.visited.count false := by
  induction fuel generalizing st s with
  | zero =>
    cases st with
    | nil => exact ⟨s, by simp [explore], hl, le_refl _⟩
    | cons n st => simp at hf
  | succ k ih =>
    cases st with
    | nil => exact ⟨s, by simp [explore], hl, le_refl _⟩
    | cons n st =>
      simp only [List.length_cons] at hf
      have hst' : ∀ j ∈ st, j = NONE ∨ j < ts.length := fun j hj => hst j (by simp [hj])
      simp only [explore]
      split
      · exact ih hst' hl (by omega)
      · rename_i hne
        have hlt : n < ts.length := (hst n (by simp)).resolve_left hne
        obtain ⟨b, hb, hb'⟩ := getI_lt (l := s.visited) (i := n) (by omega)
        rw [hb']
        simp only [Res.ok_bind]
        cases b with
        | true => simp only [if_true]; exact ih hst' hl (by omega)
        | false =>
          obtain ⟨t, ht, ht'⟩ := getI_lt (l := ts) (i := n) hlt
          simp only [Bool.false_eq_true, if_false, ht', Res.ok_bind]
          have h1 := pushUnconstrained_length S t st
          have h2 := count_set_true hb
          obtain ⟨s', e1, e2, e3⟩ := ih (st := pushUnconstrained S t st)
            (s := ⟨s.visited.set n true, emit t s.out⟩) (by
              intro j hj
              rcases mem_pushUnconstrained.1 hj with hj | ⟨e, he, _⟩
              · exact hst' j hj
              · have := forall_fin3.1 (hn t (List.mem_of_getElem? ht))
                simp only [sides, List.mem_cons, Prod.mk.injEq, List.not_mem_nil, or_false] at he
                rcases he with ⟨_, rfl⟩ | ⟨_, rfl⟩ | ⟨_, rfl⟩
                · exact this.1
                · exact this.2.1
                · exact this.2.2) (by simpa using hl) (by simp only; omega)
          exact ⟨s', e1, e2, by simp only at e3; omega⟩

/-- **C25**: on every mesh whose neighbor ids are valid the domain exploration ends without
panic; `3 * triangles.len()` iterations per domain are enough. -/
theorem C25_filter_terminates (fuel : Nat) (ts : List Tri) (S : List Edge)
    (hn : ∀ t ∈ ts, (t.n12 = NONE ∨ t.n12 < ts.length) ∧ (t.n23 = NONE ∨ t.n23 < ts.length) ∧
      (t.n31 = NONE ∨ t.n31 < ts.length))
    (hf : 3 * ts.length ≤ fuel) : ∃ out, cdtFilter fuel ts S = .ok out := by
  have hn' : ∀ t ∈ ts, ∀ k, t.n k = NONE ∨ t.n k < ts.length := by
    intro t ht; rw [forall_fin3]; exact hn t ht
  have key : ∀ (l : List Tri) (idx : Nat) (s : Flood), ts.drop idx = l →
      s.visited.length = ts.length → s.visited.count false ≤ ts.length →
      ∃ s', floodLoop S ts fuel l idx s = .ok s' := by
    intro l
    induction l with
    | nil => intro idx s _ _ _; exact ⟨s, rfl⟩
    | cons t l ih =>
      intro idx s hl hlen hc
      have ht : ts[idx]? = some t := by
        have := congrArg (fun x => x[0]?) hl
        simpa using this
      have hl' : ts.drop (idx + 1) = l := by
        have := congrArg List.tail hl
        simpa [List.tail_drop] using this
      have hlt := lt_of_getElem? ht
      obtain ⟨b, hb, hb'⟩ := getI_lt (l := s.visited) (i := idx) (by omega)
      simp only [floodLoop, hb', Res.ok_bind]
      by_cases hcond : (!b && hasConstrained S t) = true
      · rw [if_pos hcond]
        have hbf : b = false := by simp only [Bool.and_eq_true, Bool.not_eq_true'] at hcond; exact hcond.1
        subst hbf
        have h2 := count_set_true hb
        have h1 := pushUnconstrained_length S t []
        obtain ⟨s', e1, e2, e3⟩ := explore_ok (S := S) hn' (fuel := fuel) (st := pushUnconstrained S t [])
            (s := ⟨s.visited.set idx true, emit t s.out⟩) (by
              intro j hj
              rcases mem_pushUnconstrained.1 hj with hj | ⟨e, he, _⟩
              · simp at hj
              · have := forall_fin3.1 (hn' t (List.mem_of_getElem? ht))
                simp only [sides, List.mem_cons, Prod.mk.injEq, List.not_mem_nil, or_false] at he
                rcases he with ⟨_, rfl⟩ | ⟨_, rfl⟩ | ⟨_, rfl⟩
                · exact this.1
                · exact this.2.1
                · exact this.2.2) (by simpa using hlen) (by simp only [List.length_nil] at h1; simp only; omega)
        rw [e1]
        simp only [Res.ok_bind]
        exact ih _ _ hl' e2 (by simp only at e3; omega)
      · rw [if_neg hcond]
        exact ih _ _ hl' hlen hc
  obtain ⟨s', hs'⟩ := key ts 0 ⟨List.replicate ts.length false, []⟩ (by simp) (by simp) (by simp)
  exact ⟨s'.out, by simp [cdtFilter, hs']⟩

/-- **C25**, corrupted meshes: even with arbitrary neighbor ids the exploration ends (possibly with
a panic). -/
theorem C25_filter_never_loops (fuel : Nat) (ts : List Tri) (S : List Edge)
    (hf : 3 * ts.length ≤ fuel) : cdtFilter fuel ts S ≠ .diverge := by
  have key0 : ∀ (k : Nat) (st : List Nat) (s s' : Flood), explore S ts k st s = .ok s' →
      s'.visited.count false ≤ s.visited.count false := by
    intro k
    induction k with
    | zero =>
      intro st s s' h
      cases st with
      | nil => simp [explore] at h; subst h; exact le_refl _
      | cons n st => simp [explore] at h
    | succ k ih =>
      intro st s s' h
      cases st with
      | nil => simp [explore] at h; subst h; exact le_refl _
      | cons n st =>
        simp only [explore] at h
        split at h
        · exact ih _ _ _ h
        · rw [Res.bind_eq_ok] at h
          obtain ⟨b, hb, h⟩ := h
          rw [getI_eq_ok] at hb
          cases b with
          | true => exact ih _ _ _ h
          | false =>
            simp only [Bool.false_eq_true, if_false, Res.bind_eq_ok] at h
            obtain ⟨t, ht, h⟩ := h
            have := ih _ _ _ h
            have h2 := count_set_true hb
            simp only at this; omega
  have key : ∀ (l : List Tri) (idx : Nat) (s : Flood), s.visited.count false ≤ ts.length →
      floodLoop S ts fuel l idx s ≠ .diverge := by
    intro l
    induction l with
    | nil => intro idx s _; simp [floodLoop]
    | cons t l ih =>
      intro idx s hc
      simp only [floodLoop]
      refine Res.bind_ne_diverge (getI_ne_diverge _ _) fun b hb => ?_
      rw [getI_eq_ok] at hb
      by_cases hcond : (!b && hasConstrained S t) = true
      · rw [if_pos hcond]
        have hbf : b = false := by simp only [Bool.and_eq_true, Bool.not_eq_true'] at hcond; exact hcond.1
        subst hbf
        have h2 := count_set_true hb
        have h1 := pushUnconstrained_length S t []
        simp only [List.length_nil] at h1
        refine Res.bind_ne_diverge (explore_ne_diverge (by simp only; omega)) fun s' hs' => ?_
        have := key0 _ _ _ _ hs'
        simp only at this
        exact ih _ _ (by omega)
      · rw [if_neg hcond]
        exact ih _ _ hc
  unfold cdtFilter
  exact Res.bind_ne_diverge (key _ _ _ (by simp)) fun _ _ => by simp

/-- Non-vacuity of C23, C24, C25: a 5 x 5 square (clockwise contour) with a square hole
(counter-clockwise contour): upstream test level 3 has 8 output triangles; here on a mesh built by
hand: triangle 0 owns the constrained edge 0 → 1, triangle 1 is reached through the free edge
1 → 2, triangle 2 only through the constrained edge 2 → 0, so it is a hole. -/
example : (letI := u32Cfg; cdtFilter 9 [⟨0,1,2,NONE,1,2⟩, ⟨2,1,3,0,NONE,NONE⟩, ⟨0,2,4,0,NONE,NONE⟩]
    [⟨0,1⟩, ⟨2,0⟩]) = .ok [(0,1,2), (2,1,3)] := by decide +kernel

/-! ## C21, C22 -/

/-- **C22**: if no constraint has two different endpoints after merging, nothing is output. -/
theorem C22_no_effective_constraint (fuel : Nat) (bins : Nat → Nat) (vs : List (Vtx F)) (es : List Edge)
    (out : List Out) (h : constrained2d fuel bins vs es = .ok out) (s : DT)
    (hs : wrapAndTriangulate fuel (bins vs.length) (normalizeVerts vs)
        (some ((List.range vs.length).map toId)) = .ok s)
    (hdeg : ∀ e ∈ es, (s.merge.getD [])[e.src]? = (s.merge.getD [])[e.dst]?) : out = [] := by
  by_cases hl : vs.length < 3
  · unfold constrained2d at h
    rw [if_pos hl] at h; simp at h; exact h
  obtain ⟨r, ids, hr, hnd, hids, rfl⟩ := C23_constrained2d fuel bins vs es out (by omega) h
  obtain ⟨s', hs', hr⟩ := constrainedMesh_ok hr
  rw [hs] at hs'
  simp at hs'; subst hs'
  obtain ⟨v2t, _, hr⟩ := applyConstraints_ok hr
  have hS : r.S = [] := by
    clear hids hnd
    have : ∀ (l : List Edge) (a b : AC), (∀ e ∈ l, e ∈ es) → a.S = [] →
        applyLoop (normalizeVerts vs) fuel (s.merge.getD []) l a = .ok b → b.S = [] := by
      intro l
      induction l with
      | nil => intro a b _ ha hb; simp [applyLoop] at hb; subst hb; exact ha
      | cons e l ih =>
        intro a b hl ha hb
        simp only [applyLoop, Res.bind_eq_ok] at hb
        obtain ⟨c, hc, hb⟩ := hb
        refine ih c b (fun e he => hl e (by simp [he])) ?_ hb
        obtain ⟨x, y, hx, hy, ⟨_, rfl⟩ | ⟨_, _, rfl⟩ | ⟨hne, _, _⟩⟩ := applyOne_ok hc
        · exact ha
        · exact ha
        · have := hdeg e (hl e (by simp))
          rw [hx, hy] at this
          simp at this
          exact absurd this hne
    exact this es _ _ (fun e he => he) rfl hr
  cases ids with
  | nil => rfl
  | cons i ids =>
    obtain ⟨⟨s0, ⟨t, _, e, j, _, he⟩, _⟩, _⟩ := (hids i).1 (by simp)
    rw [hS] at he
    simp at he

/-- **C22**, corollary: no constraint at all. -/
theorem C22_no_constraint (fuel : Nat) (bins : Nat → Nat) (vs : List (Vtx F)) (out : List Out)
    (h : constrained2d fuel bins vs [] = .ok out) : out = [] := by
  by_cases hl : vs.length < 3
  · unfold constrained2d at h
    rw [if_pos hl] at h; simp at h; exact h
  obtain ⟨r, ids, hr, _⟩ := C23_constrained2d fuel bins vs [] out (by omega) h
  obtain ⟨s, hs, _⟩ := constrainedMesh_ok hr
  exact C22_no_effective_constraint fuel bins vs [] out h s hs (by simp)

/-- **C22**, corollary: only constraints whose two ends are the same vertex id. -/
theorem C22_loops_only (fuel : Nat) (bins : Nat → Nat) (vs : List (Vtx F)) (es : List Edge)
    (hes : ∀ e ∈ es, e.src = e.dst) (out : List Out)
    (h : constrained2d fuel bins vs es = .ok out) : out = [] := by
  by_cases hl : vs.length < 3
  · unfold constrained2d at h
    rw [if_pos hl] at h; simp at h; exact h
  obtain ⟨r, ids, hr, _⟩ := C23_constrained2d fuel bins vs es out (by omega) h
  obtain ⟨s, hs, _⟩ := constrainedMesh_ok hr
  exact C22_no_effective_constraint fuel bins vs es out h s hs (fun e he => by rw [hes e he])

example : (letI := u32Cfg; constrained2d 100 Witness.defaultBins
    (Witness.pts [(0,0),(0,5),(5,5),(5,0),(5,5)]) [⟨1,1⟩, ⟨2,4⟩]) = .ok [] := by decide +kernel

theorem applyLoop_append (vs : List (Vtx F)) (fuel : Nat) (merge : List Nat) (l1 l2 : List Edge)
    (s : AC) : applyLoop vs fuel merge (l1 ++ l2) s =
      (applyLoop vs fuel merge l1 s >>= applyLoop vs fuel merge l2) := by
  induction l1 generalizing s with
  | nil => rfl
  | cons e l1 ih =>
    simp only [List.cons_append, applyLoop]
    cases applyOne vs fuel merge e s with
    | ok s' => simp only [Res.ok_bind]; exact ih s'
    | err e => rfl
    | panic => rfl
    | diverge => rfl

/-- The constraint set only grows and contains every effective constraint processed so far. -/
theorem applyLoop_S {vs : List (Vtx F)} {fuel : Nat} {merge : List Nat} {l : List Edge} {s s' : AC}
    (h : applyLoop vs fuel merge l s = .ok s') :
    (∀ e ∈ s.S, e ∈ s'.S) ∧ ∀ e ∈ l, ∀ a b, merge[e.src]? = some a → merge[e.dst]? = some b → a ≠ b →
      ⟨a, b⟩ ∈ s'.S := by
  induction l generalizing s with
  | nil => simp [applyLoop] at h; subst h; simp
  | cons e l ih =>
    simp only [applyLoop, Res.bind_eq_ok] at h
    obtain ⟨s1, h1, h⟩ := h
    obtain ⟨i1, i2⟩ := ih h
    have hone : (∀ e ∈ s.S, e ∈ s1.S) ∧ ∀ a b, merge[e.src]? = some a → merge[e.dst]? = some b → a ≠ b →
        ⟨a, b⟩ ∈ s1.S := by
      obtain ⟨x, y, hx, hy, ⟨he, rfl⟩ | ⟨_, hm, rfl⟩ | ⟨_, _, hi⟩⟩ := applyOne_ok h1
      · refine ⟨fun e h => h, ?_⟩
        intro a b ha hb hne
        rw [hx] at ha; rw [hy] at hb
        simp at ha hb
        exact absurd (ha ▸ hb ▸ he) hne
      · refine ⟨fun e h => h, ?_⟩
        intro a b ha hb hne
        rw [hx] at ha; rw [hy] at hb
        simp at ha hb
        subst ha hb; exact hm
      · have hS := (insertEdge_in (Q := fun _ => True) hi (fun _ _ _ => trivial)).2.2.2
        simp only at hS
        rw [hS]
        refine ⟨fun e h => by simp [h], ?_⟩
        intro a b ha hb hne
        rw [hx] at ha; rw [hy] at hb
        simp at ha hb
        subst ha hb; simp
    refine ⟨fun e' he' => i1 e' (hone.1 e' he'), ?_⟩
    intro e' he' a b ha hb hne
    rcases List.mem_cons.1 he' with rfl | he'
    · exact i1 _ (hone.2 a b ha hb hne)
    · exact i2 e' he' a b ha hb hne

/-- **C21**, the loop over the constraints: an ignored constraint can be removed from any place. -/
theorem C21_applyConstraints (vs : List (Vtx F)) (fuel : Nat) (ts : List Tri) (merge : List Nat)
    (l1 l2 : List Edge) (e : Edge) (a b : Nat) (ha : merge[e.src]? = some a)
    (hb : merge[e.dst]? = some b)
    (hign : a = b ∨ ∃ e' ∈ l1, merge[e'.src]? = some a ∧ merge[e'.dst]? = some b) :
    applyConstraints vs fuel ts (l1 ++ e :: l2) merge = applyConstraints vs fuel ts (l1 ++ l2) merge := by
  unfold applyConstraints
  cases buildV2t ts 0 (List.replicate vs.length 0) with
  | err e => rfl
  | panic => rfl
  | diverge => rfl
  | ok v2t =>
    simp only [Res.ok_bind]
    rw [applyLoop_append, applyLoop_append]
    cases h : applyLoop vs fuel merge l1 ⟨ts, v2t, []⟩ with
    | err e => rfl
    | panic => rfl
    | diverge => rfl
    | ok s =>
      simp only [Res.ok_bind, applyLoop]
      have : applyOne vs fuel merge e s = .ok s := by
        unfold applyOne
        rw [getI_of ha, getI_of hb]
        simp only [Res.ok_bind]
        split
        · rfl
        · rename_i hne
          rcases hign with h' | ⟨e', he', ha', hb'⟩
          · exact absurd h' hne
          · rw [if_pos ((applyLoop_S h).2 e' he' a b ha' hb' hne)]
      rw [this]
      rfl

/-- **C21**, the entry point: a constraint whose endpoints are merged, or that repeats an earlier constraint
(same merged endpoints), can be removed without changing the result (value, error or panic). -/
theorem C21_constrained2d (fuel : Nat) (bins : Nat → Nat) (vs : List (Vtx F))
    (l1 l2 : List Edge) (e : Edge) (s : DT) (m : List Nat)
    (hs : wrapAndTriangulate fuel (bins vs.length) (normalizeVerts vs)
        (some ((List.range vs.length).map toId)) = .ok s) (hm : s.merge = some m)
    (a b : Nat) (ha : m[e.src]? = some a) (hb : m[e.dst]? = some b)
    (hign : a = b ∨ ∃ e' ∈ l1, m[e'.src]? = some a ∧ m[e'.dst]? = some b) :
    constrained2d fuel bins vs (l1 ++ e :: l2) = constrained2d fuel bins vs (l1 ++ l2) := by
  unfold constrained2d
  split
  · rfl
  · unfold constrainedMesh
    simp only [hs, Res.ok_bind, hm, Option.getD_some]
    rw [C21_applyConstraints _ _ _ _ l1 l2 e a b ha hb hign]

/-- **C21**, in terms of the input ids only: an edge `i → i`, or a repeated edge. -/
theorem C21_repeated (fuel : Nat) (bins : Nat → Nat) (vs : List (Vtx F)) (hn : vs.length ≤ IdCfg.maxId + 1)
    (l1 l2 : List Edge) (e : Edge) (h1 : e.src < vs.length) (h2 : e.dst < vs.length)
    (hign : e.src = e.dst ∨ e ∈ l1) :
    constrained2d fuel bins vs (l1 ++ e :: l2) = constrained2d fuel bins vs (l1 ++ l2) := by
  cases hs : wrapAndTriangulate fuel (bins vs.length) (normalizeVerts vs)
        (some ((List.range vs.length).map toId)) with
  | ok s =>
    obtain ⟨m, hm, hl, _⟩ := C11_count fuel bins vs hn s hs
    obtain ⟨a, ha, _⟩ := getI_lt (l := m) (i := e.src) (by omega)
    obtain ⟨b, hb, _⟩ := getI_lt (l := m) (i := e.dst) (by omega)
    refine C21_constrained2d fuel bins vs l1 l2 e s m hs hm a b ha hb ?_
    rcases hign with h | h
    · left; rw [h, hb] at ha; simpa using ha.symm
    · exact .inr ⟨e, h, ha, hb⟩
  | err x => unfold constrained2d constrainedMesh; simp [hs]
  | panic => unfold constrained2d constrainedMesh; simp [hs]
  | diverge => unfold constrained2d constrainedMesh; simp [hs]

/-- Non-vacuity: vertices 2 and 4 coincide, so the constraint 2 → 4 is degenerate and
0 → 4 repeats 0 → 2. -/
example : (letI := u32Cfg; constrained2d 100 Witness.defaultBins
    (Witness.pts [(0,0),(0,5),(5,5),(5,0),(5,5)]) [⟨0,2⟩, ⟨2,4⟩, ⟨0,4⟩]) =
    (letI := u32Cfg; constrained2d 100 Witness.defaultBins
    (Witness.pts [(0,0),(0,5),(5,5),(5,0),(5,5)]) [⟨0,2⟩]) ∧
    (letI := u32Cfg; constrained2d 100 Witness.defaultBins
    (Witness.pts [(0,0),(0,5),(5,5),(5,0),(5,5)]) [⟨0,2⟩]) = .ok [(4,3,0),(4,0,1)] := by
  decide +kernel

/-! ## C26 -/

/-- Ordered pairs of triangle ids without repetition: at most `T²` of them. -/
theorem hist_length_le {T : Nat} {l : List (Nat × Nat)} (hnd : l.Nodup)
    (hlt : ∀ p ∈ l, p.1 < T ∧ p.2 < T) : l.length ≤ T * T := by
  have h1 : l.toFinset ⊆ Finset.range T ×ˢ Finset.range T := by
    intro p hp
    simp only [List.mem_toFinset] at hp
    simp only [Finset.mem_product, Finset.mem_range]
    exact hlt p hp
  have h2 := Finset.card_le_card h1
  rw [List.toFinset_card_of_nodup hnd, Finset.card_product, Finset.card_range] at h2
  exact h2

/-- Invariant of the swap history. -/
structure HistInv (T : Nat) (s : RS) : Prop where
  len : s.ts.length = T
  nodup : s.hist.Nodup
  range : ∀ p ∈ s.hist, p.1 < T ∧ p.2 < T

theorem restoreStepC_hist {T : Nat} {vs : List (Vtx F)} {ce : Edge} {d : EdgeData} {s s' : RS}
    (h : restoreStepC vs ce d s = .ok s') (hi : HistInv T s) : HistInv T s' ∧
      ((s' = s) ∨ (s'.hist = (d.f, d.t) :: s.hist ∧ s'.diags.length = s.diags.length + 1)) := by
  rcases restoreStepC_ok h with ⟨_, rfl⟩ | ⟨_, q, _, hq, _, ⟨_, rfl⟩ | ⟨_, hnot, w, hw, rfl⟩⟩
  · exact ⟨hi, .inl rfl⟩
  · exact ⟨hi, .inl rfl⟩
  · obtain ⟨tt, tf, htt, htf, _⟩ := toQuad_ok hq
    refine ⟨⟨(swapQuad_length hw).1.trans hi.len, List.nodup_cons.2 ⟨hnot, hi.nodup⟩, ?_⟩,
      .inr ⟨rfl, by simp⟩⟩
    intro p hp
    rcases List.mem_cons.1 hp with rfl | hp
    · rw [← hi.len]; exact ⟨lt_of_getElem? htf, lt_of_getElem? htt⟩
    · exact hi.range p hp

theorem infQuad_ne_diverge (q : Quad) : collectInfQuad q ≠ .diverge := by
  unfold collectInfQuad; dsimp only; generalize (_ ++ _ : List (Fin 4)) = l; split <;> simp

theorem shouldSwap_ne_diverge (vs : List (Vtx F)) (q : Quad) : shouldSwap vs q ≠ .diverge := by
  have hp : ∀ i, inHalfPlane1 vs q i ≠ .diverge := by
    intro i
    unfold inHalfPlane1
    exact Res.bind_ne_diverge (getI_ne_diverge _ _) fun _ _ =>
      Res.bind_ne_diverge (getI_ne_diverge _ _) fun _ _ =>
      Res.bind_ne_diverge (getI_ne_diverge _ _) fun _ _ => by simp
  unfold shouldSwap
  split
  · simp
  split
  · exact Res.bind_ne_diverge (getI_ne_diverge _ _) fun _ _ =>
      Res.bind_ne_diverge (getI_ne_diverge _ _) fun _ _ =>
      Res.bind_ne_diverge (getI_ne_diverge _ _) fun _ _ =>
      Res.bind_ne_diverge (getI_ne_diverge _ _) fun _ _ => by simp
  split
  · simp
  split <;> exact hp _

theorem toQuad_ne_diverge (d : EdgeData) (ts : List Tri) : d.toQuad ts ≠ .diverge :=
  Res.bind_ne_diverge (getI_ne_diverge _ _) fun _ _ =>
    Res.bind_ne_diverge (getI_ne_diverge _ _) fun _ _ => by simp

theorem setV2t_ne_diverge (v : List Nat) (q t : Nat) : setV2t v q t ≠ .diverge := by
  unfold setV2t setI; split
  · split <;> simp
  · simp

theorem swapQuad_ne_diverge (ts : List Tri) (v2t : List Nat) (d : EdgeData) (q : Quad) :
    swapQuad ts v2t d q ≠ .diverge :=
  Res.bind_ne_diverge (getI_ne_diverge _ _) fun _ _ =>
    Res.bind_ne_diverge (getI_ne_diverge _ _) fun _ _ =>
    Res.bind_ne_diverge (updNb_ne_diverge _ _ _ _) fun _ _ =>
    Res.bind_ne_diverge (updNb_ne_diverge _ _ _ _) fun _ _ =>
    Res.bind_ne_diverge (setV2t_ne_diverge _ _ _) fun _ _ =>
    Res.bind_ne_diverge (setV2t_ne_diverge _ _ _) fun _ _ => by simp

theorem restoreStepC_ne_diverge (vs : List (Vtx F)) (ce : Edge) (d : EdgeData) (s : RS) :
    restoreStepC vs ce d s ≠ .diverge := by
  unfold restoreStepC
  split
  · simp
  · refine Res.bind_ne_diverge (toQuad_ne_diverge _ _) fun q _ => ?_
    refine Res.bind_ne_diverge (by
      unfold shouldSwapC
      split
      · simp
      · exact shouldSwap_ne_diverge _ _) fun b _ => ?_
    split
    · exact Res.bind_ne_diverge (swapQuad_ne_diverge _ _ _ _) fun _ _ => by simp
    · simp

/-- **C26**: whatever the predicates answer and whatever the mesh looks like, the constrained
restoration ends: at most `T²` swaps (`T` triangles) and `queue + T²` iterations. -/
theorem C26_restoration_terminates (vs : List (Vtx F)) (ce : Edge) (fuel : Nat) (s : RS)
    (hh : s.hist = []) (hf : s.diags.length + s.ts.length * s.ts.length ≤ fuel) :
    restoreC vs ce fuel s ≠ .diverge := by
  have key : ∀ (fuel : Nat) (x : RS), HistInv s.ts.length x →
      x.diags.length + s.ts.length * s.ts.length ≤ fuel + x.hist.length →
      restoreC vs ce fuel x ≠ .diverge := by
    intro fuel
    induction fuel with
    | zero =>
      intro x hx hle
      unfold restoreC
      split
      · simp
      · rename_i d rest he
        have := hist_length_le hx.nodup hx.range
        rw [he] at hle
        simp at hle; omega
    | succ n ih =>
      intro x hx hle
      unfold restoreC
      split
      · simp
      · rename_i d rest he
        rw [he] at hle
        simp only [List.length_cons] at hle
        refine Res.bind_ne_diverge (restoreStepC_ne_diverge _ _ _ _) fun x' hx' => ?_
        obtain ⟨hi, rfl | ⟨h1, h2⟩⟩ := restoreStepC_hist (T := s.ts.length) hx' ⟨hx.len, hx.nodup, hx.range⟩
        · exact ih _ hi (by simp only; omega)
        · refine ih _ hi ?_
          rw [h1, h2]
          simp only [List.length_cons]; omega
  refine key fuel s ⟨rfl, by rw [hh]; simp, by rw [hh]; simp⟩ (by omega)

/-- **C26**: every ordered pair of triangles is swapped at most once (`swaps_history` records exactly
the swaps, see `restoreStepC`). -/
theorem C26_swaps_once (vs : List (Vtx F)) (ce : Edge) (fuel : Nat) (s s' : RS)
    (hh : s.hist = []) (h : restoreC vs ce fuel s = .ok s') :
    s'.hist.Nodup ∧ s'.hist.length ≤ s.ts.length * s.ts.length ∧ s'.ts.length = s.ts.length := by
  have := (restoreC_rule (HistInv s.ts.length) (by
    intro x d rest y hx he hst
    exact (restoreStepC_hist hst ⟨hx.len, hx.nodup, hx.range⟩).1) h
    ⟨rfl, by rw [hh]; simp, by rw [hh]; simp⟩).1
  exact ⟨this.nodup, hist_length_le this.nodup this.range, this.len⟩

/-- Non-vacuity of C26: a restoration that swaps (and then stops). Two triangles sharing the edge
0-1 whose other diagonal is shorter. -/
example : (letI := u32Cfg; (restoreC (Witness.pts [(0,0),(4,0),(2,1),(2,-1)]) ⟨7,8⟩ 20
    ⟨[⟨0,2,1,NONE,NONE,1⟩, ⟨0,1,3,0,NONE,NONE⟩], [0,0,0,1], [⟨0,1,⟨1,0⟩⟩], []⟩ >>= fun r =>
      .ok (r.ts.map Tri.verts, r.hist))) = .ok ([(3,2,1),(3,0,2)], [(0,1)]) := by decide +kernel

end CDT

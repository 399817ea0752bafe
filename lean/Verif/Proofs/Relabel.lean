import Verif.Proofs.BinOrder
import Verif.Proofs.Rename
import Mathlib.Logic.Equiv.Basic
import Mathlib.Algebra.Group.End

/-! A vertex list given in another order is triangulated in the same way, up to the names of the
vertices, as long as the relative order inside each bin is kept. Any arithmetic. -/

namespace CDT
open FloatOps

variable {F : Type} [FloatOps F] [IdCfg]

omit [IdCfg] in
theorem binIndex_cases (bins : Nat) (v : Vtx F) : (∃ b, binIndex bins v = .ok b) ∨ binIndex bins v = .panic := by
  unfold binIndex binIndexPos
  split
  · exact .inl ⟨_, rfl⟩
  · split
    · exact .inl ⟨_, rfl⟩
    · exact .inr rfl

omit [IdCfg] in
theorem countBins_cases (bins : Nat) (vs : List (Vtx F)) (cnt : List Nat) :
    (∃ r, countBins bins vs cnt = .ok r) ∨ countBins bins vs cnt = .panic := by
  induction vs generalizing cnt with
  | nil => exact .inl ⟨_, rfl⟩
  | cons v vs ih =>
    rcases binIndex_cases bins v with ⟨b, hb⟩ | hb
    · cases hc : cnt[b]? with
      | none => right; simp [countBins, hb, getI, hc]
      | some c =>
        rcases ih (cnt.set b (c + 1)) with ⟨r, hr⟩ | hr
        · left; exact ⟨(b :: r.1, r.2), by simp [countBins, hb, getI, hc, hr]⟩
        · right; simp [countBins, hb, getI, hc, hr]
    · right; simp [countBins, hb]

theorem binSort_cases {bins : Nat} {vs : List (Vtx F)} (hn : vs.length ≤ IdCfg.maxId + 1) :
    (∃ out, binSort bins vs = .ok out) ∨ binSort bins vs = .panic := by
  rcases countBins_cases bins vs (List.replicate (bins * bins) 0) with ⟨r, hr⟩ | hr
  · obtain ⟨out, ho, _⟩ := binSort_of_bins hn hr
    exact .inl ⟨out, ho⟩
  · right; simp [binSort, hr]

/-- `vs'` lists the vertices of `vs` in another order: vertex `i` of `vs` is vertex `σ i` of `vs'`. -/
structure Reorder (σ : Equiv.Perm Nat) (vs vs' : List (Vtx F)) : Prop where
  fix : ∀ i, vs.length ≤ i → σ i = i
  get : ∀ i : Nat, vs'[σ i]? = vs[i]?

namespace Reorder
variable {σ : Equiv.Perm Nat} {vs vs' : List (Vtx F)}

omit [FloatOps F] [IdCfg] in
theorem lt (h : Reorder σ vs vs') {i : Nat} (hi : i < vs.length) : σ i < vs.length := by
  by_contra hc
  have h1 := h.fix (σ i) (by omega)
  have := σ.injective h1
  omega

omit [FloatOps F] [IdCfg] in
theorem len (h : Reorder σ vs vs') : vs'.length = vs.length := by
  apply le_antisymm
  · by_contra hc
    have h1 := h.get vs.length
    rw [h.fix _ le_rfl] at h1
    simp at h1
    omega
  · by_contra hc
    have h2 : σ.symm vs'.length < vs.length := by
      by_contra hcon
      have := h.fix (σ.symm vs'.length) (by omega)
      simp at this
      omega
    have h1 := h.get (σ.symm vs'.length)
    simp at h1
    omega

omit [FloatOps F] [IdCfg] in
theorem symm (h : Reorder σ vs vs') : Reorder σ.symm vs' vs := by
  refine ⟨fun i hi => ?_, fun i => ?_⟩
  · rw [Equiv.symm_apply_eq]; exact (h.fix i (h.len ▸ hi)).symm
  · have := h.get (σ.symm i); simpa using this.symm

omit [FloatOps F] [IdCfg] in
theorem mem_iff (h : Reorder σ vs vs') (v : Vtx F) : v ∈ vs' ↔ v ∈ vs := by
  simp only [List.mem_iff_getElem?]
  constructor
  · rintro ⟨i, hi⟩; exact ⟨_, (h.symm.get i).trans hi⟩
  · rintro ⟨i, hi⟩; exact ⟨_, (h.get i).trans hi⟩

omit [FloatOps F] [IdCfg] in
theorem map {G : Type} (h : Reorder σ vs vs') (f : Vtx F → Vtx G) : Reorder σ (vs.map f) (vs'.map f) :=
  ⟨fun i hi => h.fix i (by simpa using hi), fun i => by simp [h.get i]⟩

omit [FloatOps F] [IdCfg] in
theorem range_perm (h : Reorder σ vs vs') {out : List Nat} (hp : out.Perm (List.range vs.length)) :
    (out.map σ).Perm (List.range vs.length) := by
  refine (hp.map σ).trans ?_
  have hnd : ((List.range vs.length).map σ).Nodup := List.nodup_range.map σ.injective
  refine (List.subperm_of_subset hnd ?_).perm_of_length_le (by simp)
  intro x hx
  simp only [List.mem_map, List.mem_range] at hx ⊢
  obtain ⟨i, hi, rfl⟩ := hx
  exact h.lt hi

/-- The insertion orders correspond. -/
theorem binSort (h : Reorder σ vs vs') {bins : Nat} (hn : vs.length ≤ IdCfg.maxId + 1)
    (hord : ∀ (i j : Nat) v w b, vs[i]? = some v → vs[j]? = some w → binIndex bins v = .ok b →
      binIndex bins w = .ok b → i < j → σ i < σ j)
    {out : List Nat} (ho : CDT.binSort bins vs = .ok out) : CDT.binSort bins vs' = .ok (out.map σ) := by
  have hn' : vs'.length ≤ IdCfg.maxId + 1 := h.len ▸ hn
  obtain ⟨bs, hl, hB, hbin, -⟩ := binSort_pos hn ho
  have hall : ∀ v ∈ vs', ∃ b, binIndex bins v = .ok b ∧ b < bins * bins := by
    intro v hv
    obtain ⟨i, hi⟩ := List.mem_iff_getElem?.1 ((h.mem_iff v).1 hv)
    have hil := (List.getElem?_eq_some_iff.1 hi).1
    have hb : bs[i]? = some (bs[i]'(by omega)) := by simp
    obtain ⟨v', hv', hvb⟩ := hbin _ _ hb
    rw [hi] at hv'; cases hv'
    exact ⟨_, hvb, hB _ (List.getElem_mem _)⟩
  obtain ⟨r, hr⟩ := countBins_ok (bins := bins) (vs := vs')
    (cnt := List.replicate (bins * bins) 0) (by simpa using hall)
  obtain ⟨out', ho', hp'⟩ := binSort_of_bins hn' hr
  rw [ho']
  congr 1
  have hp := binSort_perm hn ho
  have hs := binSort_sorted hn ho
  have hs' := binSort_sorted hn' ho'
  refine List.Perm.eq_of_pairwise (le := BinBefore bins vs') (fun a b _ _ h1 h2 => (h1.asymm h2).elim)
    hs' ?_ ?_
  · rw [List.pairwise_map]
    refine hs.imp ?_
    rintro a b ⟨v, w, x, y, hv, hw, hx, hy, hxy⟩
    refine ⟨v, w, x, y, (h.get a).trans hv, (h.get b).trans hw, hx, hy, ?_⟩
    rcases hxy with hxy | ⟨rfl, hba⟩
    · exact .inl hxy
    · exact .inr ⟨rfl, hord b a w v x hw hv hy hx hba⟩
  · refine hp'.trans ?_
    rw [h.len]
    exact (h.range_perm hp).symm

/-- The reordered list is a renaming in the sense of `Ren`. -/
theorem ren (h : Reorder σ vs vs') (hn : vs.length ≤ INF0) : Ren σ vs vs' := by
  have e : ∀ a a', RPair σ vs vs' a a' → a' = a := by
    rintro a a' ⟨i, hi, hi'⟩
    rw [h.get i, hi] at hi'; exact (Option.some.inj hi').symm
  refine ⟨fun i j hij => σ.injective hij, fun i hi => h.fix i (by omega), ?_, ?_, ?_, ?_, ?_, ?_, ?_, ?_, ?_, ?_⟩
  · intro i hi
    rcases Nat.lt_or_ge i vs.length with hl | hl
    · have := h.lt hl; omega
    · rw [h.fix i hl]; exact hi
  · intro i a ha; exact ⟨a, (h.get i).trans ha⟩
  · intro a a' b b' p p' ha hb hp; rw [e _ _ ha, e _ _ hb, e _ _ hp]
  · intro a a' b b' p p' ha hb hp; rw [e _ _ ha, e _ _ hb, e _ _ hp]
  · intro a a' b b' p p' ha hb hp; rw [e _ _ ha, e _ _ hb, e _ _ hp]
  · intro a a' p p' k ha hp; rw [e _ _ ha, e _ _ hp]
  · intro a a' p p' k ha hp; rw [e _ _ ha, e _ _ hp]
  · intro a a' p p' k ha hp; rw [e _ _ ha, e _ _ hp]
  · intro a a' b b' ha hb; rw [e _ _ ha, e _ _ hb]
  · intro a a' b b' c c' p p' ha hb hc hp; rw [e _ _ ha, e _ _ hb, e _ _ hc, e _ _ hp]

theorem wrap (h : Reorder σ vs vs') {bins fuel : Nat} (hn : vs.length ≤ INF0)
    (hord : ∀ (i j : Nat) v w b, vs[i]? = some v → vs[j]? = some w → binIndex bins v = .ok b →
      binIndex bins w = .ok b → i < j → σ i < σ j) :
    RSim (Ren.RState σ) (wrapAndTriangulate fuel bins vs none) (wrapAndTriangulate fuel bins vs' none) := by
  have hR := h.ren hn
  have hn' : vs.length ≤ IdCfg.maxId + 1 := by unfold INF0 at hn; omega
  unfold wrapAndTriangulate
  rcases binSort_cases (bins := bins) hn' with ⟨out, ho⟩ | ho
  · rw [ho, h.binSort hn' hord ho]
    cases out with
    | nil => simp [RSim]
    | cons first rest =>
      simp only [Res.ok_bind, List.map_cons]
      have : lastId (initialTriangles (σ first)) = lastId (initialTriangles first) := by
        simp [lastId, initialTriangles]
      rw [this]
      refine (RSim.refl _).bind ?_
      rintro a b rfl
      exact hR.insertAll fuel rest (hR.initial _ _ _ _)
  · rw [ho]; simp [RSim]

end Reorder

/-- A renamed triple. -/
def outRen (ρ : Nat → Nat) (t : Out) : Out := (ρ t.1, ρ t.2.1, ρ t.2.2)

theorem filterSeq_ren {G : Type} [FloatOps G] {ρ : Nat → Nat} {ws : List (Vtx G)} {vs : List (Vtx F)} (h : Ren ρ ws vs)
    (ts : List Tri) : filterSeq (ts.map (Tri.ren ρ)) = (filterSeq ts).map (outRen ρ) := by
  induction ts with
  | nil => rfl
  | cons t ts ih =>
    have : (t.ren ρ).isFinite = t.isFinite := by simp [Tri.isFinite, h.isFin]
    simp only [List.map_cons, filterSeq, this, ih]
    split
    · simp [Tri.verts, outRen]
    · rfl

/-- Two simulations in opposite directions make the second computation the image of the first. -/
theorem RSim.both {α β : Type} {f : α → β} {S : β → α → Prop} {x : Res α} {y : Res β}
    (h : RSim (fun a b => b = f a) x y) (h' : RSim S y x) : y = (do let a ← x; .ok (f a)) := by
  cases x <;> cases y <;> simp_all [RSim]

end CDT

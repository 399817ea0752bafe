import Verif.Proofs.Common

/-! Counting sort: the result is a permutation of `0..n`, for any arithmetic. -/

set_option linter.unusedSectionVars false
set_option linter.unusedSimpArgs false

namespace CDT
open FloatOps

variable {F : Type} [FloatOps F] [IdCfg]

theorem countBins_spec {bins : Nat} {vs : List (Vtx F)} {cnt : List Nat} {r : List Nat × List Nat}
    (h : countBins bins vs cnt = .ok r) :
    r.1.length = vs.length ∧ r.2.length = cnt.length ∧ (∀ b ∈ r.1, b < cnt.length) ∧
    ∀ b, b < cnt.length → r.2.getD b 0 = cnt.getD b 0 + r.1.count b := by
  induction vs generalizing cnt r with
  | nil => simp only [countBins, Res.ok.injEq] at h; subst h; simp
  | cons v vs ih =>
    simp only [countBins, Res.bind_eq_ok] at h
    obtain ⟨b, hb, c, hc, r', hr', rfl'⟩ := h
    rw [Res.ok.injEq] at rfl'
    subst rfl'
    rw [getI_eq_ok] at hc
    obtain ⟨hbl, hbc⟩ := List.getElem?_eq_some_iff.1 hc
    obtain ⟨h1, h2, h3, h4⟩ := ih hr'
    simp only [List.length_set] at h2 h3 h4
    refine ⟨by simp [h1], h2, ?_, ?_⟩
    · intro x hx
      simp only [List.mem_cons] at hx
      rcases hx with rfl | hx
      · exact hbl
      · exact h3 x hx
    · intro x hx
      rw [h4 x hx, List.count_cons]
      by_cases hxb : x = b
      · subst hxb
        simp [List.getD_eq_getElem?_getD, hbl, hbc]; omega
      · have : b ≠ x := fun e => hxb e.symm
        simp [List.getD_eq_getElem?_getD, List.getElem?_set, this]

theorem countBins_ok {bins : Nat} {vs : List (Vtx F)} {cnt : List Nat}
    (h : ∀ v ∈ vs, ∃ b, binIndex bins v = .ok b ∧ b < cnt.length) :
    ∃ r, countBins bins vs cnt = .ok r := by
  induction vs generalizing cnt with
  | nil => exact ⟨_, rfl⟩
  | cons v vs ih =>
    obtain ⟨b, hb, hbl⟩ := h v (by simp)
    obtain ⟨r, hr⟩ := ih (cnt := cnt.set b (cnt[b] + 1)) (by
      intro w hw; simpa using h w (by simp [hw]))
    refine ⟨(b :: r.1, r.2), ?_⟩
    have hg : getI cnt b = .ok cnt[b] := getI_eq_ok.2 (by simp)
    simp [countBins, hb, hg, hr]

theorem prefixSums_length (l : List Nat) (a : Nat) : (prefixSums l a).length = l.length := by
  induction l generalizing a with
  | nil => rfl
  | cons c cs ih => simp [prefixSums, ih]

theorem prefixSums_getElem? (l : List Nat) (a b : Nat) (h : b < l.length) :
    (prefixSums l a)[b]? = some (a + (l.take (b + 1)).sum) := by
  induction l generalizing a b with
  | nil => simp at h
  | cons c cs ih =>
    cases b with
    | zero => simp [prefixSums]; omega
    | succ b =>
      simp only [prefixSums, List.getElem?_cons_succ]
      rw [ih _ _ (by simpa using h)]
      simp only [List.take_succ_cons, List.sum_cons]
      congr 1; omega

/-- Slots reserved for each bin are `[lo b, hi b)`, pairwise disjoint, below `n`. The remaining
occurrences of `b` fill exactly `[lo b, cnt b)`. -/
theorem placeLoop_spec (lo hi : Nat → Nat) (n : Nat) (B : Nat)
    (hdisj : ∀ b b' s, b < B → b' < B → b ≠ b' → lo b ≤ s → s < hi b → ¬ (lo b' ≤ s ∧ s < hi b'))
    (hhi : ∀ b, b < B → hi b ≤ n)
    (bs : List Nat) (vid : Nat) (cnt sorted : List Nat)
    (hid : vid + bs.length ≤ IdCfg.maxId + 1)
    (hcl : cnt.length = B) (hsl : sorted.length = n)
    (hbs : ∀ b ∈ bs, b < B)
    (hcnt : ∀ b, b < B → cnt.getD b 0 = lo b + bs.count b ∧ cnt.getD b 0 ≤ hi b)
    (hdone : ∀ j, j < vid → ∃ s, sorted[s]? = some j ∧
      ∀ b, b < B → ¬ (lo b ≤ s ∧ s < cnt.getD b 0)) :
    ∃ out, placeLoop bs vid cnt sorted = .ok out ∧ out.length = n ∧
      ∀ j, j < vid + bs.length → j ∈ out := by
  induction bs generalizing vid cnt sorted with
  | nil =>
    refine ⟨sorted, rfl, hsl, ?_⟩
    intro j hj
    obtain ⟨s, hs, _⟩ := hdone j (by simpa using hj)
    exact List.mem_of_getElem? hs
  | cons b bs ih =>
    have hbB : b < B := hbs b (by simp)
    have hbc : b < cnt.length := hcl ▸ hbB
    obtain ⟨c, hc⟩ : ∃ c, cnt[b]? = some c := ⟨cnt[b], by simp⟩
    have hgd : cnt.getD b 0 = c := by simp [List.getD_eq_getElem?_getD, hc]
    have hcb := hcnt b hbB
    rw [hgd] at hcb
    have hcount : c = lo b + (bs.count b + 1) := by
      have := hcb.1; simpa [List.count_cons] using this
    have hc0 : c ≠ 0 := by omega
    have hsn : c - 1 < n := by have := hhi b hbB; omega
    have htoid : toId vid = vid := by
      unfold toId; exact Nat.mod_eq_of_lt (by simp at hid; omega)
    have hget : ∀ x, (cnt.set b (c - 1)).getD x 0 = if x = b then c - 1 else cnt.getD x 0 := by
      intro x
      simp only [List.getD_eq_getElem?_getD, List.getElem?_set]
      by_cases hx : b = x
      · subst hx; simp [hbc]
      · have : x ≠ b := fun e => hx e.symm
        simp [hx, this]
    obtain ⟨out, ho, hol, hom⟩ := ih (vid + 1) (cnt.set b (c - 1)) (sorted.set (c - 1) vid)
      (by simp at hid; omega) (by simpa using hcl) (by simpa using hsl)
      (fun x hx => hbs x (by simp [hx]))
      (by
        intro x hx
        rw [hget]
        by_cases hxb : x = b
        · subst hxb; simp; omega
        · have := hcnt x hx
          have hne : b ≠ x := fun e => hxb e.symm
          simp [hxb]; simpa [List.count_cons, hne] using this)
      (by
        intro j hj
        by_cases hjv : j = vid
        · subst hjv
          refine ⟨c - 1, by simp [hsl, hsn], ?_⟩
          intro x hx
          rw [hget]
          by_cases hxb : x = b
          · subst hxb; simp
          · simp only [hxb, if_false]
            intro hh
            exact hdisj b x (c - 1) hbB hx (fun e => hxb e.symm) (by omega) (by omega)
              ⟨hh.1, lt_of_lt_of_le hh.2 (hcnt x hx).2⟩
        · obtain ⟨s, hs, hp⟩ := hdone j (by omega)
          have hne : c - 1 ≠ s := by
            intro e
            exact hp b hbB ⟨by omega, by rw [hgd]; omega⟩
          refine ⟨s, by simpa [List.getElem?_set, hne] using hs, ?_⟩
          intro x hx
          rw [hget]
          by_cases hxb : x = b
          · subst hxb
            have := hp x hx; rw [hgd] at this; simp; omega
          · simpa [hxb] using hp x hx)
    refine ⟨out, ?_, hol, ?_⟩
    · have hg : getI cnt b = .ok c := getI_eq_ok.2 hc
      have hs : setI sorted (c - 1) (toId vid) = .ok (sorted.set (c - 1) vid) :=
        setI_eq_ok.2 ⟨by omega, by rw [htoid]⟩
      simp [placeLoop, hg, hc0, hs, ho]
    · intro j hj
      exact hom j (by simp at hj; omega)

theorem take_sum_mono (l : List Nat) {a b : Nat} (h : a ≤ b) : (l.take a).sum ≤ (l.take b).sum := by
  have : l.take a = (l.take b).take a := by rw [List.take_take, min_eq_left h]
  rw [this]
  exact List.Sublist.sum_le_sum (List.take_sublist _ _) (fun _ _ => Nat.zero_le _)

theorem sum_count_eq (l : List Nat) (B : Nat) (h : ∀ b ∈ l, b < B) :
    ((List.range B).map fun b => l.count b).sum = l.length := by
  induction l with
  | nil => simp
  | cons x xs ih =>
    have hx : x < B := h x (by simp)
    have ih' := ih (fun b hb => h b (by simp [hb]))
    have : ((List.range B).map fun b => (x :: xs).count b).sum
        = ((List.range B).map fun b => xs.count b).sum + ((List.range B).map fun b => if b = x then 1 else 0).sum := by
      rw [← List.sum_map_add]
      congr 1
      apply List.map_congr_left
      intro b _
      simp only [List.count_cons]
      by_cases hb : x = b
      · simp [hb]
      · have : b ≠ x := fun e => hb e.symm
        simp [hb, this]
    rw [this, ih']
    have h1 : ((List.range B).map fun b => if b = x then 1 else 0).sum = 1 := by
      clear ih ih' this h
      induction B with
      | zero => omega
      | succ B ihB =>
        rw [List.range_succ, List.map_append, List.sum_append]
        by_cases hxB : x = B
        · subst hxB
          have : ((List.range x).map fun b => if b = x then 1 else 0) = (List.range x).map fun _ => 0 := by
            apply List.map_congr_left
            intro b hb
            have : b ≠ x := by have := List.mem_range.1 hb; omega
            simp [this]
          rw [this]; simp
        · rw [ihB (by omega)]
          have : B ≠ x := fun e => hxB e.symm
          simp [this]
    rw [h1]; simp

/-- If every vertex falls into an existing bin, the sort succeeds and is a permutation. -/
theorem binSort_of_bins {bins : Nat} {vs : List (Vtx F)} (hn : vs.length ≤ IdCfg.maxId + 1)
    {r : List Nat × List Nat} (hr : countBins bins vs (List.replicate (bins * bins) 0) = .ok r) :
    ∃ out, binSort bins vs = .ok out ∧ out.Perm (List.range vs.length) := by
  obtain ⟨h1, h2, h3, h4⟩ := countBins_spec hr
  simp only [List.length_replicate] at h2 h3 h4
  have h4' : ∀ b, b < bins * bins → r.2.getD b 0 = r.1.count b := by
    intro b hb
    rw [h4 b hb]
    simp [List.getD_eq_getElem?_getD, List.getElem?_replicate, hb]
  have hr2 : r.2 = (List.range (bins * bins)).map fun b => r.1.count b := by
    apply List.ext_getElem
    · simp [h2]
    · intro i hi _
      have := h4' i (by omega)
      simpa [List.getD_eq_getElem?_getD, hi] using this
  have hsum : r.2.sum = vs.length := by rw [hr2, sum_count_eq _ _ h3, h1]
  obtain ⟨out, ho, hol, hom⟩ := placeLoop_spec (fun b => (r.2.take b).sum)
    (fun b => (r.2.take (b + 1)).sum) vs.length (bins * bins)
    (by
      intro b b' s _ _ hne hl hh hc
      rcases Nat.lt_or_gt_of_ne hne with h | h
      · have := take_sum_mono r.2 (show b + 1 ≤ b' from h); omega
      · have := take_sum_mono r.2 (show b' + 1 ≤ b from h); omega)
    (by
      intro b _
      rw [← hsum]
      exact List.Sublist.sum_le_sum (List.take_sublist _ _) (fun _ _ => Nat.zero_le _))
    r.1 0 (prefixSums r.2 0) (List.replicate vs.length 0)
    (by omega) (by rw [prefixSums_length, h2]) (by simp) h3
    (by
      intro b hb
      have hb2 : b < r.2.length := by omega
      have e : (prefixSums r.2 0).getD b 0 = (r.2.take (b + 1)).sum := by
        simp [List.getD_eq_getElem?_getD, prefixSums_getElem? _ _ _ hb2]
      rw [e]
      refine ⟨?_, le_refl _⟩
      rw [List.take_add_one, List.sum_append]
      have := h4' b hb
      simp only [List.getD_eq_getElem?_getD, hb2, getElem?_pos, Option.getD_some] at this
      simp [hb2, this])
    (by intro j hj; omega)
  refine ⟨out, ?_, ?_⟩
  · simp [binSort, hr, ho]
  · have hsub : (List.range vs.length) ⊆ out := by
      intro j hj
      exact hom j (by simpa [h1] using List.mem_range.1 hj)
    have := List.subperm_of_subset List.nodup_range hsub
    exact (this.perm_of_length_le (by simp [hol])).symm

/-- Whenever the sort succeeds its result is a permutation of the vertex ids. -/
theorem binSort_perm {bins : Nat} {vs : List (Vtx F)} (hn : vs.length ≤ IdCfg.maxId + 1)
    {out : List Nat} (h : binSort bins vs = .ok out) : out.Perm (List.range vs.length) := by
  have h' := h
  simp only [binSort, Res.bind_eq_ok] at h
  obtain ⟨r, hr, _⟩ := h
  obtain ⟨out', ho, hp⟩ := binSort_of_bins hn hr
  rw [h', Res.ok.injEq] at ho
  exact ho ▸ hp

end CDT

import Verif.Proofs.BinSort
import Mathlib.Data.List.Sort
import Mathlib.Tactic.Linarith

/-! The exact order produced by the bin sort: where every vertex id is written. -/

namespace CDT
open FloatOps

variable {F : Type} [FloatOps F] [IdCfg]

/-- Slots outside the reserved part are left alone, and the `k`-th remaining vertex goes to the
`k`-th free slot, counted down, of its bin. -/
theorem placeLoop_order (lo hi : Nat → Nat) (n : Nat) (B : Nat)
    (hdisj : ∀ b b' s, b < B → b' < B → b ≠ b' → lo b ≤ s → s < hi b → ¬ (lo b' ≤ s ∧ s < hi b'))
    (hhi : ∀ b, b < B → hi b ≤ n)
    (bs : List Nat) (vid : Nat) (cnt sorted out : List Nat)
    (hid : vid + bs.length ≤ IdCfg.maxId + 1)
    (hcl : cnt.length = B) (hsl : sorted.length = n)
    (hbs : ∀ b ∈ bs, b < B)
    (hcnt : ∀ b, b < B → cnt.getD b 0 = lo b + bs.count b ∧ cnt.getD b 0 ≤ hi b)
    (ho : placeLoop bs vid cnt sorted = .ok out) :
    (∀ s, (∀ b, b < B → ¬ (lo b ≤ s ∧ s < cnt.getD b 0)) → out[s]? = sorted[s]?) ∧
    ∀ k b, bs[k]? = some b →
      out[cnt.getD b 0 - 1 - (bs.take k).count b]? = some (vid + k) := by
  induction bs generalizing vid cnt sorted with
  | nil =>
    simp only [placeLoop, Res.ok.injEq] at ho
    subst ho
    exact ⟨fun _ _ => rfl, fun k b h => by simp at h⟩
  | cons b bs ih =>
    have hbB : b < B := hbs b (by simp)
    have hbc : b < cnt.length := hcl ▸ hbB
    obtain ⟨c, hc⟩ : ∃ c, cnt[b]? = some c := ⟨cnt[b], by simp⟩
    have hgd : cnt.getD b 0 = c := by simp [List.getD_eq_getElem?_getD, hc]
    have hcb := hcnt b hbB
    rw [hgd] at hcb
    have hcount : c = lo b + (bs.count b + 1) := by
      have := hcb.1; simpa [List.count_cons] using this
    have hc0 : c ≠ 0 := by omega
    have hsn : c - 1 < n := by have := hhi b hbB; omega
    have htoid : toId vid = vid := by
      unfold toId; exact Nat.mod_eq_of_lt (by simp at hid; omega)
    have hget : ∀ x, (cnt.set b (c - 1)).getD x 0 = if x = b then c - 1 else cnt.getD x 0 := by
      intro x
      simp only [List.getD_eq_getElem?_getD, List.getElem?_set]
      by_cases hx : b = x
      · subst hx; simp [hbc]
      · have : x ≠ b := fun e => hx e.symm
        simp [hx, this]
    have hg : getI cnt b = .ok c := getI_eq_ok.2 hc
    have hs : setI sorted (c - 1) (toId vid) = .ok (sorted.set (c - 1) vid) :=
      setI_eq_ok.2 ⟨by omega, by rw [htoid]⟩
    simp only [placeLoop, hg, Res.ok_bind, hc0, if_false, hs] at ho
    obtain ⟨hA, hB⟩ := ih (vid + 1) (cnt.set b (c - 1)) (sorted.set (c - 1) vid)
      (by simp at hid; omega) (by simpa using hcl) (by simpa using hsl)
      (fun x hx => hbs x (by simp [hx]))
      (by
        intro x hx
        rw [hget]
        by_cases hxb : x = b
        · subst hxb; simp; omega
        · have := hcnt x hx
          have hne : b ≠ x := fun e => hxb e.symm
          simp [hxb]; simpa [List.count_cons, hne] using this) ho
    refine ⟨?_, ?_⟩
    · intro s hp
      have hne : c - 1 ≠ s := by
        intro e
        exact hp b hbB ⟨by omega, by rw [hgd]; omega⟩
      rw [hA s ?_, List.getElem?_set_ne hne]
      intro x hx
      rw [hget]
      by_cases hxb : x = b
      · subst hxb
        have := hp x hx; rw [hgd] at this; simp; omega
      · simpa [hxb] using hp x hx
    · intro k x hk
      cases k with
      | zero =>
        simp only [List.getElem?_cons_zero, Option.some.injEq] at hk
        subst hk
        simp only [List.take_zero, List.count_nil, Nat.sub_zero, hgd, Nat.add_zero]
        rw [hA (c - 1)]
        · simp [hsl, hsn]
        · intro y hy
          rw [hget]
          by_cases hyb : y = b
          · subst hyb; simp
          · simp only [hyb, if_false]
            intro hh
            exact hdisj b y (c - 1) hbB hy (fun e => hyb e.symm) (by omega) (by omega)
              ⟨hh.1, lt_of_lt_of_le hh.2 (hcnt y hy).2⟩
      | succ k =>
        simp only [List.getElem?_cons_succ] at hk
        have h1 := hB k x hk
        rw [hget] at h1
        simp only [List.take_succ_cons, List.count_cons]
        by_cases hxb : x = b
        · subst hxb
          simp only [if_true, beq_self_eq_true] at h1 ⊢
          rw [hgd, show c - 1 - ((bs.take k).count x + 1) = c - 1 - 1 - (bs.take k).count x by omega,
            h1]
          congr 1; omega
        · have hne : b ≠ x := fun e => hxb e.symm
          simp only [hxb, if_false] at h1
          simp only [beq_iff_eq, hne, if_false, Nat.add_zero]
          rw [h1]; congr 1; omega

omit [IdCfg] in
theorem countBins_bin {bins : Nat} {vs : List (Vtx F)} {cnt : List Nat} {r : List Nat × List Nat}
    (h : countBins bins vs cnt = .ok r) {i : Nat} {b : Nat} (hb : r.1[i]? = some b) :
    ∃ v, vs[i]? = some v ∧ binIndex bins v = .ok b := by
  induction vs generalizing cnt r i with
  | nil => simp only [countBins, Res.ok.injEq] at h; subst h; simp at hb
  | cons v vs ih =>
    simp only [countBins, Res.bind_eq_ok] at h
    obtain ⟨b', hb', c, hc, r', hr', e⟩ := h
    rw [Res.ok.injEq] at e
    subst e
    cases i with
    | zero => simp at hb; subst hb; exact ⟨v, by simp, hb'⟩
    | succ i => simpa using ih hr' (by simpa using hb)

/-- Vertex `i` ends in the block of its bin, before all earlier vertices of the same bin. -/
theorem binSort_pos {bins : Nat} {vs : List (Vtx F)} (hn : vs.length ≤ IdCfg.maxId + 1)
    {out : List Nat} (h : binSort bins vs = .ok out) :
    ∃ bs : List Nat, bs.length = vs.length ∧ (∀ b ∈ bs, b < bins * bins) ∧
      (∀ (i b : Nat), bs[i]? = some b → ∃ v, vs[i]? = some v ∧ binIndex bins v = .ok b) ∧
      ∃ hi : Nat → Nat, (∀ b b', b < b' → hi b + bs.count b' ≤ hi b') ∧
        (∀ b, b < bins * bins → bs.count b ≤ hi b) ∧
        ∀ (i b : Nat), bs[i]? = some b → out[hi b - 1 - (bs.take i).count b]? = some i := by
  simp only [binSort, Res.bind_eq_ok] at h
  obtain ⟨r, hr, ho⟩ := h
  obtain ⟨h1, h2, h3, h4⟩ := countBins_spec hr
  simp only [List.length_replicate] at h2 h3 h4
  have h4' : ∀ b, b < bins * bins → r.2.getD b 0 = r.1.count b := by
    intro b hb
    rw [h4 b hb]
    simp [List.getD_eq_getElem?_getD, List.getElem?_replicate, hb]
  have hr2 : r.2 = (List.range (bins * bins)).map fun b => r.1.count b := by
    apply List.ext_getElem
    · simp [h2]
    · intro i hi _
      have := h4' i (by omega)
      simpa [List.getD_eq_getElem?_getD, hi] using this
  have hsum : r.2.sum = vs.length := by rw [hr2, sum_count_eq _ _ h3, h1]
  have hstep : ∀ b, b < bins * bins → (r.2.take (b + 1)).sum = (r.2.take b).sum + r.1.count b := by
    intro b hb
    have hb2 : b < r.2.length := by omega
    rw [List.take_add_one, List.sum_append]
    have := h4' b hb
    simp only [List.getD_eq_getElem?_getD, hb2, getElem?_pos, Option.getD_some] at this
    simp [hb2, this]
  have hpre : ∀ b, b < bins * bins → (prefixSums r.2 0).getD b 0 = (r.2.take (b + 1)).sum := by
    intro b hb
    have hb2 : b < r.2.length := by omega
    simp [List.getD_eq_getElem?_getD, prefixSums_getElem? _ _ _ hb2]
  obtain ⟨-, hB⟩ := placeLoop_order (fun b => (r.2.take b).sum)
    (fun b => (r.2.take (b + 1)).sum) vs.length (bins * bins)
    (by
      intro b b' s _ _ hne hl hh hc
      rcases Nat.lt_or_gt_of_ne hne with h | h
      · have := take_sum_mono r.2 (show b + 1 ≤ b' from h); omega
      · have := take_sum_mono r.2 (show b' + 1 ≤ b from h); omega)
    (by
      intro b _
      rw [← hsum]
      exact List.Sublist.sum_le_sum (List.take_sublist _ _) (fun _ _ => Nat.zero_le _))
    r.1 0 (prefixSums r.2 0) (List.replicate vs.length 0) out
    (by omega) (by rw [prefixSums_length, h2]) (by simp) h3
    (by
      intro b hb
      rw [hpre b hb]
      exact ⟨hstep b hb, le_refl _⟩) ho
  refine ⟨r.1, h1, h3, fun i b hb => countBins_bin hr hb, fun b => (r.2.take (b + 1)).sum, ?_, ?_, ?_⟩
  · intro b b' hbb
    by_cases hb' : b' < bins * bins
    · have := hstep b' hb'
      have := take_sum_mono r.2 (show b + 1 ≤ b' from hbb)
      simp only; omega
    · have : r.1.count b' = 0 := List.count_eq_zero.2 fun hm => hb' (h3 b' hm)
      rw [this]
      exact take_sum_mono r.2 (by omega)
  · intro b hb
    have := hstep b hb
    simp only; omega
  · intro i b hb
    have := hB i b hb
    rw [hpre b (h3 b (List.mem_of_getElem? hb))] at this
    simpa using this

/-- `a` comes before `b` in the insertion order: lower bin, or same bin and higher id. -/
def BinBefore (bins : Nat) (vs : List (Vtx F)) (a b : Nat) : Prop :=
  ∃ v w x y, vs[a]? = some v ∧ vs[b]? = some w ∧ binIndex bins v = .ok x ∧ binIndex bins w = .ok y ∧
    (x < y ∨ (x = y ∧ b < a))

omit [IdCfg] in
theorem BinBefore.asymm {bins : Nat} {vs : List (Vtx F)} {a b : Nat} (h : BinBefore bins vs a b)
    (h' : BinBefore bins vs b a) : False := by
  obtain ⟨v, w, x, y, hv, hw, hx, hy, h⟩ := h
  obtain ⟨v', w', x', y', hv', hw', hx', hy', h'⟩ := h'
  rw [hv'] at hw; rw [hw'] at hv
  cases hw; cases hv
  rw [hx', Res.ok.injEq] at hy; rw [hy', Res.ok.injEq] at hx
  omega

omit [IdCfg] in
theorem getElem?_count {bs : List Nat} {i : Nat} {b : Nat} (h : bs[i]? = some b) :
    (bs.take i).count b < bs.count b := by
  obtain ⟨hl, e⟩ := List.getElem?_eq_some_iff.1 h
  have h1 : bs.take (i + 1) = bs.take i ++ [b] := by rw [List.take_add_one, h]; rfl
  have h2 := (List.take_sublist (i + 1) bs).count_le b
  rw [h1, List.count_append] at h2
  simp at h2
  omega

omit [IdCfg] in
theorem take_count_lt {bs : List Nat} {i j : Nat} {b : Nat} (h : bs[i]? = some b) (hij : i < j) :
    (bs.take i).count b < (bs.take j).count b := by
  have h1 : bs.take (i + 1) = bs.take i ++ [b] := by rw [List.take_add_one, h]; rfl
  have e : bs.take (i + 1) = (bs.take j).take (i + 1) := by
    rw [List.take_take, min_eq_left (by omega)]
  have h2 := (List.take_sublist (i + 1) (bs.take j)).count_le b
  rw [← e, h1, List.count_append] at h2
  simp at h2
  omega

/-- **The insertion order**: bins in increasing order, decreasing ids inside a bin. -/
theorem binSort_sorted {bins : Nat} {vs : List (Vtx F)} (hn : vs.length ≤ IdCfg.maxId + 1)
    {out : List Nat} (h : binSort bins vs = .ok out) : out.Pairwise (BinBefore bins vs) := by
  have hperm := binSort_perm hn h
  obtain ⟨bs, hl, hB, hbin, hi, hmono, hcnt, hpos⟩ := binSort_pos hn h
  have hnd : out.Nodup := hperm.nodup_iff.2 List.nodup_range
  rw [List.pairwise_iff_getElem]
  intro p q hp hq hpq
  have key : ∀ r (hr : r < out.length), ∃ b, bs[out[r]]? = some b ∧
      hi b - 1 - (bs.take out[r]).count b = r := by
    intro r hr
    have hm : out[r] < vs.length := by
      simpa using hperm.subset (List.getElem_mem hr)
    obtain ⟨b, hb⟩ : ∃ b, bs[out[r]]? = some b := ⟨bs[out[r]]'(by omega), by simp⟩
    refine ⟨b, hb, ?_⟩
    have h1 := hpos _ b hb
    obtain ⟨hlt, h2⟩ := List.getElem?_eq_some_iff.1 h1
    exact (List.Nodup.getElem_inj_iff hnd).1 h2
  obtain ⟨x, hx, ex⟩ := key p hp
  obtain ⟨y, hy, ey⟩ := key q hq
  obtain ⟨v, hv, hvx⟩ := hbin _ _ hx
  obtain ⟨w, hw, hwy⟩ := hbin _ _ hy
  refine ⟨v, w, x, y, hv, hw, hvx, hwy, ?_⟩
  have cx := getElem?_count hx
  have cy := getElem?_count hy
  have bx := hcnt x (hB x (List.mem_of_getElem? hx))
  have bY := hcnt y (hB y (List.mem_of_getElem? hy))
  rcases Nat.lt_trichotomy x y with hlt | heq | hgt
  · exact Or.inl hlt
  · subst heq
    refine Or.inr ⟨rfl, ?_⟩
    by_contra hcon
    rcases Nat.lt_or_ge out[p] out[q] with h1 | h1
    · have := take_count_lt hx h1
      omega
    · have : out[p] = out[q] := by omega
      have := (List.Nodup.getElem_inj_iff hnd).1 this
      omega
  · have := hmono y x hgt
    omega

end CDT

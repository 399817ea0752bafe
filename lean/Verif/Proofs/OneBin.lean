import Verif.Proofs.BinSort

/-! # One bin: the vertices are inserted in the reverse order of the input, in any arithmetic -/

set_option linter.unusedSectionVars false

namespace CDT
open FloatOps

variable {F : Type} [FloatOps F] [IdCfg]

theorem countBins_one {vs : List (Vtx F)} {c : Nat} {r : List Nat × List Nat} (h : countBins 1 vs [c] = .ok r) :
    r = (List.replicate vs.length 0, [c + vs.length]) := by
  induction vs generalizing c r with
  | nil => simp [countBins] at h; rw [← h]; rfl
  | cons v vs ih =>
    simp only [countBins, Res.bind_eq_ok] at h
    obtain ⟨b, -, c', hc, r', hr, h⟩ := h
    cases b with
    | succ b => simp [getI] at hc
    | zero =>
      simp [getI] at hc
      subst hc
      rw [List.set_cons_zero] at hr
      have := ih hr
      simp at h
      rw [← h, this]
      simp [List.replicate_succ, Nat.add_comm, Nat.add_left_comm]

theorem placeLoop_one (k vid : Nat) (sorted out : List Nat) (h : placeLoop (List.replicate k 0) vid [k] sorted = .ok out) :
    out = ((List.range' vid k).map toId).reverse ++ sorted.drop k := by
  induction k generalizing vid sorted out with
  | zero => simp [placeLoop] at h; simp [h]
  | succ k ih =>
    simp only [List.replicate_succ, placeLoop, Res.bind_eq_ok] at h
    obtain ⟨c, hc, h⟩ := h
    simp [getI] at hc
    subst hc
    rw [if_neg (by omega)] at h
    simp only [Res.bind_eq_ok] at h
    obtain ⟨s', hs, h⟩ := h
    have e := ih _ _ _ (by simpa using h)
    unfold setI at hs
    split at hs
    · rename_i hk
      simp at hs hk
      rw [e, ← hs, List.range'_succ, List.map_cons, List.reverse_cons, List.append_assoc]
      congr 1
      rw [List.drop_set, if_neg (by omega), Nat.sub_self]
      rw [List.drop_eq_getElem_cons hk, List.set_cons_zero]
      rfl
    · simp at hs

theorem binSort_one {vs : List (Vtx F)} {out : List Nat} (hn : vs.length ≤ IdCfg.maxId + 1) (h : binSort 1 vs = .ok out) :
    out = (List.range vs.length).reverse := by
  simp only [binSort, Res.bind_eq_ok] at h
  obtain ⟨r, hr, h⟩ := h
  have e := countBins_one (c := 0) hr
  subst e
  simp only [prefixSums, Nat.zero_add, Nat.add_zero] at h
  have := placeLoop_one _ _ _ _ h
  rw [this, List.range_eq_range']
  simp only [List.drop_replicate, Nat.sub_self, List.replicate_zero, List.append_nil, List.reverse_inj]
  refine (List.map_congr_left fun a ha => ?_).trans (List.map_id _)
  rw [List.mem_range'_1] at ha
  unfold toId
  exact Nat.mod_eq_of_lt (by omega)

end CDT

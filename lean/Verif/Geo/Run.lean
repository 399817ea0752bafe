import Verif.Geo.Insert
import Verif.Geo.Norm
import Verif.Proofs.GenericC

/-! # The whole unconstrained run -/

set_option linter.unusedSectionVars false
set_option linter.unusedSimpArgs false
set_option linter.unusedVariables false

namespace CDT

variable {K : Type} [Field K] [LinearOrder K] [IsStrictOrderedRing K] [ExactParams K] [IdCfg]
  {vs : List (Vtx K)}

theorem hp_INF (vs : List (Vtx K)) : hp vs INF0 = HP.dir 0 ∧ hp vs INF1 = HP.dir 1 ∧
    hp vs INF2 = HP.dir 2 ∧ hp vs INF3 = HP.dir 3 := by
  have hb := IdCfg.big
  have e : ∀ {i : Nat} {k : Fin 4}, infLocal i = .ok k → hp vs i = HP.dir k := fun h => (infLocal_hp vs h).1
  have l : ∀ {i : Nat} {k : Fin 4}, i = INF0 + k.val → infLocal i = .ok k := by
    rintro i k rfl
    unfold infLocal
    rw [if_neg (by omega), show INF0 + k.val - INF0 = k.val by omega]
    fin_cases k <;> rfl
  refine ⟨e (l ?_), e (l ?_), e (l ?_), e (l ?_)⟩ <;> simp [INF0, INF1, INF2, INF3] <;> omega

theorem initial_valid {first : Nat} (h : first < vs.length) (hn : vs.length ≤ INF0) :
    Valid (hp vs) (initialTriangles first) := by
  have hb := IdCfg.big
  obtain ⟨p, hp', -⟩ := getI_lt h
  have hpe : hp vs first = HP.ofVtx p := hp_fin (by omega) hp'
  obtain ⟨e0, e1, e2, e3⟩ := hp_INF vs
  refine ⟨?_, ?_, ?_⟩
  · intro i t ht
    rcases i with _ | _ | _ | _ | i <;> simp [initialTriangles] at ht <;> subst ht <;>
      simp [Pos, hpe, e0, e1, e2, e3, HP.o, HP.ofVtx, HP.dir]
  · intro i x y nb he
    obtain ⟨t, ht, hh⟩ := he
    rcases i with _ | _ | _ | _ | i <;> simp [initialTriangles] at ht <;> subst ht <;>
      rcases hh with ⟨rfl, rfl, rfl⟩ | ⟨rfl, rfl, rfl⟩ | ⟨rfl, rfl, rfl⟩
    all_goals first
      | (left; exact ⟨rfl, by simp [INF0, INF1, INF2, INF3]; try omega, by simp [INF0, INF1, INF2, INF3]; try omega⟩)
      | (right; refine ⟨by unfold NONE; simp; omega, _, rfl, ?_⟩; simp [Has])
  · simp [initialTriangles]; unfold NONE; omega

theorem initial_dinv {first : Nat} (h : first < vs.length) (hn : vs.length ≤ INF0) (m : Option (List Nat))
    (hm : ∀ l, m = some l → l.length = vs.length ∧ ∀ v, v < vs.length → l[v]? = some v) :
    DInv vs [first] [first] ⟨initialTriangles first, 3, m⟩ := by
  have hb := IdCfg.big
  refine ⟨initial_valid h hn, ?_, ?_, ?_, ?_, ?_, ?_, ?_, ?_⟩
  · refine initialTriangles_verts (.inl (by simp)) (.inr ?_) (.inr ?_) (.inr ?_) (.inr ?_) <;>
      (unfold INF0 INF3; first | omega | (unfold INF1; omega) | (unfold INF2; omega))
  · intro v hv; simp at hv; subst hv
    exact ⟨0, _, rfl, by simp [initialTriangles, hasVert_iff]⟩
  · simp
  · intro v hv; simp at hv; omega
  · simp [initialTriangles]
  · simp [initialTriangles]
  · intro v hv hv'; simp at hv hv'; exact absurd hv hv'
  · intro l hl; exact ⟨(hm l hl).1, fun v hv _ => (hm l hl).2 v hv⟩

theorem insertAll_total {fuel : Nat} (hsep : Sep vs) (hn : 2 * vs.length + 2 ≤ NONE)
    (hfuel : 6 * vs.length + 10 ≤ fuel) (rest done ins : List Nat) (s : DT) (hI : DInv vs done ins s)
    (hnd : rest.Nodup) (hdis : ∀ v ∈ rest, v ∉ done) (hlt : ∀ v ∈ rest, v < vs.length)
    (hcard : done.length + rest.length ≤ vs.length) :
    insertAll vs fuel rest s = .err .placementNotFound ∨
    ∃ s' ins', insertAll vs fuel rest s = .ok s' ∧ DInv vs (rest.reverse ++ done) ins' s' ∧
      Relation.ReflTransGen (MStep (hp vs)) s.ts s'.ts ∧ ∀ v ∈ ins, v ∈ ins' := by
  induction rest generalizing done ins s with
  | nil => exact .inr ⟨s, ins, rfl, by simpa using hI, .refl, fun _ h => h⟩
  | cons v rest ih =>
    have hl := hI.len
    simp only [List.length_cons] at hcard
    have hins := insertVertex_total (fuel := fuel) hI hsep (by unfold NONE at hn; unfold INF0; have := IdCfg.big; omega)
      (hlt v (by simp)) (hdis v (by simp)) (by omega) (by omega)
    rw [List.nodup_cons] at hnd
    have hd' : ∀ w ∈ rest, w ∉ v :: done := by
      intro w hw hc
      rcases List.mem_cons.1 hc with rfl | hc
      · exact hnd.1 hw
      · exact hdis w (by simp [hw]) hc
    have hl' : ∀ w ∈ rest, w < vs.length := fun w hw => hlt w (by simp [hw])
    simp only [insertAll]
    generalize insertVertex vs fuel s v = r at hins
    cases hins with
    | notFound => left; rfl
    | merged h ht =>
      simp only [Res.ok_bind]
      rcases ih _ _ _ h hnd.2 hd' hl' (by simp; omega) with h1 | ⟨s', ins', h1, h2, h3, h4⟩
      · exact .inl h1
      · exact .inr ⟨s', ins', h1, by simpa using h2, ht ▸ h3, h4⟩
    | inserted h hs hr =>
      simp only [Res.ok_bind]
      rcases ih _ _ _ h hnd.2 hd' hl' (by simp; omega) with h1 | ⟨s', ins', h1, h2, h3, h4⟩
      · exact .inl h1
      · exact .inr ⟨s', ins', h1, by simpa using h2, hs.trans h3, fun w hw => h4 w (by simp [hw])⟩

/-- The initial content of the merge table. -/
def MergeInit (n : Nat) (m : Option (List Nat)) : Prop :=
  ∀ l, m = some l → l.length = n ∧ ∀ v, v < n → l[v]? = some v

theorem mergeInit_none (n : Nat) : MergeInit n none := fun _ h => by simp at h

theorem mergeInit_range (n : Nat) (h : n ≤ NONE) : MergeInit n (some ((List.range n).map toId)) := by
  intro l hl
  simp at hl; subst hl
  refine ⟨by simp, fun v hv => ?_⟩
  simp [List.getElem?_range hv]
  unfold toId
  exact Nat.mod_eq_of_lt (by unfold NONE at h; omega)

/-- The whole unconstrained run on separated vertices of the unit square. -/
theorem wrap_total {fuel bins : Nat} {m : Option (List Nat)} (hne : vs ≠ []) (hsep : Sep vs)
    (hu : ∀ v ∈ vs, Plane.InUnit v) (hb : 1 ≤ bins) (hn : 2 * vs.length + 2 ≤ NONE)
    (hfuel : 6 * vs.length + 10 ≤ fuel) (hm : MergeInit vs.length m) :
    wrapAndTriangulate fuel bins vs m = .err .placementNotFound ∨
    ∃ s done ins first, wrapAndTriangulate fuel bins vs m = .ok s ∧ DInv vs done ins s ∧
      done.Perm (List.range vs.length) ∧ first < vs.length ∧ first ∈ ins ∧
      Relation.ReflTransGen (MStep (hp vs)) (initialTriangles first) s.ts := by
  have hB := IdCfg.big
  have hnn : vs.length ≤ NONE := by omega
  have hni : vs.length ≤ INF0 := by unfold NONE at hn; unfold INF0; omega
  obtain ⟨r, hr⟩ := countBins_ok (bins := bins) (vs := vs) (cnt := List.replicate (bins * bins) 0)
    (fun v hv => by simpa using binIndex_ok hb (hu v hv))
  obtain ⟨out, ho, hperm⟩ := binSort_of_bins (by unfold NONE at hnn; omega) hr
  cases out with
  | nil =>
    have := hperm.length_eq
    simp at this
    exact absurd (List.length_eq_zero_iff.1 this.symm) hne
  | cons first rest =>
    have hnd : (first :: rest).Nodup := hperm.nodup_iff.2 List.nodup_range
    have hlt : ∀ v ∈ first :: rest, v < vs.length := fun v hv => by simpa using hperm.subset hv
    have hlen := hperm.length_eq
    simp at hlen
    rw [List.nodup_cons] at hnd
    have heq : wrapAndTriangulate fuel bins vs m = insertAll vs fuel rest ⟨initialTriangles first, 3, m⟩ := by
      unfold wrapAndTriangulate
      simp only [ho, Res.ok_bind]
      rw [lastId_ok (by simp [initialTriangles]) (by simp [initialTriangles]; unfold NONE; omega)]
      rfl
    rw [heq]
    rcases insertAll_total hsep hn hfuel rest [first] [first] _
        (initial_dinv (hlt first (by simp)) hni m hm) hnd.2
        (by intro v hv hc; simp at hc; subst hc; exact hnd.1 hv) (fun v hv => hlt v (by simp [hv]))
        (by simp; omega) with h | ⟨s', ins', h1, h2, h3, h4⟩
    · exact .inl h
    · refine .inr ⟨s', _, ins', first, h1, h2, ?_, hlt _ (by simp), h4 _ (by simp), h3⟩
      refine List.Perm.trans ?_ hperm
      refine List.Perm.trans (List.perm_append_comm) ?_
      simp [List.reverse_perm]

end CDT

import Verif.Geo.Acyclic
import Verif.Geo.Corners

/-! # Insertions inside a convex Delaunay mesh succeed -/

set_option linter.unusedSectionVars false
set_option linter.unusedSimpArgs false
set_option linter.unusedVariables false

namespace CDT

variable {K : Type} [Field K] [LinearOrder K] [IsStrictOrderedRing K] [ExactParams K] [IdCfg]
variable {vs : List (Vtx K)} {ts ts0 ts' : List Tri}

theorem insertWith_keep {s s1 : DT} {vid : Nat} (h : insertWith vs (fun _ => .panic) s vid = .ok s1) : s1.tid = s.tid := by
  unfold insertWith at h
  rw [Res.bind_eq_ok] at h
  obtain ⟨p, -, h⟩ := h
  rw [Res.bind_eq_ok] at h
  obtain ⟨pl, -, h⟩ := h
  cases pl with
  | notFound => simp at h
  | inside t =>
    simp only [Res.bind_eq_ok] at h
    obtain ⟨r, -, h⟩ := h
    simp at h
  | onEdge t ei e =>
    have key : ∀ {c : Bool}, (if c = true then (.ok { s with merge := setMerge s.merge vid e.dst } : Res DT) else do
        let r ← split4 s.ts t ei e vid
        .panic) = .ok s1 → s1.tid = s.tid := by
      intro c h
      cases c
      · simp only [Bool.false_eq_true, if_false, Res.bind_eq_ok] at h
        obtain ⟨r, -, h⟩ := h
        simp at h
      · simp only [if_true, Res.ok.injEq] at h; rw [← h]
    have key2 : ∀ {c : Bool}, (if c = true then (.ok { s with merge := setMerge s.merge vid e.src } : Res DT) else do
        let closeDst ← if isFin e.dst then do
            let b ← getI vs e.dst
            pure (tooClose b p)
          else pure false
        if closeDst then .ok { s with merge := setMerge s.merge vid e.dst }
        else do
          let r ← split4 s.ts t ei e vid
          .panic) = .ok s1 → s1.tid = s.tid := by
      intro c h
      cases c
      · simp only [Bool.false_eq_true, if_false] at h
        split at h
        · rw [Res.bind_eq_ok] at h
          obtain ⟨b, -, h⟩ := h
          simp only [Res.pure_eq, Res.ok_bind] at h
          exact key h
        · simp only [Res.pure_eq, Res.ok_bind] at h
          exact key h
      · simp only [if_true, Res.ok.injEq] at h; rw [← h]
    simp only at h
    split at h
    · rw [Res.bind_eq_ok] at h
      obtain ⟨b, -, h⟩ := h
      simp only [Res.pure_eq, Res.ok_bind] at h
      exact key2 h
    · simp only [Res.pure_eq, Res.ok_bind] at h
      exact key2 h

/-- The last triangle after a split has the new vertex. -/
theorem MStep.last {vid : Nat} (h : MStep (hp vs) ts0 ts) (hl : ts.length = ts0.length + 2)
    (hfresh : ¬ Occ ts0 vid) (hocc : Occ ts vid) : ∃ T, ts[ts0.length + 1]? = some T ∧ T.v1 = vid := by
  cases h with
  | split3 ht hs hl' h =>
    rename_i t1 p t
    have hT := triIn_get ht
    have hp : vid = p := by
      obtain ⟨i, T, gT, hh⟩ := hocc
      have hil := lt_of_getElem? gT
      rw [hs.len] at hil
      rw [hasVert_iff] at hh
      by_cases h1 : i = t1
      · subst h1; rw [hs.h1] at gT; simp at gT; subst gT
        rcases hh with rfl | rfl | rfl
        · rfl
        · exact absurd hT.next.next.occ hfresh
        · exact absurd hT.occ hfresh
      by_cases h2 : i = ts0.length
      · subst h2; rw [hs.h2] at gT; simp at gT; subst gT
        rcases hh with rfl | rfl | rfl
        · rfl
        · exact absurd hT.next.occ hfresh
        · exact absurd hT.next.next.occ hfresh
      by_cases h3 : i = ts0.length + 1
      · subst h3; rw [hs.h3] at gT; simp at gT; subst gT
        rcases hh with rfl | rfl | rfl
        · rfl
        · exact absurd hT.occ hfresh
        · exact absurd hT.next.occ hfresh
      exfalso
      obtain ⟨u0, hu0, w1, w2, w3⟩ := hs.verts_other (by omega) h1 gT
      refine hfresh ⟨i, u0, hu0, ?_⟩
      rw [hasVert_iff]; rwa [w1, w2, w3] at hh
    subst hp
    exact ⟨_, hs.h3, rfl⟩
  | split4 hs hl' h0 h1 h2 =>
    rename_i t1 t2 p x y o1 o2 n1 n2 n3 n4
    have hA : TriIn ts0 x y o1 := by obtain ⟨a, ga, hRa⟩ := hs.g1; exact ⟨_, a, _, _, _, ga, hRa⟩
    have hB : TriIn ts0 y x o2 := by obtain ⟨a, ga, hRa⟩ := hs.g2; exact ⟨_, a, _, _, _, ga, hRa⟩
    have hp : vid = p := by
      obtain ⟨i, T, gT, hh⟩ := hocc
      have hil := lt_of_getElem? gT
      rw [hs.len] at hil
      rw [hasVert_iff] at hh
      by_cases h1 : i = t1
      · subst h1; rw [hs.h1] at gT; simp at gT; subst gT
        rcases hh with rfl | rfl | rfl
        · rfl
        · exact absurd hA.next.next.occ hfresh
        · exact absurd hA.occ hfresh
      by_cases h2 : i = t2
      · subst h2; rw [hs.h2] at gT; simp at gT; subst gT
        rcases hh with rfl | rfl | rfl
        · rfl
        · exact absurd hA.occ hfresh
        · exact absurd hB.next.next.occ hfresh
      by_cases h3 : i = ts0.length
      · subst h3; rw [hs.h3] at gT; simp at gT; subst gT
        rcases hh with rfl | rfl | rfl
        · rfl
        · exact absurd hA.next.occ hfresh
        · exact absurd hA.next.next.occ hfresh
      by_cases h4 : i = ts0.length + 1
      · subst h4; rw [hs.h4] at gT; simp at gT; subst gT
        rcases hh with rfl | rfl | rfl
        · rfl
        · exact absurd hB.next.next.occ hfresh
        · exact absurd hB.occ hfresh
      exfalso
      obtain ⟨u0, hu0, w1, w2, w3⟩ := hs.verts_other (by omega) h1 h2 gT
      refine hfresh ⟨i, u0, hu0, ?_⟩
      rw [hasVert_iff]; rwa [w1, w2, w3] at hh
    subst hp
    exact ⟨_, hs.h4, rfl⟩
  | flip hs h1 h2 => rw [hs.len] at hl; omega

theorem restore_keeps {p k : Nat} (hn : vs.length ≤ INF0) (hpl : p < vs.length) (fuel : Nat) :
    ∀ (ts : List Tri) (st : List (Nat × Nat)), RInv vs p ts st → (∃ T, ts[k]? = some T ∧ T.v1 = p) →
      ∀ ts', restore vs p fuel ts st = .ok ts' → ∃ T, ts'[k]? = some T ∧ T.v1 = p := by
  induction fuel with
  | zero =>
    intro ts st hI hS ts' h
    cases st with
    | nil => simp [restore] at h; subst h; exact hS
    | cons e st => simp [restore] at h
  | succ n ih =>
    intro ts st hI hS ts' h
    cases st with
    | nil => simp [restore] at h; subst h; exact hS
    | cons e st =>
      obtain ⟨s, o⟩ := e
      obtain ⟨ts1, st1, h1, hI', _⟩ := hI.step hn hpl
      simp only [restore, h1, Res.ok_bind] at h
      refine ih ts1 st1 hI' ?_ ts' h
      obtain ⟨T, hT, hT1, hT2, ho⟩ := hI.stack (s, o) (by simp)
      obtain ⟨v1, a, b, n2, n23, n1⟩ := T
      simp only at hT hT1 hT2 ho
      subst hT1 hT2
      obtain ⟨U, c, n3, n4, hU, hRU, hcase⟩ := checkAndSwap_total (st := st) hI.valid hn hI.ok hpl hT ho
      rcases hcase with ⟨hsw, hres⟩ | ⟨hsw, ts2, hres, hF, hs', ho', g1, g2⟩
      · rw [hres] at h1; simp at h1; rw [← h1.1]; exact hS
      rw [hres] at h1; simp at h1
      obtain ⟨rfl, _⟩ := h1
      by_cases k1 : k = s
      · subst k1; exact ⟨_, hs', rfl⟩
      by_cases k2 : k = n23
      · subst k2; exact ⟨_, ho', rfl⟩
      obtain ⟨T, gT, hTv⟩ := hS
      have hk : k < ts2.length := by rw [hF.len]; exact lt_of_getElem? gT
      obtain ⟨t, gt, w1, -, -⟩ := hF.verts_other k1 k2 (List.getElem?_eq_getElem hk)
      refine ⟨_, List.getElem?_eq_getElem hk, ?_⟩
      rw [gT] at gt; simp at gt; subst gt
      rw [w1, hTv]

/-- One insertion inside a convex Delaunay mesh. -/
theorem insertVertex_inner {done ins : List Nat} {s : DT} {vid fuel : Nat} (hI : DInv vs done ins s)
    (hsep : Sep vs) (hn : vs.length ≤ INF0) (hvl : vid < vs.length) (hvd : vid ∉ done)
    (hfuel : 4 + 3 * (s.ts.length + 2) ≤ fuel) (hlen : s.ts.length + 2 ≤ NONE)
    (hin : Inner vs s.ts (hp vs vid)) (hw : ∀ p, vs[vid]? = some p → findPlacement vs p s.tid s.ts ≠ .ok .notFound) :
    ∃ s', insertVertex vs fuel s vid = .ok s' ∧ ((s'.ts = s.ts ∧ s'.tid = s.tid) ∨ FinAt s'.ts s'.tid) := by
  obtain ⟨sh, h1, h2⟩ := insertWith_shape hI hsep hn hvl hvd hlen
  have hvf : vid < INF0 := by omega
  rw [insertVertex_with, h1]
  cases sh with
  | fail =>
    obtain ⟨p, gp, hf⟩ := h2
    exact absurd hf (hw p gp)
  | keep s1 => exact ⟨s1, rfl, .inl ⟨h2.2, insertWith_keep (h1 _)⟩⟩
  | go ts1 st =>
    obtain ⟨a1, a2, a3, a4, a5, a6⟩ := h2
    have hvi : vid ∉ ins := fun h => hvd (hI.sub _ h)
    have hfresh : ¬ Occ s.ts vid := by
      rintro ⟨i, t, gt, htv⟩
      have := fun k => hI.verts.get gt k
      rw [forall_fin3] at this
      rw [hasVert_iff] at htv
      simp only [Tri.v_0, Tri.v_1, Tri.v_2] at this
      rcases htv with h | h | h
      · rw [h] at this; rcases this.1 with h' | h'
        · exact hvi h'
        · omega
      · rw [h] at this; rcases this.2.1 with h' | h'
        · exact hvi h'
        · omega
      · rw [h] at this; rcases this.2.2 with h' | h'
        · exact hvi h'
        · omega
    have hS1 := a1.star a2 hI.valid hfresh a3 hvf hin
    obtain ⟨ts2, g1, g2, g3⟩ := restore_total hn hvl fuel ts1 st a4 (by rw [a2]; omega)
    have hS2 := restore_star hfresh hn hvl fuel ts1 st a4 hS1 ts2 g1
    obtain ⟨T, gT, hT1⟩ := restore_keeps hn hvl fuel ts1 st a4 (a1.last a2 hfresh a3) ts2 g1
    have hl2 := restore_length g1
    have hl3 := g2.valid.len
    refine ⟨⟨ts2, ts2.length - 1, s.merge⟩, ?_, .inr ?_⟩
    · simp only [Shape.eval, finishInsert, g1, Res.ok_bind, lastId_ok (ts := ts2) (by omega) (by omega)]
    · have e : ts2.length - 1 = s.ts.length + 1 := by rw [hl2, a2]; rfl
      simp only [e]
      refine ⟨T, gT, ?_⟩
      rcases hS2 _ _ gT with h | ⟨b1, b2, b3, -⟩
      · exact absurd (hT1 ▸ h.occ) hfresh
      · exact ⟨by rw [hT1]; exact hvf, b2, b3⟩

/-- All insertions inside a convex Delaunay mesh. -/
theorem insertAll_inner {fuel : Nat} (hsep : Sep vs) (hn : 2 * vs.length + 2 ≤ NONE) (hfuel : 6 * vs.length + 10 ≤ fuel)
    (rest done ins : List Nat) (s : DT) (hI : DInv vs done ins s) (hnd : rest.Nodup) (hdis : ∀ v ∈ rest, v ∉ done)
    (hlt : ∀ v ∈ rest, v < vs.length) (hcard : done.length + rest.length ≤ vs.length) (hE : Emp vs s.ts) (ht : Tiled vs s.ts)
    (hin : ∀ v ∈ rest, Inner vs s.ts (hp vs v)) (hw : (∀ v ∈ rest, ∀ p, vs[v]? = some p →
      findPlacement vs p s.tid s.ts ≠ .ok .notFound) ∨ FinAt s.ts s.tid) :
    ∃ s', insertAll vs fuel rest s = .ok s' := by
  induction rest generalizing done ins s with
  | nil => exact ⟨s, rfl⟩
  | cons v rest ih =>
    have hl := hI.len
    simp only [List.length_cons] at hcard
    rw [List.nodup_cons] at hnd
    have hni : vs.length ≤ INF0 := by unfold NONE at hn; unfold INF0; have := IdCfg.big; omega
    have hvl := hlt v (by simp)
    have hs : ∀ p, vs[v]? = some p → findPlacement vs p s.tid s.ts ≠ .ok .notFound := by
      rcases hw with h | h
      · exact h v (by simp)
      · intro p gp
        have hi := hin v (by simp)
        rw [hp_fin (by omega) gp] at hi
        exact search_ok hni hI.valid hI.ok hI.tid fun l hl => (walk_fin hI.valid hE rfl hi l _ h hl).1
    obtain ⟨s1, h1, h1'⟩ := insertVertex_inner (fuel := fuel) hI hsep hni hvl (hdis v (by simp)) (by omega) (by omega) (hin v (by simp)) hs
    obtain ⟨e1, e2, e3, ins', e4⟩ := insertVertex_emp hI hsep hni hvl (hdis v (by simp)) (by omega) (by omega)
      hE ht (hin v (by simp)) h1
    simp only [insertAll, h1, Res.ok_bind]
    refine ih _ _ _ e4 hnd.2 (by
          intro w hm hc
          rcases List.mem_cons.1 hc with rfl | hc
          · exact hnd.1 hm
          · exact hdis w (by simp [hm]) hc)
        (fun w hw => hlt w (by simp [hw])) (by simp; omega) e1 e3 (fun w hw => (hin w (by simp [hw])).mono e2) ?_
    rcases h1' with ⟨k1, k2⟩ | h1'
    · rcases hw with h | h
      · left
        intro w hw; rw [k1, k2]; exact h w (by simp [hw])
      · right; rw [k1, k2]; exact h
    · exact .inr h1'

/-- The corners of a rectangle among separated vertices. -/
theorem Sep.wide (h : Sep vs) {x y w t : K} (hw : 0 < w) (ht : 0 < t) (hm : ∀ i j, crn x y w t i j ∈ vs) : Wide w t := by
  have hwt : 0 < w * t := mul_pos hw ht
  refine ⟨?_, ?_, ?_⟩ <;> by_contra hc
  · have := h.x _ (hm true false) _ (hm false false) (by simpa [crn, abs_of_pos hw] using hc)
    simp [crn] at this; linarith
  · have := h.y _ (hm false true) _ (hm false false) (by simpa [crn, abs_of_pos ht] using hc)
    simp [crn] at this; linarith
  · have := h.o _ (hm false false) _ (hm false true) _ (hm true false) (by
      simp only [crn, cond_true, cond_false]
      ring_nf
      rw [abs_mul, abs_of_pos hw, abs_of_pos ht] 
      linarith [not_le.1 hc])
    simp only [crn, cond_true, cond_false] at this
    have : w * t = 0 := by linarith
    linarith

end CDT

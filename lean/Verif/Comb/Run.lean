import Verif.Comb.Mesh
import Verif.Geo.Insert
import Verif.Proofs.Panic
import Verif.Proofs.Terminate
import Verif.Proofs.GenericC

/-!
# The insertion loop keeps the mesh consistent as long as no two triangles have the same three vertices

No law of arithmetic is used: the predicates may answer anything.
-/

set_option linter.unusedSectionVars false
set_option linter.unusedSimpArgs false
set_option linter.unusedVariables false

namespace CDT
namespace Comb

variable {F : Type} [FloatOps F] [IdCfg]
variable {vs : List (Vtx F)} {ts ts' : List Tri}

/-- Two different triangles on the same three vertices. -/
def Doubled (ts : List Tri) : Prop :=
  ∃ (i j : Nat) (t u : Tri), ts[i]? = some t ∧ ts[j]? = some u ∧ i ≠ j ∧ Same t u

theorem not_doubled (h : ¬ Doubled ts) :
    ∀ (i j : Nat) (t u : Tri), ts[i]? = some t → ts[j]? = some u → i ≠ j → ¬ Same t u :=
  fun i j t u ht hu hij hs => h ⟨i, j, t, u, ht, hu, hij, hs⟩

/-- Meshes reached while `restore` works off the stack `st` around the vertex `p`. -/
inductive RVisits (vs : List (Vtx F)) (p : Nat) : List Tri → List (Nat × Nat) → List Tri → Prop
  | here (ts : List Tri) (st : List (Nat × Nat)) : RVisits vs p ts st ts
  | step {ts ts1 us : List Tri} {st st1 : List (Nat × Nat)} {a b : Nat} (h : checkAndSwap vs p ts a b st = .ok (ts1, st1))
      (hr : RVisits vs p ts1 st1 us) : RVisits vs p ts ((a, b) :: st) us

/-! ## Restoration -/

/-- Invariant of the restoration around the vertex `p`. -/
structure RInv (n p : Nat) (ts : List Tri) (st : List (Nat × Nat)) : Prop where
  valid : Valid ts
  sane : Sane n ts
  first : ∀ (i : Nat) (t : Tri), ts[i]? = some t → t.hasVert p = true → t.v1 = p
  stack : ∀ e ∈ st, ∃ t, ts[e.1]? = some t ∧ t.v1 = p ∧ t.n23 = e.2 ∧ e.2 ≠ NONE
  nodup : (st.map Prod.fst).Nodup

theorem shouldSwap_plain (vs : List (Vtx F)) (q : Quad) : shouldSwap vs q = .panic ∨ ∃ b, shouldSwap vs q = .ok b := by
  have g : ∀ i, getI vs i = .panic ∨ ∃ x, getI vs i = .ok x := fun i => by
    unfold getI; cases vs[i]? <;> simp
  have hh : ∀ i, inHalfPlane1 vs q i = .panic ∨ ∃ b, inHalfPlane1 vs q i = .ok b := fun i => by
    unfold inHalfPlane1
    rcases g (q.v (edgeToVert1 (oppEdgeIdx i)).castSucc) with e | ⟨x, e⟩ <;> simp only [e, Res.panic_bind, Res.ok_bind, true_or]
    rcases g (q.v (edgeToVert0 (oppEdgeIdx i)).castSucc) with e | ⟨x, e⟩ <;> simp only [e, Res.panic_bind, Res.ok_bind, true_or]
    rcases g q.q4 with e | ⟨x, e⟩ <;> simp [e]
  unfold shouldSwap
  split
  · simp
  split
  · rcases g q.q1 with e | ⟨x, e⟩ <;> simp only [e, Res.panic_bind, Res.ok_bind, true_or]
    rcases g q.q2 with e | ⟨x, e⟩ <;> simp only [e, Res.panic_bind, Res.ok_bind, true_or]
    rcases g q.q3 with e | ⟨x, e⟩ <;> simp only [e, Res.panic_bind, Res.ok_bind, true_or]
    rcases g q.q4 with e | ⟨x, e⟩ <;> simp [e]
  split
  · simp
  split
  · exact hh 0
  · exact hh 1

/-- `check_and_swap_quad_diagonal` on a consistent mesh: nothing changes, or the diagonal is swapped. -/
theorem checkAndSwap_total (hv : Valid ts) (hn : vs.length ≤ INF0) (hok : Sane vs.length ts)
    {p s o a b n1 n2 : Nat} {st : List (Nat × Nat)} (hpl : p < vs.length)
    (hs : ts[s]? = some ⟨p, a, b, n2, o, n1⟩) (ho : o ≠ NONE) :
    ∃ U c n3 n4, ts[o]? = some U ∧ Rot U b a c s n3 n4 ∧ p ≠ c ∧
      (checkAndSwap vs p ts s o st = .ok (ts, st) ∨
       ∃ ts', checkAndSwap vs p ts s o st = .ok (ts', pushQ (pushQ st s n3) o n4) ∧
          FlipSpec ts ts' s o p a b c n1 n2 n3 n4 ∧ ts'[s]? = some ⟨p, a, c, n2, n3, o⟩ ∧
          ts'[o]? = some ⟨p, c, b, s, n4, n1⟩) := by
  have hR := rot_self (⟨p, a, b, n2, o, n1⟩ : Tri)
  simp only at hR
  obtain ⟨U, hU, hh⟩ := hv.ent_pos ⟨_, hs, hR.has2⟩ ho
  obtain ⟨c, n3, n4, hRU⟩ := hh.rot
  have hls := lt_of_getElem? hs
  have hlen := hv.len
  have hso : o ≠ s := hv.ne_self ⟨_, hs, hR.has2⟩
  have hpc : p ≠ c := by
    rintro rfl
    refine hv.single _ _ _ _ hs hU hso.symm fun v => ?_
    rw [hR.hasVert, hRU.hasVert]; tauto
  refine ⟨U, c, n3, n4, hU, hRU, hpc, ?_⟩
  have hq := quadOf_rot hv hU hRU (by omega) p
  have oka := hok.vert.get hs 1
  have okb := hok.vert.get hs 2
  have okc : IdOk vs.length c := by
    have := fun k => hok.vert.get hU k
    rw [forall_fin3] at this
    rcases hRU with rfl | rfl | rfl
    · exact this.2.2
    · exact this.1
    · exact this.2.1
  have hnp := shouldSwap_ne_panic (q := ⟨a, b, c, p⟩) hn oka okb okc hpl
  obtain ⟨r, hr⟩ := (shouldSwap_plain vs ⟨a, b, c, p⟩).resolve_left hnp
  cases r with
  | false =>
    left
    unfold checkAndSwap
    simp only [getI_of hU, Res.ok_bind, hq, hr, Bool.false_eq_true, if_false]
  | true =>
    right
    obtain ⟨ts1, ts', u1, u2, hF⟩ := flip_total hv hs hR hU hRU (S' := ⟨p, a, c, n2, n3, o⟩)
      (U' := ⟨p, c, b, s, n4, n1⟩) (.inl rfl) (.inl rfl) hpc
    obtain ⟨⟨b1, _, b3, _⟩, ⟨c1, _, c3, _⟩, _⟩ := hF.outer_ne hv hpc
    obtain ⟨x1, y1, l1, z1⟩ := updNb_total ((ts.set s ⟨p, a, c, n2, n3, o⟩).set o ⟨p, c, b, s, n4, n1⟩) (n := n1) (old := s)
      (new := o) (by simpa using hv.nb_range ⟨_, hs, hR.has3⟩)
    rw [u1] at y1; simp at y1; subst y1
    obtain ⟨x2, y2, l2, z2⟩ := updNb_total ts1 (n := n3) (old := o) (new := s)
      (by rw [l1]; simpa using hv.nb_range ⟨_, hU, hRU.has2⟩)
    rw [u2] at y2; simp at y2; subst y2
    refine ⟨ts', ?_, hF, ?_, ?_⟩
    · unfold checkAndSwap
      simp only [getI_of hU, Res.ok_bind, hq, hr, if_true, getI_of hs, u1, u2]
    · rw [z2, z1, if_neg (fun h => b3 h.2.symm), if_neg (fun h => b1 h.2.symm),
        List.getElem?_set_ne (hF.s_ne_o hv), List.getElem?_set_self hls]
    · rw [z2, z1, if_neg (fun h => c3 h.2.symm), if_neg (fun h => c1 h.2.symm),
        List.getElem?_set_self (by simpa using lt_of_getElem? hU)]

/-- One step of the restoration. -/
theorem RInv.step {p s o : Nat} {st : List (Nat × Nat)} (hI : RInv vs.length p ts ((s, o) :: st))
    (hn : vs.length ≤ INF0) (hpl : p < vs.length) :
    ∃ ts' st', checkAndSwap vs p ts s o st = .ok (ts', st') ∧ (¬ Doubled ts' → RInv vs.length p ts' st' ∧
      ((ts' = ts ∧ st' = st) ∨ (pCount p ts + 1 ≤ pCount p ts' ∧ st'.length ≤ st.length + 2))) := by
  have hv := hI.valid
  have hN := hv.len
  obtain ⟨T, hT, hT1, hT2, ho⟩ := hI.stack (s, o) (by simp)
  obtain ⟨v1, a, b, n2, n23, n1⟩ := T
  simp only at hT hT1 hT2 ho
  subst hT1 hT2
  have hls := lt_of_getElem? hT
  obtain ⟨U, c, n3, n4, hU, hRU, hpc, hcase⟩ := checkAndSwap_total (st := st) hv hn hI.sane hpl hT ho
  have hR := rot_self (⟨v1, a, b, n2, n23, n1⟩ : Tri)
  simp only at hR
  have hnd := hI.nodup
  simp only [List.map_cons, List.nodup_cons] at hnd
  have hst : StackOk ts.length st := fun e he => by
    obtain ⟨t, ht, h1, h2, h3⟩ := hI.stack e (by simp [he])
    exact ⟨lt_of_getElem? ht, (hv.nb_range (i := e.1) (a := t.v2) (b := t.v3) ⟨t, ht, h2 ▸ has_1 t⟩).resolve_left h3⟩
  rcases hcase with hres | ⟨ts', hres, hF, hs', ho'⟩
  · exact ⟨ts, st, hres, fun _ => ⟨⟨hv, hI.sane, hI.first, fun e he => hI.stack e (by simp [he]), hnd.2⟩,
      .inl ⟨rfl, rfl⟩⟩⟩
  · refine ⟨ts', _, hres, fun hd => ?_⟩
    have hv' := hF.valid hv hpc (not_doubled hd)
    have hok' := (checkAndSwap_sane hI.sane hpl hls (lt_of_getElem? hU) hst hres).1
    simp only at hok'
    have hso := hF.s_ne_o hv
    have pS := hv.pos _ _ hT
    have pU := hv.pos _ _ hU
    have hpa := pS.has_ne hR.has1
    have hbp := pS.has_ne hR.has3
    have hab := pS.has_ne hR.has2
    have hUp : ¬ U.hasVert v1 = true := by
      rw [hRU.hasVert]; rintro (h | h | h)
      · exact hbp h
      · exact hpa h.symm
      · exact hpc h.symm
    have hUv : U.v1 ≠ v1 := fun h => hUp (hasVert_iff.2 (.inl h))
    -- triangles around `p` other than `s` keep their description
    have keep : ∀ (i : Nat) (t : Tri), ts[i]? = some t → t.v1 = v1 → i ≠ s → i ≠ n23 ∧ ∃ t', ts'[i]? = some t' ∧
        t'.v1 = t.v1 ∧ t'.v2 = t.v2 ∧ t'.v3 = t.v3 ∧ t'.n23 = t.n23 := by
      intro i t ht ht1 his
      have hio : i ≠ n23 := by
        rintro rfl; rw [hU] at ht; simp at ht; subst ht; exact hUv ht1
      have hlt := lt_of_getElem? ht
      obtain ⟨t', ht', _⟩ := getI_lt (l := ts') (i := i) (by rw [hF.len]; exact hlt)
      obtain ⟨t0, ht0, w1, w2, w3⟩ := hF.verts_other his hio ht'
      rw [ht] at ht0; simp at ht0; subst ht0
      have pte := (hv.pos _ _ ht).ne
      have E23 : Ent ts i t.v2 t.v3 t.n23 := ⟨t, ht, has_1 t⟩
      have hno : t.n23 ≠ n23 := by
        intro h
        rw [h] at E23
        have hr := hv.ent_pos E23 ho
        rcases hF.ent_o.1 hr with ⟨_, _, r⟩ | ⟨r1, r2, _⟩ | ⟨r1, r2, _⟩
        · exact his r.symm
        · refine hd ⟨i, s, t', _, ht', hs', his, fun v => ?_⟩
          simp only [hasVert_iff, w1, w2, w3, ht1, ← r1, ← r2]; tauto
        · refine hd ⟨i, n23, t', _, ht', ho', hio, fun v => ?_⟩
          simp only [hasVert_iff, w1, w2, w3, ht1, ← r1, ← r2]; tauto
      have hns : t.n23 ≠ s := by
        intro h
        rw [h] at E23
        have hr := hv.ent_pos E23 (by omega)
        rcases hF.ent_s.1 hr with ⟨r1, _, _⟩ | ⟨r1, r2, r⟩ | ⟨r1, r2, _⟩
        · exact pte.2.2 (r1.symm.trans ht1.symm)
        · exact hio r.symm
        · exact pte.1 (ht1.trans r2)
      refine ⟨hio, t', ht', w1, w2, w3, ?_⟩
      have : Ent ts' i t'.v2 t'.v3 t'.n23 := ⟨t', ht', has_1 t'⟩
      rw [w2, w3] at this
      obtain ⟨j0, ⟨t0, ht0, hh⟩, hj⟩ := (hF.ent_other hv his hio).1 this
      rw [ht] at ht0; simp at ht0; subst ht0
      have : j0 = t.n23 := by
        rcases hh with ⟨r1, r2, _⟩ | ⟨_, _, r⟩ | ⟨r1, r2, _⟩
        · exact absurd r1 pte.1
        · exact r.symm
        · exact absurd r1.symm pte.2.1
      subst this
      rw [hj]
      simp only [hno, hns, if_false, ite_self]
    refine ⟨⟨hv', hok', ?_, ?_, ?_⟩, .inr ⟨?_, ?_⟩⟩
    · intro i t ht htp
      by_cases his : i = s
      · subst his; rw [hs'] at ht; simp at ht; subst ht; rfl
      by_cases hio : i = n23
      · subst hio; rw [ho'] at ht; simp at ht; subst ht; rfl
      obtain ⟨t0, ht0, w1, w2, w3⟩ := hF.verts_other his hio ht
      rw [w1]
      refine hI.first i t0 ht0 ?_
      rw [hasVert_iff] at htp ⊢
      rwa [w1, w2, w3] at htp
    · intro e he
      rcases pushQ_mem he with ⟨rfl, h4⟩ | he
      · exact ⟨_, ho', rfl, rfl, h4⟩
      rcases pushQ_mem he with ⟨rfl, h3⟩ | he
      · exact ⟨_, hs', rfl, rfl, h3⟩
      obtain ⟨t, ht, ht1, ht2, ht3⟩ := hI.stack e (by simp [he])
      have hes : e.1 ≠ s := by
        intro h; exact hnd.1 (h ▸ List.mem_map_of_mem he)
      obtain ⟨_, t', ht', w1, _, _, w4⟩ := keep _ t ht ht1 hes
      exact ⟨t', ht', w1.trans ht1, w4.trans ht2, ht3⟩
    · have hno : n23 ∉ st.map Prod.fst := by
        intro h
        rw [List.mem_map] at h
        obtain ⟨e, he, h⟩ := h
        obtain ⟨t, ht, ht1, _⟩ := hI.stack e (by simp [he])
        rw [h, hU] at ht; simp at ht; subst ht; exact hUv ht1
      refine pushQ_nodup (pushQ_nodup hnd.2 hnd.1) ?_
      intro h
      rcases pushQ_map_mem h with h | h
      · exact hso h
      · exact hno h
    · refine flip_pCount (s := s) hF.len ?_ hU hUv ho' rfl
      intro i t ht ht1
      by_cases his : i = s
      · subst his; exact ⟨_, hs', rfl⟩
      · obtain ⟨_, t', ht', w1, _⟩ := keep i t ht ht1 his
        exact ⟨t', ht', w1.trans ht1⟩
    · refine le_trans (pushQ_length _ _ _) ?_
      have := pushQ_length st s n3
      omega

/-- If no mesh with a doubled triangle is reached, the restoration ends and the mesh stays consistent. -/
theorem restore_total {p : Nat} (hn : vs.length ≤ INF0) (hpl : p < vs.length) (fuel : Nat) :
    ∀ (ts : List Tri) (st : List (Nat × Nat)), RInv vs.length p ts st → (∀ us, RVisits vs p ts st us → ¬ Doubled us) →
      st.length + 3 * (ts.length - pCount p ts) ≤ fuel →
      ∃ ts', restore vs p fuel ts st = .ok ts' ∧ RInv vs.length p ts' [] := by
  induction fuel with
  | zero =>
    intro ts st hI hd hf
    cases st with
    | nil => exact ⟨ts, by simp [restore], hI⟩
    | cons e st => simp at hf
  | succ n ih =>
    intro ts st hI hd hf
    cases st with
    | nil => exact ⟨ts, by simp [restore], hI⟩
    | cons e st =>
      obtain ⟨s, o⟩ := e
      obtain ⟨ts', st', h1, hI'⟩ := hI.step hn hpl
      obtain ⟨hI', hc⟩ := hI' (hd _ (.step h1 (.here _ _)))
      have hlen := checkAndSwap_length h1
      simp only at hlen
      simp only [List.length_cons] at hf
      have hle := pCount_le p ts'
      have hle0 := pCount_le p ts
      obtain ⟨ts'', h2, h3⟩ := ih ts' st' hI' (fun us h => hd us (.step h1 h)) (by
        rcases hc with ⟨rfl, rfl⟩ | ⟨h5, h6⟩ <;> omega)
      exact ⟨ts'', by simp only [restore, h1, Res.ok_bind, h2], h3⟩

/-! ## Splits -/

theorem Split3Spec.rinv {n t1 p : Nat} {t : Tri} (hs : Split3Spec ts ts' t1 p t) (hv : Valid ts)
    (ht : ts[t1]? = some t) (hl : ts.length + 2 ≤ NONE) (hok : Sane n ts') (hfresh : Fresh ts p) :
    RInv n p ts' (pushQ (pushQ (pushQ [] (ts.length + 1) t.n12) ts.length t.n23) t1 t.n31) := by
  have hlt := lt_of_getElem? ht
  refine ⟨hs.valid hv ht hl hfresh, hok, ?_, ?_, ?_⟩
  · intro i u hu hup
    have hil := lt_of_getElem? hu
    rw [hs.len] at hil
    by_cases h1 : i = t1
    · subst h1; rw [hs.h1] at hu; simp at hu; subst hu; rfl
    by_cases h2 : i = ts.length
    · subst h2; rw [hs.h2] at hu; simp at hu; subst hu; rfl
    by_cases h3 : i = ts.length + 1
    · subst h3; rw [hs.h3] at hu; simp at hu; subst hu; rfl
    exfalso
    obtain ⟨u0, hu0, w1, w2, w3⟩ := hs.verts_other (by omega) h1 hu
    refine hfresh i u0 hu0 ?_
    rw [hasVert_iff] at hup ⊢; rwa [w1, w2, w3] at hup
  · intro e he
    rcases pushQ_mem he with ⟨rfl, h'⟩ | he
    · exact ⟨_, hs.h1, rfl, rfl, h'⟩
    rcases pushQ_mem he with ⟨rfl, h'⟩ | he
    · exact ⟨_, hs.h2, rfl, rfl, h'⟩
    rcases pushQ_mem he with ⟨rfl, h'⟩ | he
    · exact ⟨_, hs.h3, rfl, rfl, h'⟩
    · simp at he
  · refine pushQ_nodup (pushQ_nodup (pushQ_nodup (by simp) (by simp)) ?_) ?_
    · intro h'; rcases pushQ_map_mem h' with h' | h'
      · omega
      · simp at h'
    · intro h'; rcases pushQ_map_mem h' with h' | h'
      · omega
      rcases pushQ_map_mem h' with h' | h'
      · omega
      · simp at h'

theorem Split4Spec.rinv {n t1 t2 p x y o1 o2 n1 n2 n3 n4 : Nat}
    (hs : Split4Spec ts ts' t1 t2 p x y o1 o2 n1 n2 n3 n4) (hv : Valid ts)
    (hl : ts.length + 2 ≤ NONE) (hok : Sane n ts') (hfresh : Fresh ts p) :
    RInv n p ts' (pushQ (pushQ (pushQ (pushQ [] ts.length n1) (ts.length + 1) n4) t1 n2) t2 n3) := by
  obtain ⟨_, _, _, _, _, _, ne, l1, l2, _⟩ := hs.facts hv
  refine ⟨hs.valid hv hl hfresh, hok, ?_, ?_, ?_⟩
  · intro i u hu hup
    have hil := lt_of_getElem? hu
    rw [hs.len] at hil
    by_cases h1 : i = t1
    · subst h1; rw [hs.h1] at hu; simp at hu; subst hu; rfl
    by_cases h2 : i = t2
    · subst h2; rw [hs.h2] at hu; simp at hu; subst hu; rfl
    by_cases h3 : i = ts.length
    · subst h3; rw [hs.h3] at hu; simp at hu; subst hu; rfl
    by_cases h4 : i = ts.length + 1
    · subst h4; rw [hs.h4] at hu; simp at hu; subst hu; rfl
    exfalso
    obtain ⟨u0, hu0, w1, w2, w3⟩ := hs.verts_other (by omega) h1 h2 hu
    refine hfresh i u0 hu0 ?_
    rw [hasVert_iff] at hup ⊢; rwa [w1, w2, w3] at hup
  · intro e he
    rcases pushQ_mem he with ⟨rfl, h'⟩ | he
    · exact ⟨_, hs.h2, rfl, rfl, h'⟩
    rcases pushQ_mem he with ⟨rfl, h'⟩ | he
    · exact ⟨_, hs.h1, rfl, rfl, h'⟩
    rcases pushQ_mem he with ⟨rfl, h'⟩ | he
    · exact ⟨_, hs.h4, rfl, rfl, h'⟩
    rcases pushQ_mem he with ⟨rfl, h'⟩ | he
    · exact ⟨_, hs.h3, rfl, rfl, h'⟩
    · simp at he
  · refine pushQ_nodup (pushQ_nodup (pushQ_nodup (pushQ_nodup (by simp) (by simp)) ?_) ?_) ?_
    · intro h'; rcases pushQ_map_mem h' with h' | h'
      · omega
      · simp at h'
    · intro h'; rcases pushQ_map_mem h' with h' | h'
      · omega
      rcases pushQ_map_mem h' with h' | h'
      · omega
      · simp at h'
    · intro h'; rcases pushQ_map_mem h' with h' | h'
      · exact ne h'.symm
      rcases pushQ_map_mem h' with h' | h'
      · omega
      rcases pushQ_map_mem h' with h' | h'
      · omega
      · simp at h'

/-! ## The search -/

/-- A placement on an edge is on an edge with an input vertex. -/
theorem findStep_fin {p : Vtx F} {prev cur : Nat} {t : Nat} {ei : Fin 3} {e : Edge} (hn : vs.length ≤ INF0)
    (h : findStep vs p ts prev cur = .ok (.found (.onEdge t ei e))) : e.src < INF0 ∨ e.dst < INF0 := by
  have lt : ∀ {i : Nat} {x : Vtx F}, getI vs i = .ok x → i < INF0 := fun hx => by
    rw [getI_eq_ok] at hx; exact lt_of_lt_of_le (lt_of_getElem? hx) hn
  simp only [findStep, Res.bind_eq_ok] at h
  obtain ⟨tt, ht, inf, hinf, h⟩ := h
  split at h
  · simp only [Res.bind_eq_ok] at h
    obtain ⟨a, ha, b, hb, c, hc, h⟩ := h
    repeat' split at h
    all_goals simp at h
    · obtain ⟨_, _, rfl⟩ := h; exact .inl (lt ha)
    · obtain ⟨_, _, rfl⟩ := h; exact .inl (lt hb)
    · obtain ⟨_, _, rfl⟩ := h; exact .inl (lt hc)
  · simp only [placement1, Res.bind_eq_ok] at h
    obtain ⟨a, ha, b, hb, h⟩ := h
    split at h
    · simp at h
    simp only [Res.bind_eq_ok] at h
    obtain ⟨k, _, h⟩ := h
    repeat' split at h
    all_goals simp at h
    · obtain ⟨_, _, rfl⟩ := h; exact .inl (lt ha)
    · obtain ⟨_, _, rfl⟩ := h; exact .inr (lt ha)
    · obtain ⟨_, _, rfl⟩ := h; exact .inl (lt hb)
  · simp only [placement2, Res.bind_eq_ok] at h
    obtain ⟨fi, _, f, hf, k, _, h⟩ := h
    split at h
    · simp at h
    simp only [Res.bind_eq_ok] at h
    obtain ⟨k', _, h⟩ := h
    repeat' split at h
    all_goals simp at h
    · obtain ⟨_, _, rfl⟩ := h; exact .inl (lt hf)
    · obtain ⟨_, _, rfl⟩ := h; exact .inr (lt hf)

theorem findLoop_fin {p : Vtx F} {n prev cur : Nat} {t : Nat} {ei : Fin 3} {e : Edge} (hn : vs.length ≤ INF0)
    (h : findLoop vs p ts n prev cur = .ok (.onEdge t ei e)) : e.src < INF0 ∨ e.dst < INF0 := by
  induction n generalizing prev cur with
  | zero => simp [findLoop] at h
  | succ n ih =>
    simp only [findLoop] at h
    split at h
    · simp at h
    · simp only [Res.bind_eq_ok] at h
      obtain ⟨w, hw, h⟩ := h
      cases w with
      | found pl =>
        simp at h; subst h
        exact findStep_fin hn hw
      | go a b => exact ih h

theorem plain_getI {α : Type} (l : List α) (i : Nat) : getI l i = .panic ∨ ∃ x, getI l i = .ok x := by
  unfold getI; cases l[i]? <;> simp

theorem plain_bind {α β : Type} {x : Res α} {f : α → Res β} (hx : x = .panic ∨ ∃ a, x = .ok a)
    (hf : ∀ a, f a = .panic ∨ ∃ b, f a = .ok b) : (x >>= f) = .panic ∨ ∃ b, (x >>= f) = .ok b := by
  rcases hx with rfl | ⟨a, rfl⟩
  · exact .inl rfl
  · exact hf a

theorem plain_infLocal (i : Nat) : infLocal i = .panic ∨ ∃ k, infLocal i = .ok k := by
  unfold infLocal
  repeat' split
  all_goals simp

/-- One step of the search neither fails nor runs forever. -/
theorem plain_findStep (vs : List (Vtx F)) (p : Vtx F) (ts : List Tri) (prev cur : Nat) :
    findStep vs p ts prev cur = .panic ∨ ∃ w, findStep vs p ts prev cur = .ok w := by
  unfold findStep
  refine plain_bind (plain_getI _ _) fun t => ?_
  refine plain_bind ?_ fun inf => ?_
  · unfold collectInfTri
    repeat' split
    all_goals simp
  split
  · refine plain_bind (plain_getI _ _) fun a => plain_bind (plain_getI _ _) fun b => plain_bind (plain_getI _ _) fun c => ?_
    repeat' split
    all_goals simp
  · unfold placement1
    refine plain_bind (plain_getI _ _) fun a => plain_bind (plain_getI _ _) fun b => ?_
    dsimp only
    split
    · simp
    refine plain_bind (plain_infLocal _) fun k => ?_
    repeat' split
    all_goals simp
  · unfold placement2
    refine plain_bind ?_ fun fi => plain_bind (plain_getI _ _) fun b => plain_bind (plain_infLocal _) fun k => ?_
    · unfold oppVertFromEdge
      repeat' split
      all_goals simp
    dsimp only
    split
    · simp
    refine plain_bind (plain_infLocal _) fun k => ?_
    repeat' split
    all_goals simp

/-- The search neither fails nor runs forever. -/
theorem plain_findLoop (vs : List (Vtx F)) (p : Vtx F) (ts : List Tri) (n : Nat) : ∀ prev cur : Nat,
    findLoop vs p ts n prev cur = .panic ∨ ∃ w, findLoop vs p ts n prev cur = .ok w := by
  induction n with
  | zero => intro _ _; simp [findLoop]
  | succ n ih =>
    intro prev cur
    simp only [findLoop]
    split
    · simp
    · refine plain_bind (plain_findStep _ _ _ _ _) fun w => ?_
      cases w with
      | found pl => simp
      | go a b => exact ih a b

/-! ## The insertion of one vertex -/

/-- Meshes reached while the vertex `vid` is inserted: the split triangles, then the restoration. -/
def IVisits (vs : List (Vtx F)) (s : DT) (vid : Nat) (us : List Tri) : Prop :=
  ∃ p r, vs[vid]? = some p ∧
    ((∃ t, findPlacement vs p s.tid s.ts = .ok (.inside t) ∧ split3 s.ts t vid = .ok r) ∨
     (∃ t ei e, findPlacement vs p s.tid s.ts = .ok (.onEdge t ei e) ∧
        (∀ x, (x = e.src ∨ x = e.dst) → isFin x = true → ∃ b, vs[x]? = some b ∧ tooClose b p = false) ∧
        split4 s.ts t ei e vid = .ok r)) ∧
    RVisits vs vid r.1 r.2 us

/-- Invariant of the insertion loop; `done` are the vertices dealt with so far. -/
structure LInv (n : Nat) (done : List Nat) (s : DT) : Prop where
  valid : Valid s.ts
  sane : Sane n s.ts
  tid : s.tid < s.ts.length
  verts : VertsIn (fun v => v ∈ done ∨ INF0 ≤ v) s.ts
  len : s.ts.length ≤ 2 * done.length + 2

theorem LInv.keep {n vid : Nat} {done : List Nat} {s : DT} (h : LInv n done s) (m : Option (List Nat)) :
    LInv n (vid :: done) { s with merge := m } :=
  ⟨h.valid, h.sane, h.tid, fun t ht k => (h.verts t ht k).imp (fun h => by simp [h]) id, by
    have := h.len; simp only [List.length_cons]; omega⟩

theorem finish_total {done : List Nat} {s : DT} {vid fuel : Nat} {ts1 : List Tri} {st : List (Nat × Nat)}
    (hn : vs.length ≤ INF0) (hvl : vid < vs.length) (hI : LInv vs.length done s) (hR : RInv vs.length vid ts1 st)
    (hl : ts1.length = s.ts.length + 2) (hst : st.length ≤ 4) (hd : ∀ us, RVisits vs vid ts1 st us → ¬ Doubled us)
    (hverts : VertsIn (fun v => v ∈ vid :: done ∨ INF0 ≤ v) ts1)
    (hfuel : 4 + 3 * (s.ts.length + 2) ≤ fuel) (m : Option (List Nat)) :
    ∃ s', finishInsert vs fuel vid m (ts1, st) = .ok s' ∧ LInv vs.length (vid :: done) s' := by
  obtain ⟨ts', h1, h2⟩ := restore_total hn hvl fuel ts1 st hR hd (by omega)
  have hl' : ts'.length = s.ts.length + 2 := by rw [restore_length h1, hl]
  have hlen := h2.valid.len
  refine ⟨⟨ts', ts'.length - 1, m⟩, ?_, h2.valid, h2.sane, by simp only; omega, restore_verts h1 hverts (.inl (by simp)), by
    have := hI.len; simp only [List.length_cons]; omega⟩
  simp only [finishInsert, h1, Res.ok_bind, lastId_ok (ts := ts') (by omega) hlen]

theorem insertVertex_total {done : List Nat} {s : DT} {vid fuel : Nat} (hI : LInv vs.length done s)
    (hn : vs.length ≤ INF0) (hvl : vid < vs.length) (hvd : vid ∉ done)
    (hfuel : 4 + 3 * (s.ts.length + 2) ≤ fuel) (hlen : s.ts.length + 2 ≤ NONE)
    (hd : ∀ us, IVisits vs s vid us → ¬ Doubled us) :
    insertVertex vs fuel s vid = .err .placementNotFound ∨
      ∃ s', insertVertex vs fuel s vid = .ok s' ∧ LInv vs.length (vid :: done) s' := by
  obtain ⟨p, hp', hgp⟩ := getI_lt hvl
  have hvf : vid < INF0 := by omega
  have hv := hI.valid
  have hok := hI.sane
  have hmax : s.ts.length + 1 ≤ IdCfg.maxId := by unfold NONE at hlen; omega
  have hfresh : Fresh s.ts vid := by
    intro i t ht htv
    have := fun k => hI.verts.get ht k
    rw [forall_fin3] at this
    rw [hasVert_iff] at htv
    simp only [Tri.v_0, Tri.v_1, Tri.v_2] at this
    rcases htv with h | h | h
    · rw [h] at this; rcases this.1 with h' | h'
      · exact hvd h'
      · omega
    · rw [h] at this; rcases this.2.1 with h' | h'
      · exact hvd h'
      · omega
    · rw [h] at this; rcases this.2.2 with h' | h'
      · exact hvd h'
      · omega
  have hverts : VertsIn (fun v => v ∈ vid :: done ∨ INF0 ≤ v) s.ts :=
    fun t ht k => (hI.verts t ht k).imp (fun h => by simp [h]) id
  have real : ∀ x, IdOk vs.length x → isFin x = true → ∃ b, vs[x]? = some b := fun x hx hf => by
    have : x < vs.length := hx.real (by rw [isInf_false_iff]; exact isFin_iff.1 hf)
    exact ⟨_, List.getElem?_eq_getElem this⟩
  rw [insertVertex_with]
  unfold insertWith
  simp only [hgp, Res.ok_bind]
  obtain ⟨pl, hpl⟩ : ∃ pl, findPlacement vs p s.tid s.ts = .ok pl :=
    (plain_findLoop vs p s.ts _ _ _).resolve_left (findLoop_ne_panic hok hn _ _ _ (.inl hI.tid))
  simp only [hpl, Res.ok_bind]
  have hfm := findLoop_from hpl
  cases pl with
  | notFound => exact .inl rfl
  | inside i =>
    obtain ⟨t, ht⟩ := hfm
    obtain ⟨ts1, h1, hs⟩ := split3_total (p := vid) hv hlen ht
    have hsane := (split3_sane hok hvl hmax h1).1
    simp only [h1, Res.ok_bind]
    right
    refine finish_total hn hvl hI (hs.rinv hv ht hlen hsane hfresh) hs.len ?_ ?_ (split3_verts h1 hverts (.inl (by simp))) hfuel _
    · refine le_trans (pushQ_length _ _ _) ?_
      have := pushQ_length (pushQ [] (s.ts.length + 1) t.n12) s.ts.length t.n23
      have := pushQ_length [] (s.ts.length + 1) t.n12
      simp at this ⊢; omega
    · exact fun us h => hd us ⟨p, _, hp', .inl ⟨i, hpl, h1⟩, h⟩
  | onEdge i ei e =>
    obtain ⟨t, ht, he⟩ := hfm
    have hk := hok.vert.get ht
    have hsrc : IdOk vs.length e.src := by rw [he]; exact hk _
    have hdst : IdOk vs.length e.dst := by rw [he]; exact hk _
    have hfin := findLoop_fin hn hpl
    have hcw : nextCwVert ei = ei + 1 := by fin_cases ei <;> rfl
    by_cases hc1 : isFin e.src = true ∧ ∃ a, vs[e.src]? = some a ∧ tooClose a p = true
    · obtain ⟨hf1, a, ha, hca⟩ := hc1
      simp only [hf1, if_true, getI_of ha, Res.ok_bind, Res.pure_eq, hca]
      exact .inr ⟨_, rfl, hI.keep (setMerge s.merge vid e.src)⟩
    by_cases hc2 : isFin e.dst = true ∧ ∃ a, vs[e.dst]? = some a ∧ tooClose a p = true
    · obtain ⟨hf1, a, ha, hca⟩ := hc2
      have key : (do
          let closeDst ← if isFin e.dst then do
              let b ← getI vs e.dst
              pure (tooClose b p)
            else pure false
          if closeDst then .ok { s with merge := setMerge s.merge vid e.dst }
          else do
            let r ← split4 s.ts i ei e vid
            finishInsert vs fuel vid s.merge r : Res DT) = .ok { s with merge := setMerge s.merge vid e.dst } := by
        simp only [hf1, if_true, getI_of ha, Res.ok_bind, Res.pure_eq, hca]
      refine .inr ⟨_, ?_, hI.keep (setMerge s.merge vid e.dst)⟩
      by_cases hf2 : isFin e.src = true
      · obtain ⟨b, hb⟩ := real _ hsrc hf2
        have : tooClose b p = false := by
          by_contra hcc
          exact hc1 ⟨hf2, b, hb, by simpa using hcc⟩
        simpa only [hf2, if_true, getI_of hb, Res.ok_bind, Res.pure_eq, this, Bool.false_eq_true, if_false] using key
      · simpa only [hf2, if_false, Res.ok_bind, Res.pure_eq, Bool.false_eq_true] using key
    have hfar : ∀ x, (x = e.src ∨ x = e.dst) → isFin x = true → ∃ b, vs[x]? = some b ∧ tooClose b p = false := by
      rintro x (rfl | rfl) hf
      · obtain ⟨b, hb⟩ := real _ hsrc hf
        refine ⟨b, hb, ?_⟩
        by_contra hcc
        exact hc1 ⟨hf, b, hb, by simpa using hcc⟩
      · obtain ⟨b, hb⟩ := real _ hdst hf
        refine ⟨b, hb, ?_⟩
        by_contra hcc
        exact hc2 ⟨hf, b, hb, by simpa using hcc⟩
    have key : (do
        let r ← split4 s.ts i ei e vid
        finishInsert vs fuel vid s.merge r : Res DT) = .err .placementNotFound ∨
        ∃ s', (do
        let r ← split4 s.ts i ei e vid
        finishInsert vs fuel vid s.merge r : Res DT) = .ok s' ∧ LInv vs.length (vid :: done) s' := by
      have hE : Has t (t.v ei) (t.v (ei + 1)) (t.n ei) := has_k t ei
      have hR : Rot t (t.v ei) (t.v (ei + 1)) (t.v (ei + 2)) (t.n ei) (t.n (ei + 1)) (t.n (ei + 2)) := by
        fin_cases ei
        · exact .inl rfl
        · exact .inr (.inl rfl)
        · exact .inr (.inr rfl)
      rw [hcw] at he
      have hnb : t.n ei ≠ NONE := by
        rcases hv.adj _ _ _ _ ⟨t, ht, hE⟩ with ⟨_, h1, h2⟩ | h
        · rw [he] at hfin
          rcases hfin with h' | h'
          · exact absurd h' h1
          · exact absurd h' h2
        · exact h.1
      obtain ⟨b, hb, hbh⟩ := hv.ent_pos ⟨t, ht, hE⟩ hnb
      obtain ⟨o2, n3, n4, hRb⟩ := hbh.rot
      obtain ⟨ts1, h1, hs⟩ := split4_total (p := vid) hv hlen ht rfl rfl hR hb hRb
      have h1' := h1
      rw [← he] at h1'
      have hsane := (split4_sane hok hvl hmax hsrc hdst h1').1
      right
      simp only [h1', Res.ok_bind]
      refine finish_total hn hvl hI (hs.rinv hv hlen hsane hfresh) hs.len ?_ ?_
        (split4_verts h1 hverts (.inl (by simp)) (hverts.get ht _) (hverts.get ht _)) hfuel _
      · refine le_trans (pushQ_length _ _ _) ?_
        have := pushQ_length (pushQ (pushQ [] s.ts.length (t.n (ei + 1))) (s.ts.length + 1) n4) i (t.n (ei + 2))
        have := pushQ_length (pushQ [] s.ts.length (t.n (ei + 1))) (s.ts.length + 1) n4
        have := pushQ_length [] s.ts.length (t.n (ei + 1))
        simp at this ⊢; omega
      · exact fun us h => hd us ⟨p, _, hp', .inr ⟨i, ei, e, hpl, hfar, h1'⟩, h⟩
    have inner : ∀ (Q : Res DT → Prop), Q (do
        let r ← split4 s.ts i ei e vid
        finishInsert vs fuel vid s.merge r) → Q (do
        let closeDst ← if isFin e.dst then do
            let b ← getI vs e.dst
            pure (tooClose b p)
          else pure false
        if closeDst then .ok { s with merge := setMerge s.merge vid e.dst }
        else do
          let r ← split4 s.ts i ei e vid
          finishInsert vs fuel vid s.merge r) := by
      intro Q hQ
      by_cases hf2 : isFin e.dst = true
      · obtain ⟨b, hb, this⟩ := hfar _ (.inr rfl) hf2
        simpa only [hf2, if_true, getI_of hb, Res.ok_bind, Res.pure_eq, this, Bool.false_eq_true, if_false] using hQ
      · simpa only [hf2, if_false, Res.ok_bind, Res.pure_eq, Bool.false_eq_true] using hQ
    have key2 := inner (fun r => r = .err .placementNotFound ∨ ∃ s', r = .ok s' ∧ LInv vs.length (vid :: done) s') key
    by_cases hf2 : isFin e.src = true
    · obtain ⟨b, hb, this⟩ := hfar _ (.inl rfl) hf2
      simpa only [hf2, if_true, getI_of hb, Res.ok_bind, Res.pure_eq, this, Bool.false_eq_true, if_false] using key2
    · simpa only [hf2, if_false, Res.ok_bind, Res.pure_eq, Bool.false_eq_true] using key2

/-! ## The insertion loop -/

/-- Meshes reached while the vertices `l` are inserted, starting from `s`. -/
def Visits (vs : List (Vtx F)) (fuel : Nat) (l : List Nat) (s : DT) (us : List Tri) : Prop :=
  ∃ pre vid rest s', l = pre ++ vid :: rest ∧ insertAll vs fuel pre s = .ok s' ∧ IVisits vs s' vid us

theorem insertAll_total {fuel : Nat} (hn : 2 * vs.length + 2 ≤ NONE) (hfuel : 6 * vs.length + 10 ≤ fuel)
    (l done : List Nat) (s : DT) (hI : LInv vs.length done s) (hnd : l.Nodup) (hdis : ∀ v ∈ l, v ∉ done)
    (hlt : ∀ v ∈ l, v < vs.length) (hcard : done.length + l.length ≤ vs.length)
    (hd : ∀ us, Visits vs fuel l s us → ¬ Doubled us) :
    insertAll vs fuel l s = .err .placementNotFound ∨
      ∃ s', insertAll vs fuel l s = .ok s' ∧ LInv vs.length (l.reverse ++ done) s' := by
  induction l generalizing done s with
  | nil => exact .inr ⟨s, rfl, by simpa using hI⟩
  | cons v l ih =>
    simp only [List.length_cons] at hcard
    simp only [List.nodup_cons] at hnd
    have hl := hI.len
    have hb := IdCfg.big
    have hinf : vs.length ≤ INF0 := by unfold INF0; unfold NONE at hn; omega
    simp only [insertAll]
    rcases insertVertex_total hI hinf (hlt v (by simp)) (hdis v (by simp)) (fuel := fuel) (by omega) (by omega)
      (fun us h => hd us ⟨[], v, l, s, rfl, rfl, h⟩) with h | ⟨s1, h, hI1⟩
    · left; rw [h]; rfl
    · rw [h]
      simp only [Res.ok_bind]
      have := ih (v :: done) s1 hI1 hnd.2 (fun w hw => by
        have := hdis w (by simp [hw])
        simp only [List.mem_cons, not_or]
        exact ⟨fun h => hnd.1 (h ▸ hw), this⟩) (fun w hw => hlt w (by simp [hw])) (by simp only [List.length_cons]; omega)
        (fun us ⟨pre, vid, rest, s', e, hp, hv⟩ => hd us ⟨v :: pre, vid, rest, s', by rw [e]; rfl, by
          simp only [insertAll, h, Res.ok_bind, hp], hv⟩)
      simpa using this

theorem initial_valid {first : Nat} (h : first < INF0) : Valid (initialTriangles first) := by
  have hb := IdCfg.big
  refine ⟨?_, ?_, ?_, ?_⟩
  · intro i t ht
    rcases i with _ | _ | _ | _ | i <;> simp [initialTriangles] at ht <;> subst ht <;>
      (unfold INF0 at h; simp only [Ne3, INF0, INF1, INF2, INF3]; omega)
  · intro i x y nb he
    obtain ⟨t, ht, hh⟩ := he
    rcases i with _ | _ | _ | _ | i <;> simp [initialTriangles] at ht <;> subst ht <;>
      rcases hh with ⟨rfl, rfl, rfl⟩ | ⟨rfl, rfl, rfl⟩ | ⟨rfl, rfl, rfl⟩
    all_goals first
      | (left; exact ⟨rfl, by simp [INF0, INF1, INF2, INF3]; try omega, by simp [INF0, INF1, INF2, INF3]; try omega⟩)
      | (right; refine ⟨by unfold NONE; simp; omega, _, rfl, ?_⟩; simp [Has])
  · simp [initialTriangles]; unfold NONE; omega
  · intro i j t u ht hu hij hs
    have n01 : INF0 ≠ INF1 := by simp only [INF0, INF1]; omega
    have n02 : INF0 ≠ INF2 := by simp only [INF0, INF2]; omega
    have n03 : INF0 ≠ INF3 := by simp only [INF0, INF3]; omega
    have n12 : INF1 ≠ INF2 := by simp only [INF2, INF1]; omega
    have n13 : INF1 ≠ INF3 := by simp only [INF3, INF1]; omega
    have n23 : INF2 ≠ INF3 := by simp only [INF2, INF3]; omega
    unfold INF0 at h
    have f0 : first ≠ INF0 := by simp only [INF0]; omega
    have f1 : first ≠ INF1 := by simp only [INF1]; omega
    have f2 : first ≠ INF2 := by simp only [INF2]; omega
    have f3 : first ≠ INF3 := by simp only [INF3]; omega
    have h0 := hs INF0
    have h1 := hs INF1
    have h2 := hs INF2
    have h3 := hs INF3
    rcases i with _ | _ | _ | _ | i <;> rcases j with _ | _ | _ | _ | j <;> simp [initialTriangles] at ht hu <;>
      first
        | exact absurd rfl hij
        | (subst ht hu
           rw [hasVert_iff, hasVert_iff] at h0 h1 h2 h3
           simp only [n01, n02, n03, n12, n13, n23, n01.symm, n02.symm, n03.symm, n12.symm, n13.symm, n23.symm, f0, f1, f2, f3,
             or_true, true_or, or_self, iff_self, iff_true, iff_false, true_iff, false_iff, not_true, not_false_iff] at h0 h1 h2 h3)

theorem initial_linv {n first : Nat} (h : first < n) (hn : n ≤ INF0) (m : Option (List Nat)) :
    LInv n [first] ⟨initialTriangles first, 3, m⟩ := by
  have hb := IdCfg.big
  refine ⟨initial_valid (by omega), initial_sane h, by simp [initialTriangles], ?_, by simp [initialTriangles]⟩
  refine initialTriangles_verts (.inl (by simp)) (.inr ?_) (.inr ?_) (.inr ?_) (.inr ?_) <;>
    (unfold INF0; first | omega | (unfold INF1; omega) | (unfold INF2; omega) | (unfold INF3; omega))

end Comb
end CDT

import Verif.Geo.Restore
import Verif.Geo.Place

/-! # One insertion on a valid mesh -/

set_option linter.unusedSectionVars false
set_option linter.unusedSimpArgs false
set_option linter.unusedVariables false

namespace CDT

variable {K : Type} [Field K] [LinearOrder K] [IsStrictOrderedRing K]

section
variable [IdCfg] {H : Nat → HP K} {ts ts' : List Tri}

/-- The elementary changes of the mesh, with their geometric preconditions. -/
inductive MStep (H : Nat → HP K) : List Tri → List Tri → Prop
  | split3 {ts ts' : List Tri} {t1 p : Nat} {t : Tri} (ht : ts[t1]? = some t) (hs : Split3Spec ts ts' t1 p t)
      (hl : ts.length + 2 ≤ NONE) (h : ∀ k, 0 < sideO H t (H p) k) : MStep H ts ts'
  | split4 {ts ts' : List Tri} {t1 t2 p x y o1 o2 n1 n2 n3 n4 : Nat}
      (hs : Split4Spec ts ts' t1 t2 p x y o1 o2 n1 n2 n3 n4)
      (hl : ts.length + 2 ≤ NONE) (h0 : HP.o (H x) (H y) (H p) = 0) (h1 : 0 < HP.o (H y) (H o1) (H p))
      (h2 : 0 < HP.o (H o1) (H x) (H p)) : MStep H ts ts'
  | flip {ts ts' : List Tri} {s o p a b c n1 n2 n3 n4 : Nat} (hs : FlipSpec ts ts' s o p a b c n1 n2 n3 n4)
      (h1 : 0 < HP.o (H p) (H a) (H c)) (h2 : 0 < HP.o (H p) (H c) (H b)) : MStep H ts ts'

theorem Split4Spec.pos4 {t1 t2 p x y o1 o2 n1 n2 n3 n4 : Nat}
    (hs : Split4Spec ts ts' t1 t2 p x y o1 o2 n1 n2 n3 n4) (hv : Valid H ts)
    (h0 : HP.o (H x) (H y) (H p) = 0) (h1 : 0 < HP.o (H y) (H o1) (H p)) (h2 : 0 < HP.o (H o1) (H x) (H p)) :
    0 < HP.o (H p) (H o1) (H x) ∧ 0 < HP.o (H p) (H x) (H o2) ∧ 0 < HP.o (H p) (H y) (H o1) ∧
      0 < HP.o (H p) (H o2) (H y) := by
  obtain ⟨a, ha, hRa⟩ := hs.g1
  obtain ⟨b, hb, hRb⟩ := hs.g2
  have pa := hRa.pos_iff.1 (hv.pos _ _ ha)
  have pb := hRb.pos_iff.1 (hv.pos _ _ hb)
  have e1 := HP.bary_o (H x) (H y) (H o1) (H p) (H x) (H o2)
  have e2 := HP.bary_o (H x) (H y) (H o1) (H p) (H o2) (H y)
  rw [h0, HP.o_same'', HP.o_cyc (H y) (H x) (H o2)] at e1
  rw [h0, HP.o_same', HP.o_cyc' (H y) (H x) (H o2)] at e2
  refine ⟨by rwa [HP.o_cyc'], ?_, by rwa [HP.o_cyc'], ?_⟩
  · rw [HP.o_cyc']
    by_contra hc
    have := mul_nonpos_of_nonneg_of_nonpos pa.le (not_lt.1 hc)
    have := mul_pos h2 pb
    linarith
  · rw [HP.o_cyc']
    by_contra hc
    have := mul_nonpos_of_nonneg_of_nonpos pa.le (not_lt.1 hc)
    have := mul_pos h1 pb
    linarith

theorem MStep.valid (h : MStep H ts ts') (hv : Valid H ts) : Valid H ts' := by
  cases h with
  | split3 ht hs hl h => exact hs.valid hv ht hl (h 0) (h 1) (h 2)
  | split4 hs hl h0 h1 h2 =>
    obtain ⟨a, b, c, d⟩ := hs.pos4 hv h0 h1 h2
    exact hs.valid hv hl a b c d
  | flip hs h1 h2 => exact hs.valid hv h1 h2

theorem steps_valid (h : Relation.ReflTransGen (MStep H) ts ts') (hv : Valid H ts) : Valid H ts' := by
  induction h with
  | refl => exact hv
  | tail _ h ih => exact h.valid ih

theorem flips_steps [ExactParams K] {vs : List (Vtx K)} (h : Relation.ReflTransGen (Flip H) ts ts') :
    Relation.ReflTransGen (MStep H) ts ts' := by
  induction h with
  | refl => exact .refl
  | tail _ h ih =>
    obtain ⟨_, _, _, _, _, _, _, _, _, _, hf, h1, h2⟩ := h
    exact .tail ih (.flip hf h1 h2)

/-- Vertex `v` occurs in the mesh. -/
def Occ (ts : List Tri) (v : Nat) : Prop := ∃ (i : Nat) (t : Tri), ts[i]? = some t ∧ t.hasVert v = true

theorem MStep.occ (h : MStep H ts ts') {v : Nat} (ho : Occ ts v) : Occ ts' v := by
  obtain ⟨i, u, hu, huv⟩ := ho
  have hi := lt_of_getElem? hu
  cases h with
  | split3 ht hs hl h =>
    rename_i t1 p t
    by_cases hi1 : i = t1
    · subst hi1
      rw [ht] at hu; simp at hu; subst hu
      rw [hasVert_iff] at huv
      rcases huv with rfl | rfl | rfl
      · exact ⟨_, _, hs.h1, hasVert_iff.2 (by simp)⟩
      · exact ⟨_, _, hs.h2, hasVert_iff.2 (by simp)⟩
      · exact ⟨_, _, hs.h1, hasVert_iff.2 (by simp)⟩
    · obtain ⟨t', ht', _⟩ := getI_lt (l := ts') (i := i) (by rw [hs.len]; omega)
      obtain ⟨u0, hu0, w1, w2, w3⟩ := hs.verts_other hi hi1 ht'
      rw [hu] at hu0; simp at hu0; subst hu0
      refine ⟨i, t', ht', ?_⟩
      rw [hasVert_iff] at huv ⊢; rwa [w1, w2, w3]
  | split4 hs hl h0 h1 h2 =>
    rename_i t1 t2 p x y o1 o2 n1 n2 n3 n4
    by_cases hi1 : i = t1
    · subst hi1
      obtain ⟨a, ha, hRa⟩ := hs.g1
      rw [ha] at hu; simp at hu; subst hu
      rw [hRa.hasVert] at huv
      rcases huv with rfl | rfl | rfl
      · exact ⟨_, _, hs.h1, hasVert_iff.2 (by simp)⟩
      · exact ⟨_, _, hs.h3, hasVert_iff.2 (by simp)⟩
      · exact ⟨_, _, hs.h1, hasVert_iff.2 (by simp)⟩
    by_cases hi2 : i = t2
    · subst hi2
      obtain ⟨a, ha, hRa⟩ := hs.g2
      rw [ha] at hu; simp at hu; subst hu
      rw [hRa.hasVert] at huv
      rcases huv with rfl | rfl | rfl
      · exact ⟨_, _, hs.h3, hasVert_iff.2 (by simp)⟩
      · exact ⟨_, _, hs.h1, hasVert_iff.2 (by simp)⟩
      · exact ⟨_, _, hs.h2, hasVert_iff.2 (by simp)⟩
    · obtain ⟨t', ht', _⟩ := getI_lt (l := ts') (i := i) (by rw [hs.len]; omega)
      obtain ⟨u0, hu0, w1, w2, w3⟩ := hs.verts_other hi hi1 hi2 ht'
      rw [hu] at hu0; simp at hu0; subst hu0
      refine ⟨i, t', ht', ?_⟩
      rw [hasVert_iff] at huv ⊢; rwa [w1, w2, w3]
  | flip hs h1 h2 =>
    rename_i s o p a b c n1 n2 n3 n4
    obtain ⟨S', hS', hRS'⟩ := hs.hs'
    obtain ⟨U', hU', hRU'⟩ := hs.ho'
    by_cases his : i = s
    · subst his
      obtain ⟨S, hS, hR⟩ := hs.hs
      rw [hS] at hu; simp at hu; subst hu
      rw [hR.hasVert] at huv
      rcases huv with rfl | rfl | rfl
      · exact ⟨_, _, hS', hRS'.hasVert.2 (by simp)⟩
      · exact ⟨_, _, hS', hRS'.hasVert.2 (by simp)⟩
      · exact ⟨_, _, hU', hRU'.hasVert.2 (by simp)⟩
    by_cases hio : i = o
    · subst hio
      obtain ⟨S, hS, hR⟩ := hs.ho
      rw [hS] at hu; simp at hu; subst hu
      rw [hR.hasVert] at huv
      rcases huv with rfl | rfl | rfl
      · exact ⟨_, _, hU', hRU'.hasVert.2 (by simp)⟩
      · exact ⟨_, _, hS', hRS'.hasVert.2 (by simp)⟩
      · exact ⟨_, _, hS', hRS'.hasVert.2 (by simp)⟩
    · obtain ⟨t', ht', _⟩ := getI_lt (l := ts') (i := i) (by rw [hs.len]; omega)
      obtain ⟨u0, hu0, w1, w2, w3⟩ := hs.verts_other his hio ht'
      rw [hu] at hu0; simp at hu0; subst hu0
      refine ⟨i, t', ht', ?_⟩
      rw [hasVert_iff] at huv ⊢; rwa [w1, w2, w3]

theorem steps_occ (h : Relation.ReflTransGen (MStep H) ts ts') {v : Nat} (ho : Occ ts v) : Occ ts' v := by
  induction h with
  | refl => exact ho
  | tail _ h ih => exact h.occ ih

end

section
variable [ExactParams K] [IdCfg] {vs : List (Vtx K)} {ts ts' : List Tri}

/-- After a split in three the restoration invariant holds. -/
theorem Split3Spec.rinv {t1 p : Nat} {t : Tri} (hs : Split3Spec ts ts' t1 p t) (hv : Valid (hp vs) ts)
    (ht : ts[t1]? = some t) (hl : ts.length + 2 ≤ NONE) (h : ∀ k, 0 < sideO (hp vs) t (hp vs p) k)
    (hok : VertsIn (VOk vs.length) ts') (hfresh : ¬ Occ ts p) :
    RInv vs p ts' (pushQ (pushQ (pushQ [] (ts.length + 1) t.n12) ts.length t.n23) t1 t.n31) := by
  have hlt := lt_of_getElem? ht
  refine ⟨hs.valid hv ht hl (h 0) (h 1) (h 2), hok, ?_, ?_, ?_, ?_⟩
  · intro i u hu hup
    have hil := lt_of_getElem? hu
    rw [hs.len] at hil
    by_cases h1 : i = t1
    · subst h1; rw [hs.h1] at hu; simp at hu; subst hu; rfl
    by_cases h2 : i = ts.length
    · subst h2; rw [hs.h2] at hu; simp at hu; subst hu; rfl
    by_cases h3 : i = ts.length + 1
    · subst h3; rw [hs.h3] at hu; simp at hu; subst hu; rfl
    exfalso
    obtain ⟨u0, hu0, w1, w2, w3⟩ := hs.verts_other (by omega) h1 hu
    refine hfresh ⟨i, u0, hu0, ?_⟩
    rw [hasVert_iff] at hup ⊢; rwa [w1, w2, w3] at hup
  · intro e he
    rcases pushQ_mem he with ⟨rfl, h'⟩ | he
    · exact ⟨_, hs.h1, rfl, rfl, h'⟩
    rcases pushQ_mem he with ⟨rfl, h'⟩ | he
    · exact ⟨_, hs.h2, rfl, rfl, h'⟩
    rcases pushQ_mem he with ⟨rfl, h'⟩ | he
    · exact ⟨_, hs.h3, rfl, rfl, h'⟩
    · simp at he
  · refine pushQ_nodup (pushQ_nodup (pushQ_nodup (by simp) (by simp)) ?_) ?_
    · intro h'; rcases pushQ_map_mem h' with h' | h'
      · omega
      · simp at h'
    · intro h'; rcases pushQ_map_mem h' with h' | h'
      · omega
      rcases pushQ_map_mem h' with h' | h'
      · omega
      · simp at h'
  · intro i u hu hup
    have hil := lt_of_getElem? hu
    rw [hs.len] at hil
    by_cases h1 : i = t1
    · subst h1
      by_cases hn : t.n31 = NONE
      · right; have := hs.h1; rw [hn] at this; exact settled_none this
      · exact .inl ⟨_, mem_pushQ hn, rfl⟩
    by_cases h2 : i = ts.length
    · subst h2
      by_cases hn : t.n23 = NONE
      · right; have := hs.h2; rw [hn] at this; exact settled_none this
      · exact .inl ⟨_, pushQ_mono (mem_pushQ hn), rfl⟩
    by_cases h3 : i = ts.length + 1
    · subst h3
      by_cases hn : t.n12 = NONE
      · right; have := hs.h3; rw [hn] at this; exact settled_none this
      · exact .inl ⟨_, pushQ_mono (pushQ_mono (mem_pushQ hn)), rfl⟩
    exfalso
    obtain ⟨u0, hu0, w1, w2, w3⟩ := hs.verts_other (by omega) h1 hu
    exact hfresh ⟨i, u0, hu0, hasVert_iff.2 (.inl (w1 ▸ hup))⟩

/-- After a split in four the restoration invariant holds. -/
theorem Split4Spec.rinv {t1 t2 p x y o1 o2 n1 n2 n3 n4 : Nat}
    (hs : Split4Spec ts ts' t1 t2 p x y o1 o2 n1 n2 n3 n4) (hv : Valid (hp vs) ts)
    (hl : ts.length + 2 ≤ NONE) (h0 : HP.o (hp vs x) (hp vs y) (hp vs p) = 0)
    (h1 : 0 < HP.o (hp vs y) (hp vs o1) (hp vs p)) (h2 : 0 < HP.o (hp vs o1) (hp vs x) (hp vs p))
    (hok : VertsIn (VOk vs.length) ts') (hfresh : ¬ Occ ts p) :
    RInv vs p ts' (pushQ (pushQ (pushQ (pushQ [] ts.length n1) (ts.length + 1) n4) t1 n2) t2 n3) := by
  obtain ⟨_, _, _, _, _, _, ne, l1, l2, _⟩ := hs.facts hv
  obtain ⟨q1, q2, q3, q4⟩ := hs.pos4 hv h0 h1 h2
  refine ⟨hs.valid hv hl q1 q2 q3 q4, hok, ?_, ?_, ?_, ?_⟩
  · intro i u hu hup
    have hil := lt_of_getElem? hu
    rw [hs.len] at hil
    by_cases h1 : i = t1
    · subst h1; rw [hs.h1] at hu; simp at hu; subst hu; rfl
    by_cases h2 : i = t2
    · subst h2; rw [hs.h2] at hu; simp at hu; subst hu; rfl
    by_cases h3 : i = ts.length
    · subst h3; rw [hs.h3] at hu; simp at hu; subst hu; rfl
    by_cases h4 : i = ts.length + 1
    · subst h4; rw [hs.h4] at hu; simp at hu; subst hu; rfl
    exfalso
    obtain ⟨u0, hu0, w1, w2, w3⟩ := hs.verts_other (by omega) h1 h2 hu
    refine hfresh ⟨i, u0, hu0, ?_⟩
    rw [hasVert_iff] at hup ⊢; rwa [w1, w2, w3] at hup
  · intro e he
    rcases pushQ_mem he with ⟨rfl, h'⟩ | he
    · exact ⟨_, hs.h2, rfl, rfl, h'⟩
    rcases pushQ_mem he with ⟨rfl, h'⟩ | he
    · exact ⟨_, hs.h1, rfl, rfl, h'⟩
    rcases pushQ_mem he with ⟨rfl, h'⟩ | he
    · exact ⟨_, hs.h4, rfl, rfl, h'⟩
    rcases pushQ_mem he with ⟨rfl, h'⟩ | he
    · exact ⟨_, hs.h3, rfl, rfl, h'⟩
    · simp at he
  · refine pushQ_nodup (pushQ_nodup (pushQ_nodup (pushQ_nodup (by simp) (by simp)) ?_) ?_) ?_
    · intro h'; rcases pushQ_map_mem h' with h' | h'
      · omega
      · simp at h'
    · intro h'; rcases pushQ_map_mem h' with h' | h'
      · omega
      rcases pushQ_map_mem h' with h' | h'
      · omega
      · simp at h'
    · intro h'; rcases pushQ_map_mem h' with h' | h'
      · exact ne h'.symm
      rcases pushQ_map_mem h' with h' | h'
      · omega
      rcases pushQ_map_mem h' with h' | h'
      · omega
      · simp at h'
  · intro i u hu hup
    have hil := lt_of_getElem? hu
    rw [hs.len] at hil
    by_cases h1 : i = t1
    · subst h1
      by_cases hn : n2 = NONE
      · right; have := hs.h1; rw [hn] at this; exact settled_none this
      · exact .inl ⟨_, pushQ_mono (mem_pushQ hn), rfl⟩
    by_cases h2 : i = t2
    · subst h2
      by_cases hn : n3 = NONE
      · right; have := hs.h2; rw [hn] at this; exact settled_none this
      · exact .inl ⟨_, mem_pushQ hn, rfl⟩
    by_cases h3 : i = ts.length
    · subst h3
      by_cases hn : n1 = NONE
      · right; have := hs.h3; rw [hn] at this; exact settled_none this
      · exact .inl ⟨_, pushQ_mono (pushQ_mono (pushQ_mono (mem_pushQ hn))), rfl⟩
    by_cases h4 : i = ts.length + 1
    · subst h4
      by_cases hn : n4 = NONE
      · right; have := hs.h4; rw [hn] at this; exact settled_none this
      · exact .inl ⟨_, pushQ_mono (pushQ_mono (mem_pushQ hn)), rfl⟩
    exfalso
    obtain ⟨u0, hu0, w1, w2, w3⟩ := hs.verts_other (by omega) h1 h2 hu
    exact hfresh ⟨i, u0, hu0, hasVert_iff.2 (.inl (w1 ▸ hup))⟩

/-- The vertices (of the unit square) are not closer to degenerate positions than `EPSILON`: coordinates
and orientations are equal, resp. zero, or differ by at least `EPSILON`. -/
structure Sep (vs : List (Vtx K)) : Prop where
  x : ∀ a ∈ vs, ∀ b ∈ vs, |a.x - b.x| < ExactParams.eps → a.x = b.x
  y : ∀ a ∈ vs, ∀ b ∈ vs, |a.y - b.y| < ExactParams.eps → a.y = b.y
  o : ∀ a ∈ vs, ∀ b ∈ vs, ∀ c ∈ vs, |(b.y - a.y) * (c.x - a.x) - (b.x - a.x) * (c.y - a.y)| < ExactParams.eps →
    (b.y - a.y) * (c.x - a.x) - (b.x - a.x) * (c.y - a.y) = 0

theorem o_fin (a b c : Vtx K) : HP.o (HP.ofVtx a) (HP.ofVtx b) (HP.ofVtx c) =
    (b.y - a.y) * (c.x - a.x) - (b.x - a.x) * (c.y - a.y) := by
  simp only [HP.o, HP.ofVtx]; ring

theorem o_semi (a p : Vtx K) (k : Fin 4) : HP.o (HP.ofVtx a) (HP.dir k) (HP.ofVtx p) =
    match k with
    | 0 => -(a.y - p.y)
    | 1 => -(a.x - p.x)
    | 2 => a.y - p.y
    | 3 => a.x - p.x := by
  fin_cases k <;> simp [HP.o, HP.ofVtx, HP.dir] <;> ring

theorem Sep.semi (h : Sep vs) {a p : Vtx K} (ha : a ∈ vs) (hp' : p ∈ vs) (k : Fin 4)
    (hlt : |HP.o (HP.ofVtx a) (HP.dir k) (HP.ofVtx p)| < ExactParams.eps) :
    HP.o (HP.ofVtx a) (HP.dir k) (HP.ofVtx p) = 0 := by
  rw [o_semi] at hlt ⊢
  fin_cases k <;> simp only [abs_neg] at hlt ⊢
  · rw [h.y a ha p hp' hlt]; simp
  · rw [h.x a ha p hp' hlt]; simp
  · rw [h.y a ha p hp' hlt]; simp
  · rw [h.x a ha p hp' hlt]; simp

/-- Separated vertices: a side that is near zero is zero. -/
theorem Sep.zero (h : Sep vs) (hn : vs.length ≤ INF0) {a b : Nat} {p : Vtx K} (hp' : p ∈ vs)
    (ha : VOk vs.length a) (hb : VOk vs.length b)
    (hf : a < INF0 ∨ b < INF0) (hlt : |HP.o (hp vs a) (hp vs b) (HP.ofVtx p)| < ExactParams.eps) :
    HP.o (hp vs a) (hp vs b) (HP.ofVtx p) = 0 := by
  by_cases haf : a < INF0
  · obtain ⟨A, _, mA, eA⟩ := getI_fin ha haf
    have mA := List.mem_of_getElem? mA
    by_cases hbf : b < INF0
    · obtain ⟨B, _, mB, eB⟩ := getI_fin hb hbf
      have mB := List.mem_of_getElem? mB
      rw [eA, eB, o_fin] at hlt ⊢
      exact h.o A mA B mB p hp' hlt
    · have hinf := hb.inf hbf hn
      obtain ⟨k, hk⟩ := infLocal_ok hinf.1 hinf.2
      rw [eA, (infLocal_hp vs hk).1] at hlt ⊢
      exact h.semi mA hp' k hlt
  · have hbf := hf.resolve_left haf
    obtain ⟨B, _, mB, eB⟩ := getI_fin hb hbf
    have mB := List.mem_of_getElem? mB
    have hinf := ha.inf haf hn
    obtain ⟨k, hk⟩ := infLocal_ok hinf.1 hinf.2
    rw [eB, (infLocal_hp vs hk).1, HP.o_swap] at hlt ⊢
    rw [abs_neg] at hlt
    rw [h.semi mB hp' k hlt, neg_zero]

theorem tooClose_iff {a b : Vtx K} :
    tooClose a b = true ↔ |a.x - b.x| < ExactParams.eps ∧ |a.y - b.y| < ExactParams.eps := by
  simp [tooClose]

theorem tooClose_self (a : Vtx K) : tooClose a a = true := by
  rw [tooClose_iff]; simp [ExactParams.eps_pos]

/-- A point on two edges of a clockwise triangle is their common vertex. -/
theorem two_zero {a b c p : HP K} (h : 0 < HP.o a b c) (h1 : HP.o a b p = 0) (h2 : HP.o b c p = 0)
    (hpw : p.w = 1) (hbw : b.w = 0 ∨ b.w = 1) : b = p := by
  have ew := HP.bary_w a b c p
  have ex := HP.bary_x a b c p
  have ey := HP.bary_y a b c p
  rw [h1, h2, hpw] at ew
  rw [h1, h2] at ex ey
  rcases hbw with hb | hb
  · rw [hb] at ew; simp at ew; exact absurd ew (ne_of_gt h)
  · rw [hb] at ew
    have ew : HP.o c a p = HP.o a b c := by linarith
    rw [ew] at ex ey
    have hx : b.x = p.x := by
      have : HP.o a b c * (b.x - p.x) = 0 := by linarith
      rcases mul_eq_zero.1 this with h' | h'
      · exact absurd h' (ne_of_gt h)
      · linarith
    have hy : b.y = p.y := by
      have : HP.o a b c * (b.y - p.y) = 0 := by linarith
      rcases mul_eq_zero.1 this with h' | h'
      · exact absurd h' (ne_of_gt h)
      · linarith
    exact HP.ext hx hy (hb.trans hpw.symm)

theorem hp_w (vs : List (Vtx K)) (i : Nat) : (hp vs i).w = 0 ∨ (hp vs i).w = 1 := by
  by_cases h : i < INF0
  · exact .inr (hp_w_fin vs h)
  · exact .inl (hp_w_inf vs h)

end

/-! ## One insertion -/

section
variable [ExactParams K] [IdCfg] {vs : List (Vtx K)}

/-- Invariant of the insertion loop. `done`: processed vertices, `ins`: those in the mesh. -/
structure DInv (vs : List (Vtx K)) (done ins : List Nat) (s : DT) : Prop where
  valid : Valid (hp vs) s.ts
  verts : VertsIn (fun v => v ∈ ins ∨ (INF0 ≤ v ∧ v ≤ INF3)) s.ts
  occ : ∀ v ∈ ins, Occ s.ts v
  sub : ∀ v ∈ ins, v ∈ done
  dlt : ∀ v ∈ done, v < vs.length
  len : s.ts.length ≤ 2 * done.length + 2
  tid : s.tid < s.ts.length
  merged : ∀ v ∈ done, v ∉ ins → ∃ x ∈ ins, ∃ a b, vs[v]? = some a ∧ vs[x]? = some b ∧
    tooClose b a = true ∧ ∀ m, s.merge = some m → m[v]? = some x
  kept : ∀ m, s.merge = some m → m.length = vs.length ∧ ∀ v, v < vs.length → (v ∉ done ∨ v ∈ ins) → m[v]? = some v

theorem DInv.ok {done ins : List Nat} {s : DT} (h : DInv vs done ins s) : VertsIn (VOk vs.length) s.ts := by
  intro t ht k
  rcases h.verts t ht k with h' | h'
  · exact .inl (h.dlt _ (h.sub _ h'))
  · exact .inr h'

theorem lastId_ok {ts : List Tri} (h0 : 0 < ts.length) (h : ts.length ≤ NONE) :
    lastId ts = .ok (ts.length - 1) := by
  unfold lastId
  rw [if_neg (by omega)]
  unfold toId
  rw [Nat.mod_eq_of_lt (by unfold NONE at h; omega)]

/-- What the end of an iteration does. -/
theorem finish_total {done ins : List Nat} {s : DT} {vid fuel : Nat} {ts1 : List Tri} {st : List (Nat × Nat)}
    (hI : DInv vs done ins s) (hn : vs.length ≤ INF0) (hvl : vid < vs.length) (hvd : vid ∉ done)
    (hstep : MStep (hp vs) s.ts ts1) (hlen1 : ts1.length = s.ts.length + 2) (hocc : Occ ts1 vid)
    (hR : RInv vs vid ts1 st) (hst : st.length ≤ 4)
    (hverts1 : VertsIn (fun v => v ∈ vid :: ins ∨ (INF0 ≤ v ∧ v ≤ INF3)) ts1)
    (hfuel : 4 + 3 * (s.ts.length + 2) ≤ fuel) (hlen : s.ts.length + 2 ≤ NONE) :
    ∃ s', finishInsert vs fuel vid s.merge (ts1, st) = .ok s' ∧ DInv vs (vid :: done) (vid :: ins) s' ∧
      s'.merge = s.merge ∧ Relation.ReflTransGen (MStep (hp vs)) s.ts s'.ts ∧ RInv vs vid s'.ts [] := by
  obtain ⟨ts2, h1, h2, h3⟩ := restore_total hn hvl fuel ts1 st hR (by rw [hlen1]; omega)
  have hl2 := restore_length h1
  have hv2 := restore_verts h1 hverts1 (.inl (by simp))
  have hsteps : Relation.ReflTransGen (MStep (hp vs)) s.ts ts2 :=
    Relation.ReflTransGen.trans (.single hstep) (flips_steps (vs := vs) h3)
  refine ⟨⟨ts2, ts2.length - 1, s.merge⟩, ?_, ?_, rfl, hsteps, h2⟩
  · simp only [finishInsert, h1, Res.ok_bind, lastId_ok (ts := ts2) (by omega) (by omega)]
  · refine ⟨h2.valid, hv2, ?_, ?_, ?_, ?_, ?_, ?_, ?_⟩
    · intro v hv
      rcases List.mem_cons.1 hv with rfl | hv
      · exact steps_occ (flips_steps (vs := vs) h3) hocc
      · exact steps_occ hsteps (hI.occ v hv)
    · intro v hv
      rcases List.mem_cons.1 hv with rfl | hv
      · simp
      · simp [hI.sub v hv]
    · intro v hv
      rcases List.mem_cons.1 hv with rfl | hv
      · exact hvl
      · exact hI.dlt v hv
    · have := hI.len; simp; omega
    · simp; omega
    · intro v hv hvi
      rcases List.mem_cons.1 hv with rfl | hv
      · simp at hvi
      · obtain ⟨x, hx, r⟩ := hI.merged v hv (fun h => hvi (by simp [h]))
        exact ⟨x, by simp [hx], r⟩
    · intro m hm
      obtain ⟨k1, k2⟩ := hI.kept m hm
      refine ⟨k1, fun v hv hc => ?_⟩
      rcases hc with hc | hc
      · exact k2 v hv (.inl (fun h => hc (by simp [h])))
      · rcases List.mem_cons.1 hc with rfl | hc
        · exact k2 _ hv (.inl hvd)
        · exact k2 v hv (.inr hc)

/-- The four outcomes of the insertion of one vertex. -/
inductive Inserted (vs : List (Vtx K)) (done ins : List Nat) (s : DT) (vid : Nat) : Res DT → Prop
  | notFound {p : Vtx K} (hp' : vs[vid]? = some p) (hf : findPlacement vs p s.tid s.ts = .ok .notFound) :
      Inserted vs done ins s vid (.err .placementNotFound)
  | merged {s' : DT} (h : DInv vs (vid :: done) ins s') (ht : s'.ts = s.ts) : Inserted vs done ins s vid (.ok s')
  | inserted {s' : DT} (h : DInv vs (vid :: done) (vid :: ins) s')
      (hs : Relation.ReflTransGen (MStep (hp vs)) s.ts s'.ts) (hr : RInv vs vid s'.ts []) :
      Inserted vs done ins s vid (.ok s')

theorem merge_inv {done ins : List Nat} {s : DT} {vid x : Nat} {a p : Vtx K} (hI : DInv vs done ins s)
    (hvl : vid < vs.length) (hvd : vid ∉ done) (hp' : vs[vid]? = some p) (hx : x ∈ ins) (ha : vs[x]? = some a)
    (hc : tooClose a p = true) : DInv vs (vid :: done) ins { s with merge := setMerge s.merge vid x } := by
  have hvi : vid ∉ ins := fun h => hvd (hI.sub _ h)
  refine ⟨hI.valid, hI.verts, hI.occ, fun v hv => by simp [hI.sub v hv], ?_, ?_, hI.tid, ?_, ?_⟩
  · intro v hv
    rcases List.mem_cons.1 hv with rfl | hv
    · exact hvl
    · exact hI.dlt v hv
  · have := hI.len; simp; omega
  · intro v hv hvi'
    rcases List.mem_cons.1 hv with rfl | hv
    · refine ⟨x, hx, p, a, hp', ha, hc, ?_⟩
      intro m hm
      simp only [setMerge, Option.map_eq_some_iff] at hm
      obtain ⟨m0, hm0, rfl⟩ := hm
      rw [List.getElem?_set_self (by rw [(hI.kept m0 hm0).1]; exact hvl)]
    · obtain ⟨x', hx', a', b', r1, r2, r3, r4⟩ := hI.merged v hv hvi'
      refine ⟨x', hx', a', b', r1, r2, r3, ?_⟩
      intro m hm
      simp only [setMerge, Option.map_eq_some_iff] at hm
      obtain ⟨m0, hm0, rfl⟩ := hm
      rw [List.getElem?_set_ne (by rintro rfl; exact hvd hv)]
      exact r4 m0 hm0
  · intro m hm
    simp only [setMerge, Option.map_eq_some_iff] at hm
    obtain ⟨m0, hm0, rfl⟩ := hm
    obtain ⟨h1, h2⟩ := hI.kept m0 hm0
    refine ⟨by simpa using h1, fun v hv hc => ?_⟩
    have hne : vid ≠ v := by
      rintro rfl
      rcases hc with hc | hc
      · exact hc (by simp)
      · exact hvi hc
    rw [List.getElem?_set_ne hne]
    exact h2 v hv (hc.imp (fun h h' => h (by simp [h'])) id)

/-- One iteration of the insertion loop with the end of the iteration as a parameter. -/
def insertWith {F : Type} [FloatOps F] (vs : List (Vtx F)) (G : List Tri × List (Nat × Nat) → Res DT) (s : DT)
    (vid : Nat) : Res DT := do
  let p ← getI vs vid
  match ← findPlacement vs p s.tid s.ts with
  | .notFound => .err .placementNotFound
  | .inside t => do
    let r ← split3 s.ts t vid
    G r
  | .onEdge t ei e => do
    let closeSrc ← if isFin e.src then do
        let a ← getI vs e.src
        pure (tooClose a p)
      else pure false
    if closeSrc then .ok { s with merge := setMerge s.merge vid e.src }
    else do
      let closeDst ← if isFin e.dst then do
          let b ← getI vs e.dst
          pure (tooClose b p)
        else pure false
      if closeDst then .ok { s with merge := setMerge s.merge vid e.dst }
      else do
        let r ← split4 s.ts t ei e vid
        G r

theorem insertVertex_with {F : Type} [FloatOps F] (vs : List (Vtx F)) (fuel : Nat) (s : DT) (vid : Nat) :
    insertVertex vs fuel s vid = insertWith vs (finishInsert vs fuel vid s.merge) s vid := rfl

/-- What an iteration does before its end. -/
inductive Shape where
  | fail
  | keep (s' : DT)
  | go (ts1 : List Tri) (st : List (Nat × Nat))

/-- The rest of the iteration. -/
def Shape.eval (G : List Tri × List (Nat × Nat) → Res DT) : Shape → Res DT
  | .fail => .err .placementNotFound
  | .keep s' => .ok s'
  | .go ts1 st => G (ts1, st)

/-- Meaning of the three shapes. -/
def Shape.Spec (vs : List (Vtx K)) (done ins : List Nat) (s : DT) (vid : Nat) : Shape → Prop
  | .fail => ∃ p, vs[vid]? = some p ∧ findPlacement vs p s.tid s.ts = .ok .notFound
  | .keep s' => DInv vs (vid :: done) ins s' ∧ s'.ts = s.ts
  | .go ts1 st => MStep (hp vs) s.ts ts1 ∧ ts1.length = s.ts.length + 2 ∧ Occ ts1 vid ∧ RInv vs vid ts1 st ∧
      st.length ≤ 4 ∧ VertsIn (fun v => v ∈ vid :: ins ∨ (INF0 ≤ v ∧ v ≤ INF3)) ts1

theorem insertWith_shape {done ins : List Nat} {s : DT} {vid : Nat} (hI : DInv vs done ins s)
    (hsep : Sep vs) (hn : vs.length ≤ INF0) (hvl : vid < vs.length) (hvd : vid ∉ done)
    (hlen : s.ts.length + 2 ≤ NONE) :
    ∃ sh : Shape, (∀ G, insertWith vs G s vid = sh.eval G) ∧ sh.Spec vs done ins s vid := by
  obtain ⟨p, hp', hgp⟩ := getI_lt hvl
  have hpm := List.mem_of_getElem? hp'
  have hvf : vid < INF0 := by omega
  have hpe : hp vs vid = HP.ofVtx p := hp_fin hvf hp'
  have hv := hI.valid
  have hok := hI.ok
  have hfresh : ¬ Occ s.ts vid := by
    rintro ⟨i, t, ht, htv⟩
    have := fun k => hI.verts.get ht k
    rw [forall_fin3] at this
    have hvi : vid ∉ ins := fun h => hvd (hI.sub _ h)
    rw [hasVert_iff] at htv
    simp only [Tri.v_0, Tri.v_1, Tri.v_2] at this
    rcases htv with h | h | h
    · rw [h] at this; rcases this.1 with h' | h'
      · exact hvi h'
      · omega
    · rw [h] at this; rcases this.2.1 with h' | h'
      · exact hvi h'
      · omega
    · rw [h] at this; rcases this.2.2 with h' | h'
      · exact hvi h'
      · omega
  have hverts : VertsIn (fun v => v ∈ vid :: ins ∨ (INF0 ≤ v ∧ v ≤ INF3)) s.ts := by
    intro t ht k
    rcases hI.verts t ht k with h | h
    · exact .inl (by simp [h])
    · exact .inr h
  have toOk : ∀ {l : List Tri}, VertsIn (fun v => v ∈ vid :: ins ∨ (INF0 ≤ v ∧ v ≤ INF3)) l → VertsIn (VOk vs.length) l := by
    intro l hl t ht k
    rcases hl t ht k with h | h
    · rcases List.mem_cons.1 h with h | h
      · exact .inl (h ▸ hvl)
      · exact .inl (hI.dlt _ (hI.sub _ h))
    · exact .inr h
  obtain ⟨pl, hpl, hspec⟩ := findPlacement_total (p := p) hn hv hok hI.tid
  unfold insertWith
  simp only [hgp, Res.ok_bind, hpl]
  cases pl with
  | notFound => exact ⟨.fail, fun _ => rfl, p, hp', hpl⟩
  | inside i =>
    obtain ⟨t, ht, hside⟩ := hspec
    obtain ⟨ts1, h1, hs⟩ := split3_total (p := vid) hv hlen ht
    simp only [h1, Res.ok_bind]
    rw [← hpe] at hside
    have hverts1 := split3_verts h1 hverts (.inl (by simp))
    refine ⟨.go _ _, fun _ => rfl, .split3 ht hs hlen hside, hs.len,
      ⟨_, _, hs.h1, hasVert_iff.2 (by simp)⟩, hs.rinv hv ht hlen hside (toOk hverts1) hfresh,
      (by
        refine le_trans (pushQ_length _ _ _) ?_
        have := pushQ_length (pushQ [] (s.ts.length + 1) t.n12) s.ts.length t.n23
        have := pushQ_length [] (s.ts.length + 1) t.n12
        simp at this ⊢; omega), hverts1⟩
  | onEdge i ei e =>
    obtain ⟨t, ht, he, hnear, hfin, hside⟩ := hspec
    have hk := hok.get ht
    have hzero : sideO (hp vs) t (HP.ofVtx p) ei = 0 := hsep.zero hn hpm (hk _) (hk _) hfin hnear
    have srcIns : isFin e.src = true → e.src ∈ ins := by
      intro h
      rw [isFin_iff] at h
      have := hI.verts.get ht ei
      rw [he] at h ⊢
      simp only at h ⊢
      rcases this with h' | h'
      · exact h'
      · omega
    have dstIns : isFin e.dst = true → e.dst ∈ ins := by
      intro h
      rw [isFin_iff] at h
      have := hI.verts.get ht (ei + 1)
      rw [he] at h ⊢
      simp only at h ⊢
      rcases this with h' | h'
      · exact h'
      · omega
    -- close to the first end
    by_cases hc1 : isFin e.src = true ∧ ∃ a, vs[e.src]? = some a ∧ tooClose a p = true
    · obtain ⟨hf1, a, ha, hca⟩ := hc1
      simp only [hf1, if_true, getI_of ha, Res.ok_bind, Res.pure_eq, hca]
      exact ⟨.keep _, fun _ => rfl, merge_inv hI hvl hvd hp' (srcIns hf1) ha hca, rfl⟩
    suffices hgoal : ∃ sh : Shape, (∀ G : List Tri × List (Nat × Nat) → Res DT, (do
        let closeDst ← if isFin e.dst then do
            let b ← getI vs e.dst
            pure (tooClose b p)
          else pure false
        if closeDst then .ok { s with merge := setMerge s.merge vid e.dst }
        else do
          let r ← split4 s.ts i ei e vid
          G r) = sh.eval G) ∧ sh.Spec vs done ins s vid by
      by_cases hf1 : isFin e.src = true
      · obtain ⟨a, ha, ha'⟩ := getI_lt (hI.dlt _ (hI.sub _ (srcIns hf1)))
        have : tooClose a p = false := by
          by_contra hcc
          exact hc1 ⟨hf1, a, ha, by simpa using hcc⟩
        simpa only [hf1, if_true, ha', Res.ok_bind, Res.pure_eq, this, Bool.false_eq_true, if_false] using hgoal
      · simpa only [hf1, if_false, Res.ok_bind, Res.pure_eq, Bool.false_eq_true] using hgoal
    by_cases hc2 : isFin e.dst = true ∧ ∃ a, vs[e.dst]? = some a ∧ tooClose a p = true
    · obtain ⟨hf1, a, ha, hca⟩ := hc2
      simp only [hf1, if_true, getI_of ha, Res.ok_bind, Res.pure_eq, hca]
      exact ⟨.keep _, fun _ => rfl, merge_inv hI hvl hvd hp' (dstIns hf1) ha hca, rfl⟩
    suffices hgoal : ∃ sh : Shape, (∀ G : List Tri × List (Nat × Nat) → Res DT, (do
          let r ← split4 s.ts i ei e vid
          G r) = sh.eval G) ∧ sh.Spec vs done ins s vid by
      by_cases hf1 : isFin e.dst = true
      · obtain ⟨a, ha, ha'⟩ := getI_lt (hI.dlt _ (hI.sub _ (dstIns hf1)))
        have : tooClose a p = false := by
          by_contra hcc
          exact hc2 ⟨hf1, a, ha, by simpa using hcc⟩
        simpa only [hf1, if_true, ha', Res.ok_bind, Res.pure_eq, this, Bool.false_eq_true, if_false] using hgoal
      · simpa only [hf1, if_false, Res.ok_bind, Res.pure_eq, Bool.false_eq_true] using hgoal
    -- the other two sides are strictly positive
    have hpos := hv.pos _ _ ht
    have hne2 : hp vs (t.v (ei + 1)) ≠ HP.ofVtx p := by
      intro h
      by_cases hf1 : t.v (ei + 1) < INF0
      · obtain ⟨b, _, hb, eb⟩ := getI_fin (hk _) hf1
        rw [eb] at h
        have : b = p := by
          cases b; cases p; simpa [HP.ofVtx] using h
        refine hc2 ⟨by rw [he]; exact isFin_iff.2 hf1, b, by rw [he]; exact hb, this ▸ tooClose_self b⟩
      · have := hp_w_inf vs hf1
        rw [h] at this
        exact absurd this (by simp [HP.ofVtx])
    have hne1 : hp vs (t.v ei) ≠ HP.ofVtx p := by
      intro h
      by_cases hf1 : t.v ei < INF0
      · obtain ⟨b, _, hb, eb⟩ := getI_fin (hk _) hf1
        rw [eb] at h
        have : b = p := by
          cases b; cases p; simpa [HP.ofVtx] using h
        refine hc1 ⟨by rw [he]; exact isFin_iff.2 hf1, b, by rw [he]; exact hb, this ▸ tooClose_self b⟩
      · have := hp_w_inf vs hf1
        rw [h] at this
        exact absurd this (by simp [HP.ofVtx])
    have hE : Has t (t.v ei) (t.v (ei + 1)) (t.n ei) := has_k t ei
    have hR : Rot t (t.v ei) (t.v (ei + 1)) (t.v (ei + 2)) (t.n ei) (t.n (ei + 1)) (t.n (ei + 2)) := by
      fin_cases ei
      · exact .inl rfl
      · exact .inr (.inl rfl)
      · exact .inr (.inr rfl)
    have hpos' := hR.pos_iff.1 hpos
    have x4 : ei + 1 + 1 = ei + 2 := by fin_cases ei <;> rfl
    have x5 : ei + 2 + 1 = ei := by fin_cases ei <;> rfl
    have hs1 : 0 < HP.o (hp vs (t.v (ei + 1))) (hp vs (t.v (ei + 2))) (HP.ofVtx p) := by
      have := hside (ei + 1)
      unfold sideO at this hzero
      rw [x4] at this
      refine lt_of_le_of_ne this (fun h0 => hne2 ?_)
      exact two_zero hpos' hzero h0.symm rfl (hp_w vs _)
    have hs2 : 0 < HP.o (hp vs (t.v (ei + 2))) (hp vs (t.v ei)) (HP.ofVtx p) := by
      have := hside (ei + 2)
      unfold sideO at this hzero
      rw [x5] at this
      refine lt_of_le_of_ne this (fun h0 => hne1 ?_)
      rw [← HP.o_cyc'] at hpos'
      exact two_zero hpos' h0.symm hzero rfl (hp_w vs _)
    have hnb : t.n ei ≠ NONE := by
      rcases hv.adj _ _ _ _ ⟨t, ht, hE⟩ with ⟨_, h1, h2⟩ | h
      · rcases hfin with h' | h'
        · exact absurd h' h1
        · exact absurd h' h2
      · exact h.1
    obtain ⟨b, hb, hbh⟩ := hv.ent_pos ⟨t, ht, hE⟩ hnb
    obtain ⟨o2, n3, n4, hRb⟩ := hbh.rot
    obtain ⟨ts1, h1, hs⟩ := split4_total (p := vid) hv hlen ht rfl rfl hR hb hRb
    rw [he]
    simp only [h1, Res.ok_bind]
    have hverts1 := split4_verts h1 hverts (.inl (by simp)) (hverts.get ht _) (hverts.get ht _)
    unfold sideO at hzero
    rw [← hpe] at hzero hs1 hs2
    refine ⟨.go _ _, fun _ => rfl, .split4 hs hlen hzero hs1 hs2, hs.len,
      ⟨_, _, hs.h1, hasVert_iff.2 (by simp)⟩, hs.rinv hv hlen hzero hs1 hs2 (toOk hverts1) hfresh,
      (by
        refine le_trans (pushQ_length _ _ _) ?_
        have := pushQ_length (pushQ (pushQ [] s.ts.length (t.n (ei + 1))) (s.ts.length + 1) n4) i (t.n (ei + 2))
        have := pushQ_length (pushQ [] s.ts.length (t.n (ei + 1))) (s.ts.length + 1) n4
        have := pushQ_length [] s.ts.length (t.n (ei + 1))
        simp at this ⊢; omega), hverts1⟩

theorem insertVertex_total {done ins : List Nat} {s : DT} {vid fuel : Nat} (hI : DInv vs done ins s)
    (hsep : Sep vs) (hn : vs.length ≤ INF0) (hvl : vid < vs.length) (hvd : vid ∉ done)
    (hfuel : 4 + 3 * (s.ts.length + 2) ≤ fuel) (hlen : s.ts.length + 2 ≤ NONE) :
    Inserted vs done ins s vid (insertVertex vs fuel s vid) := by
  obtain ⟨sh, h1, h2⟩ := insertWith_shape hI hsep hn hvl hvd hlen
  rw [insertVertex_with, h1]
  cases sh with
  | fail => obtain ⟨p, hp', hpl⟩ := h2; exact .notFound hp' hpl
  | keep s' => exact .merged h2.1 h2.2
  | go ts1 st =>
    obtain ⟨a1, a2, a3, a4, a5, a6⟩ := h2
    obtain ⟨s', f1, f2, f3, f4, f5⟩ := finish_total hI hn hvl hvd a1 a2 a3 a4 a5 a6 hfuel hlen
    simp only [Shape.eval, f1]
    exact .inserted f2 f4 f5

end

end CDT

import Verif.Geo.Outward
import Verif.Geo.OutSearch

/-! # When the border is convex after each insertion -/

set_option linter.unusedSectionVars false
set_option linter.unusedSimpArgs false
set_option linter.unusedVariables false

namespace CDT

section
variable {K : Type} [Field K] [LinearOrder K] [IsStrictOrderedRing K] [ExactParams K] [IdCfg]
variable {vs : List (Vtx K)} {ts : List Tri} {P : HP K}

/-- No vertex is outside an edge between a finite triangle and an unbounded one. -/
def HullConvex (vs : List (Vtx K)) (ts : List Tri) : Prop :=
  ∀ x y z q, TriIn ts y x z → x < INF0 → y < INF0 → ¬ z < INF0 → Occ ts q → q < INF0 → 0 ≤ HP.o (hp vs x) (hp vs y) (hp vs q)

/-- One insertion, at any place. -/
theorem insertVertex_out {done ins : List Nat} {s : DT} {vid fuel : Nat} (hI : DInv vs done ins s)
    (hsep : Sep vs) (hn : vs.length ≤ INF0) (hvl : vid < vs.length) (hvd : vid ∉ done)
    (hfuel : 4 + 3 * (s.ts.length + 2) ≤ fuel) (hlen : s.ts.length + 2 ≤ NONE) (hE : Emp vs s.ts) (ht : Tiled vs s.ts) :
    ∃ s', insertVertex vs fuel s vid = .ok s' ∧ (HullConvex vs s'.ts → Emp vs s'.ts) ∧ Tiled vs s'.ts ∧
      ∃ ins', DInv vs (vid :: done) ins' s' := by
  obtain ⟨sh, h1, h2⟩ := insertWith_shape hI hsep hn hvl hvd hlen
  rw [insertVertex_with, h1]
  cases sh with
  | fail =>
    obtain ⟨p, -, hf⟩ := h2
    exact (hE.found hn hI.valid ht hI.ok hI.tid hf).elim
  | keep s1 =>
    refine ⟨s1, rfl, fun _ => ?_, ?_, _, h2.1⟩
    · rw [h2.2]; exact hE
    · rw [h2.2]; exact ht
  | go ts1 st =>
    obtain ⟨a1, a2, a3, a4, a5, a6⟩ := h2
    obtain ⟨s2, f1, f2, f3, f4, f5⟩ := finish_total hI hn hvl hvd a1 a2 a3 a4 a5 a6 hfuel hlen
    have hvi : vid ∉ ins := fun h => hvd (hI.sub _ h)
    have hvf : vid < INF0 := by omega
    have hfresh : ¬ Occ s.ts vid := by
      rintro ⟨i, t, gt, htv⟩
      have := fun k => hI.verts.get gt k
      rw [forall_fin3] at this
      rw [hasVert_iff] at htv
      simp only [Tri.v_0, Tri.v_1, Tri.v_2] at this
      rcases htv with h | h | h
      · rw [h] at this; rcases this.1 with h' | h'
        · exact hvi h'
        · omega
      · rw [h] at this; rcases this.2.1 with h' | h'
        · exact hvi h'
        · omega
      · rw [h] at this; rcases this.2.2 with h' | h'
        · exact hvi h'
        · omega
    have hS1 := a1.starOut a2 hI.valid hfresh a3 hvf
    obtain ⟨ts2, g1, g2, g3⟩ := restore_total hn hvl fuel ts1 st a4 (by rw [a2]; omega)
    have hts : s2.ts = ts2 := by
      have hl2 := restore_length g1
      have hl3 := g2.valid.len
      simp only [finishInsert, g1, Res.ok_bind, lastId_ok (ts := ts2) (by omega) (by omega)] at f1
      simp at f1; rw [← f1]
    have hS2 := restore_out hfresh hn hvl fuel ts1 st a4 hS1 ts2 g1
    rw [← hts] at hS2
    have ht2 := tiled_steps f4 hI.valid ht
    refine ⟨s2, f1, fun hc => hE.insert_out f5 hS2 hfresh hI.valid ht2 hn hvl ?_ hc, ht2, _, f2⟩
    rw [hts]; exact steps_occ (flips_steps (vs := vs) g3) a3

/-- All insertions. -/
theorem insertAll_out {fuel : Nat} (hsep : Sep vs) (hn : 2 * vs.length + 2 ≤ NONE) (hfuel : 6 * vs.length + 10 ≤ fuel)
    (rest done ins : List Nat) (s : DT) (hI : DInv vs done ins s) (hnd : rest.Nodup) (hdis : ∀ v ∈ rest, v ∉ done)
    (hlt : ∀ v ∈ rest, v < vs.length) (hcard : done.length + rest.length ≤ vs.length) (hE : Emp vs s.ts) (ht : Tiled vs s.ts)
    (hc : ∀ k s', insertAll vs fuel (rest.take k) s = .ok s' → HullConvex vs s'.ts) :
    ∃ s', insertAll vs fuel rest s = .ok s' ∧ Emp vs s'.ts := by
  induction rest generalizing done ins s with
  | nil => exact ⟨s, rfl, hE⟩
  | cons v rest ih =>
    have hl := hI.len
    simp only [List.length_cons] at hcard
    rw [List.nodup_cons] at hnd
    obtain ⟨s1, h1, e1, e3, ins', e4⟩ := insertVertex_out hI hsep
      (by unfold NONE at hn; unfold INF0; have := IdCfg.big; omega) (hlt v (by simp)) (hdis v (by simp)) (by omega) (by omega)
      (fuel := fuel) hE ht
    obtain ⟨s', r1, r2⟩ := ih _ _ s1 e4 hnd.2 (by
        intro w hw hc
        rcases List.mem_cons.1 hc with rfl | hc
        · exact hnd.1 hw
        · exact hdis w (by simp [hw]) hc)
      (fun w hw => hlt w (by simp [hw])) (by simp; omega) (e1 (hc 1 s1 (by simp [insertAll, h1]))) e3
      (fun k s' hk => hc (k + 1) s' (by simp only [List.take_succ_cons, insertAll, h1, Res.ok_bind]; exact hk))
    exact ⟨s', by simp only [insertAll, h1, Res.ok_bind]; exact r1, r2⟩

/-- Around the first vertex there are no finite triangles and no links. -/
theorem initial_two {first a b c : Nat} (h : TriIn (initialTriangles first) a b c) (ha : a < INF0) (hb : b < INF0) : False := by
  have hB := IdCfg.big
  obtain ⟨i, T, _, _, _, hT, hR⟩ := h
  have e : INF0 ≤ INF1 ∧ INF0 ≤ INF2 ∧ INF0 ≤ INF3 := by unfold INF0 INF1 INF2 INF3; omega
  rcases i with _ | _ | _ | _ | i <;> simp [initialTriangles] at hT <;> subst hT <;>
    rcases hR with e' | e' | e' <;> simp only [Tri.mk.injEq] at e' <;> omega

theorem initial_emp (first : Nat) : Emp vs (initialTriangles first) where
  circ := fun a b c q h ha hb => (initial_two h ha hb).elim
  hull := fun x y z q h hx hy => (initial_two h hy hx).elim

/-- Where a vertex is outside the border, a part of the triangle of this vertex and the ends of the edge is not covered. -/
theorem hull_gap (hv : Valid (hp vs) ts) (ht : Tiled vs ts) (h : ¬ HullConvex vs ts) :
    ∃ a b c : Nat, (Occ ts a ∧ a < INF0) ∧ (Occ ts b ∧ b < INF0) ∧ (Occ ts c ∧ c < INF0) ∧
      ∃ P : HP K, P.w = 1 ∧ In3 (hp vs a) (hp vs b) (hp vs c) P ∧
        ∀ (k : Nat) (T : Tri), ts[k]? = some T → T.v1 < INF0 → T.v2 < INF0 → T.v3 < INF0 →
          ¬ (0 ≤ HP.o (hp vs T.v1) (hp vs T.v2) P ∧ 0 ≤ HP.o (hp vs T.v2) (hp vs T.v3) P ∧ 0 ≤ HP.o (hp vs T.v3) (hp vs T.v1) P) := by
  unfold HullConvex at h
  push Not at h
  obtain ⟨a, b, c, q, hT, fa, fb, fc, oq, fq, ho⟩ := h
  refine ⟨b, a, q, ⟨hT.occ, fb⟩, ⟨hT.next.occ, fa⟩, ⟨oq, fq⟩, ?_⟩
  by_contra hcon
  push Not at hcon
  have pos := hT.pos hv
  have wa := hp_w_fin vs fa
  have wb := hp_w_fin vs fb
  have wq := hp_w_fin vs fq
  have ho' : 0 < HP.o (hp vs b) (hp vs a) (hp vs q) := by rw [HP.o_swap]; linarith
  let M : HP K := ⟨((hp vs a).x + (hp vs b).x) / 2, ((hp vs a).y + (hp vs b).y) / 2, 1⟩
  have o1 : HP.o (hp vs b) (hp vs a) M = 0 := by simp only [M, HP.o, wa, wb]; ring
  have o2 : HP.o (hp vs a) (hp vs c) M = HP.o (hp vs b) (hp vs a) (hp vs c) / 2 := by simp only [M, HP.o, wa, wb]; ring
  have o3 : HP.o (hp vs c) (hp vs b) M = HP.o (hp vs b) (hp vs a) (hp vs c) / 2 := by simp only [M, HP.o, wa, wb]; ring
  have o4 : HP.o (hp vs a) (hp vs q) M = HP.o (hp vs b) (hp vs a) (hp vs q) / 2 := by simp only [M, HP.o, wa, wb]; ring
  have o5 : HP.o (hp vs q) (hp vs b) M = HP.o (hp vs b) (hp vs a) (hp vs q) / 2 := by simp only [M, HP.o, wa, wb]; ring
  obtain ⟨d1, hd1, n1⟩ := HP.pull_near (a := hp vs a) (b := hp vs c) (P := M) (A := hp vs q) (by rw [o2]; linarith)
  obtain ⟨d2, hd2, n2⟩ := HP.pull_near (a := hp vs c) (b := hp vs b) (P := M) (A := hp vs q) (by rw [o3]; linarith)
  obtain ⟨e, he, hed⟩ := exists_between (lt_min one_pos (lt_min hd1 hd2))
  simp only [lt_min_iff] at hed
  have l1 : 0 < HP.o (hp vs b) (hp vs a) (M.pull (hp vs q) e) := by
    rw [HP.o_pull, o1]; have := mul_pos he ho'; linarith
  have hM : M.w = 1 := rfl
  refine cover_far (E := [(hp vs b, hp vs a), (hp vs a, hp vs q), (hp vs q, hp vs b)]) (P := M.pull (hp vs q) e) hv ht ?_
    ⟨HP.pull_w hM e, ?_⟩ hT (fun hh => not_lt.2 fc hh.2.2) l1.le (n1 e he hed.2.1).le (n2 e he hed.2.2).le
  · rintro P ⟨hw, hP⟩
    simp only [List.mem_cons, List.not_mem_nil, or_false, forall_eq_or_imp, forall_eq] at hP
    obtain ⟨k, T, gT, f1, f2, f3, hin⟩ := hcon P hw ⟨hP.1, hP.2.1, hP.2.2⟩
    exact ⟨k, T, gT, f1, f2, f3, hin⟩
  · have hc1 : 0 < 1 - e * (hp vs q).w := by rw [wq]; linarith [hed.1]
    have := mul_pos hc1 ho'
    simp only [List.mem_cons, List.not_mem_nil, or_false, forall_eq_or_imp, forall_eq]
    refine ⟨l1, ?_, ?_⟩ <;> rw [HP.o_pull]
    · rw [o4, HP.o_same']; linarith
    · rw [o5, HP.o_same'']; linarith

end

end CDT

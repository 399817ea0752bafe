import Verif.Geo.Box
import Verif.Props.Present
import Mathlib.Data.Finset.Max

/-! # Meshes whose corners have an extreme coordinate -/

set_option linter.unusedSectionVars false
set_option linter.unusedSimpArgs false
set_option linter.unusedVariables false

namespace CDT

section
variable {K : Type} [Field K] [LinearOrder K] [IsStrictOrderedRing K] [ExactParams K] [IdCfg]
variable {vs : List (Vtx K)} {ts : List Tri}

theorem dir_along (k : Fin 4) (P : HP K) : (HP.dir k).along P = - (HP.dir (k + 1)).out P := by
  fin_cases k <;> simp [HP.along, HP.out, HP.dir]

theorem dir_along' (k : Fin 4) (P : HP K) : (HP.dir k).along P = (HP.dir (k + 3)).out P := by
  fin_cases k <;> simp [HP.along, HP.out, HP.dir]

theorem fin_add31 (k : Fin 4) : k + 3 + 1 = k := by fin_cases k <;> rfl

/-- The apex of an unbounded triangle with two artificial vertices. -/
theorem cone_dir (hv : Valid (hp vs) ts) {k l : Fin 4} {v : Nat} (hTri : TriIn ts v (INF0 + k) (INF0 + l)) : v < INF0 ∧ l = k + 1 := by
  have hpos := hTri.pos hv
  have fv : v < INF0 := by
    by_contra hc
    rw [HP.o_inf3 (hp_w_inf vs hc) (hp_w_inf vs (inf_ge k)) (hp_w_inf vs (inf_ge _))] at hpos
    exact lt_irrefl _ hpos
  have wv := hp_w_fin vs fv
  refine ⟨fv, ?_⟩
  rw [hp_inf, hp_inf] at hpos
  have z : ¬ (0 : K) < -1 := by norm_num
  fin_cases k <;> fin_cases l <;> simp [HP.o, HP.dir, wv] at hpos ⊢
  all_goals first | rfl | exact absurd hpos (by norm_num)

/-- There is no other vertex in the quadrant of the apex. -/
theorem cone_empty (hv : Valid (hp vs) ts) (ht : Tiled vs ts) {k : Fin 4} {v q : Nat} (hTri : TriIn ts v (INF0 + k) (INF0 + (k + 1 : Fin 4)))
    (hq : Occ ts q) (fq : q < INF0) (h1 : (HP.dir k).out (hp vs v) ≤ (HP.dir k).out (hp vs q))
    (h2 : (HP.dir (k + 1)).out (hp vs v) ≤ (HP.dir (k + 1)).out (hp vs q)) : q = v := by
  have fv := (cone_dir hv hTri).1
  have wv := hp_w_fin vs fv
  have wq := hp_w_fin vs fq
  obtain ⟨i, T, j1, j2, j3, hT, hR⟩ := hTri
  have := vert_of_in hv ht fq hq hT hR
    (by rw [hp_inf]; fin_cases k <;> simp [HP.o, HP.dir, HP.out, wv, wq] at h1 h2 ⊢ <;> linarith)
    (by rw [hp_inf, hp_inf]; fin_cases k <;> simp [HP.o, HP.dir, wq])
    (by rw [hp_inf]; fin_cases k <;> simp [HP.o, HP.dir, HP.out, wv, wq] at h1 h2 ⊢ <;> linarith)
  rw [hR.hasVert] at this
  rcases this with rfl | rfl | rfl
  · rfl
  · exact absurd fq (inf_ge _)
  · exact absurd fq (inf_ge _)

theorem cone_get (hv : Valid (hp vs) ts) (hout : ∀ k : Fin 4, ∃ i, Ent ts i (INF0 + k) (INF0 + (k + 1 : Fin 4)) NONE) (k : Fin 4) :
    ∃ v, v < INF0 ∧ TriIn ts v (INF0 + k) (INF0 + (k + 1 : Fin 4)) := by
  obtain ⟨i, T, hT, hh⟩ := hout k
  obtain ⟨v, j2, j3, hR⟩ := hh.rot
  have hTri : TriIn ts (INF0 + k) (INF0 + (k + 1 : Fin 4)) v := ⟨i, T, _, _, _, hT, hR⟩
  exact ⟨v, (cone_dir hv hTri.next.next).1, hTri.next.next⟩

/-- The chain in the direction `k` starts at the apex between `k` and `k + 1`. -/
theorem chain_start (hv : Valid (hp vs) ts) (ht : Tiled vs ts) {k : Fin 4} {v u d : Nat} (hTri : TriIn ts v (INF0 + k) (INF0 + (k + 1 : Fin 4)))
    (hN : chN ts (INF0 + k) u d) (fu : u < INF0) : (HP.dir k).along (hp vs v) ≤ (HP.dir k).along (hp vs u) := by
  have ok := chain_ok hv ht (inf_ge k)
  obtain ⟨e, he⟩ := ok.prev _ _ hN fu
  by_contra hc
  rw [not_le] at hc
  have hlt : chT vs (INF0 + k) u < chT vs (INF0 + k) v := by simpa only [chT, hp_inf] using hc
  have := (ok.hit (u := INF0 + (k + 1 : Fin 4)) (v := v) hTri.next.next he fu (fun h => absurd h (inf_ge _)) (fun _ => hlt.le)).2
  subst this
  exact lt_irrefl _ hlt

/-- And it ends at the apex between `k - 1` and `k`. -/
theorem chain_end (hv : Valid (hp vs) ts) (ht : Tiled vs ts) {k : Fin 4} {v u d : Nat} (hTri : TriIn ts v (INF0 + (k + 3 : Fin 4)) (INF0 + k))
    (hN : chN ts (INF0 + k) u d) (fu : u < INF0) : (HP.dir k).along (hp vs u) ≤ (HP.dir k).along (hp vs v) := by
  have ok := chain_ok hv ht (inf_ge k)
  by_contra hc
  rw [not_le] at hc
  have hlt : chT vs (INF0 + k) v < chT vs (INF0 + k) u := by simpa only [chT, hp_inf] using hc
  have := (ok.mirror.hit (u := INF0 + (k + 3 : Fin 4)) (v := v) hTri hN fu (fun h => absurd h (inf_ge _)) (fun _ => neg_le_neg hlt.le)).2
  subst this
  exact lt_irrefl _ hlt

/-- A vertex between the ends of the chain is not outside any link. -/
theorem range_below (hv : Valid (hp vs) ts) (ht : Tiled vs ts) (hC : Convexish vs ts)
    (hinf : ∀ q, Occ ts q → ¬ q < INF0 → ∃ k : Fin 4, q = INF0 + k) {k : Fin 4} {v v' b a p : Nat}
    (hT : TriIn ts b a (INF0 + k)) (hb : b < INF0) (ha : a < INF0)
    (h1 : TriIn ts v (INF0 + k) (INF0 + (k + 1 : Fin 4))) (h2 : TriIn ts v' (INF0 + (k + 3 : Fin 4)) (INF0 + k))
    (hp0 : Occ ts p) (fp : p < INF0) (l1 : (HP.dir k).along (hp vs v) ≤ (HP.dir k).along (hp vs p))
    (l2 : (HP.dir k).along (hp vs p) ≤ (HP.dir k).along (hp vs v')) : HP.o (hp vs b) (hp vs a) (hp vs p) ≤ 0 := by
  classical
  have zi := inf_ge k
  have zu := hp_unit vs zi
  rw [hp_inf] at zu
  have ok := chain_ok hv ht zi
  have fv := (cone_dir hv h1).1
  have wb := hp_w_fin vs hb
  have wa := hp_w_fin vs ha
  have wp := hp_w_fin vs fp
  have hab : (HP.dir k).along (hp vs b) < (HP.dir k).along (hp vs a) := by
    simpa only [chT, hp_inf] using ok.mono _ _ hT hb ha
  have below : ∀ {c d}, chN ts (INF0 + k) c d → c < INF0 → HP.o (hp vs b) (hp vs a) (hp vs c) ≤ 0 := by
    intro c d hN fc
    have := hC _ zi b a c hT hb ha fc ⟨d, hN⟩
    simp only [Chain.Below, chT, chS, hp_inf] at this
    rw [HP.o_out wb wa (hp_w_fin vs fc) zu]
    exact sub_nonpos.2 this
  let A := (Finset.range INF0).filter fun v => (∃ d, chN ts (INF0 + k) v d) ∧ (HP.dir k).along (hp vs v) ≤ (HP.dir k).along (hp vs p)
  have hA : ∀ {v}, v ∈ A ↔ v < INF0 ∧ (∃ d, chN ts (INF0 + k) v d) ∧ (HP.dir k).along (hp vs v) ≤ (HP.dir k).along (hp vs p) := by
    intro v; simp [A]
  obtain ⟨m, hm, hmax⟩ := Finset.exists_max_image A (fun v => (HP.dir k).along (hp vs v))
    ⟨v, hA.2 ⟨fv, ok.next (INF0 + (k + 1 : Fin 4)) v h1.next.next fv, l1⟩⟩
  obtain ⟨fm, ⟨d, hd⟩, hmp⟩ := hA.1 hm
  have hd' : TriIn ts m d (INF0 + k) := hd
  have wm := hp_w_fin vs fm
  have bm := below hd fm
  by_cases fd : d < INF0
  · obtain ⟨d2, hd2⟩ := ok.next _ _ hd fd
    have bd := below hd2 fd
    have wd := hp_w_fin vs fd
    have hpd : (HP.dir k).along (hp vs p) < (HP.dir k).along (hp vs d) := by
      by_contra hc
      have := hmax d (hA.2 ⟨fd, ⟨d2, hd2⟩, not_lt.1 hc⟩)
      have hlt : (HP.dir k).along (hp vs m) < (HP.dir k).along (hp vs d) := by
        simpa only [chT, hp_inf] using ok.mono _ _ hd fm fd
      linarith
    rcases le_or_gt 0 (HP.o (hp vs m) (hp vs d) (hp vs p)) with hc | hc
    · obtain ⟨i, T, j1, j2, j3, hT', hR⟩ := hd'
      have wz := hp_w_inf vs zi
      rw [hp_inf] at wz
      have := vert_of_in hv ht fp hp0 hT' hR hc
        (by rw [hp_inf, HP.o_cyc (hp vs p) (hp vs d), HP.o_along wp wd wz]; linarith)
        (by rw [hp_inf, HP.o_cyc' (hp vs m) (hp vs p), HP.o_along wm wp wz]; linarith)
      rcases hR.hasVert.1 this with rfl | rfl | rfl
      · exact bm
      · exact bd
      · exact absurd fp zi
    · rw [HP.o_out wm wd wp zu] at hc
      rw [HP.o_out wb wa wm zu] at bm
      rw [HP.o_out wb wa wd zu] at bd
      rw [HP.o_out wb wa wp zu]
      generalize (HP.dir k).along (hp vs b) = tb at *
      generalize (HP.dir k).along (hp vs a) = ta at *
      generalize (HP.dir k).along (hp vs m) = tm at *
      generalize (HP.dir k).along (hp vs d) = td at *
      generalize (HP.dir k).along (hp vs p) = tp at *
      generalize (HP.dir k).out (hp vs b) = sb at *
      generalize (HP.dir k).out (hp vs a) = sa at *
      generalize (HP.dir k).out (hp vs m) = sm at *
      generalize (HP.dir k).out (hp vs d) = sd at *
      generalize (HP.dir k).out (hp vs p) = sp at *
      have e : (td - tm) * ((sp - sb) * (ta - tb) - (sa - sb) * (tp - tb)) =
          (td - tp) * ((sm - sb) * (ta - tb) - (sa - sb) * (tm - tb)) + (tp - tm) * ((sd - sb) * (ta - tb) - (sa - sb) * (td - tb)) +
            (ta - tb) * ((sp - sm) * (td - tm) - (sd - sm) * (tp - tm)) := by ring
      have m1 := mul_nonpos_of_nonneg_of_nonpos (sub_pos.2 hpd).le bm
      have m2 := mul_nonpos_of_nonneg_of_nonpos (sub_nonneg.2 hmp) bd
      have m3 := mul_neg_of_pos_of_neg (sub_pos.2 hab) hc
      by_contra hn
      have := mul_pos (sub_pos.2 (hmp.trans_lt hpd)) (not_le.1 hn)
      linarith
  · obtain ⟨l, rfl⟩ := hinf d hd'.next.occ fd
    obtain ⟨-, el⟩ := cone_dir hv hd'
    have el : l = k + 3 := by rw [el]; fin_cases l <;> rfl
    subst el
    have e1 : (HP.dir k).along (hp vs v') ≤ (HP.dir k).along (hp vs m) := chain_end hv ht hd' h2 (cone_dir hv h2).1
    have e2 : (HP.dir k).along (hp vs p) = (HP.dir k).along (hp vs m) := le_antisymm (l2.trans e1) hmp
    rcases le_or_gt ((HP.dir k).out (hp vs m)) ((HP.dir k).out (hp vs p)) with hs | hs
    · have h3 : TriIn ts m (INF0 + (k + 3 : Fin 4)) (INF0 + (k + 3 + 1 : Fin 4)) := by rw [fin_add31]; exact hd'
      have := cone_empty hv ht h3 hp0 fp (by rw [← dir_along', ← dir_along', e2]) (by rw [fin_add31]; exact hs)
      subst this
      exact bm
    · rw [HP.o_out wb wa wm zu] at bm
      rw [HP.o_out wb wa wp zu, e2]
      have := mul_pos (sub_pos.2 hs) (sub_pos.2 hab)
      nlinarith

/-- Every vertex with no other vertex in its closed quadrant `k` has an extreme coordinate. -/
def Extreme (vs : List (Vtx K)) (ts : List Tri) (k : Fin 4) : Prop := ∀ v, Occ ts v → v < INF0 →
    (∀ q, Occ ts q → q < INF0 → (HP.dir k).out (hp vs v) ≤ (HP.dir k).out (hp vs q) →
      (HP.dir (k + 1)).out (hp vs v) ≤ (HP.dir (k + 1)).out (hp vs q) → q = v) →
    (∀ q, Occ ts q → q < INF0 → (HP.dir k).out (hp vs q) ≤ (HP.dir k).out (hp vs v)) ∨
    ∀ q, Occ ts q → q < INF0 → (HP.dir (k + 1)).out (hp vs q) ≤ (HP.dir (k + 1)).out (hp vs v)

/-- The links of a chain are not above its vertices. -/
theorem link_below (hC : Convexish vs ts) {k : Fin 4} {b a c d : Nat} (hT : TriIn ts b a (INF0 + k)) (hb : b < INF0) (ha : a < INF0)
    (hN : chN ts (INF0 + k) c d) (fc : c < INF0) : HP.o (hp vs b) (hp vs a) (hp vs c) ≤ 0 := by
  have zu := hp_unit vs (inf_ge k)
  rw [hp_inf] at zu
  have := hC _ (inf_ge k) b a c hT hb ha fc ⟨d, hN⟩
  simp only [Chain.Below, chT, chS, hp_inf] at this
  rw [HP.o_out (hp_w_fin vs hb) (hp_w_fin vs ha) (hp_w_fin vs fc) zu]
  exact sub_nonpos.2 this

theorem link_lt (hv : Valid (hp vs) ts) (ht : Tiled vs ts) {k : Fin 4} {b a : Nat} (hT : TriIn ts b a (INF0 + k)) (hb : b < INF0)
    (ha : a < INF0) : (HP.dir k).along (hp vs b) < (HP.dir k).along (hp vs a) := by
  simpa only [chT, hp_inf] using (chain_ok hv ht (inf_ge k)).mono _ _ hT hb ha

/-- Before the first vertex of a chain. -/
theorem Extreme.start {k : Fin 4} (hE : Extreme vs ts k) (hv : Valid (hp vs) ts) (ht : Tiled vs ts) (hC : Convexish vs ts) {b a p v : Nat}
    (hT : TriIn ts b a (INF0 + k)) (hb : b < INF0) (ha : a < INF0) (hp0 : Occ ts p) (fp : p < INF0)
    (h1 : TriIn ts v (INF0 + k) (INF0 + (k + 1 : Fin 4))) (l1 : (HP.dir k).along (hp vs p) < (HP.dir k).along (hp vs v)) :
    HP.o (hp vs b) (hp vs a) (hp vs p) ≤ 0 := by
  have zu := hp_unit vs (inf_ge k)
  rw [hp_inf] at zu
  have ok := chain_ok hv ht (inf_ge k)
  have fv := (cone_dir hv h1).1
  have E1 := hE v h1.occ fv fun q oq fq => cone_empty hv ht h1 oq fq
  have wb := hp_w_fin vs hb
  have wa := hp_w_fin vs ha
  have wp := hp_w_fin vs fp
  have hab := link_lt hv ht hT hb ha
  have hb0 := chain_start hv ht h1 (show chN ts (INF0 + k) b a from hT) hb
  by_contra hc
  rw [not_le] at hc
  obtain ⟨d, hd⟩ := ok.next (INF0 + (k + 1 : Fin 4)) v h1.next.next fv
  have bv := link_below hC hT hb ha hd fv
  have ex := E1.resolve_right (fun h => by
    have := h p hp0 fp
    rw [dir_along, dir_along] at l1
    linarith)
  have x1 := ex p hp0 fp
  have x2 := ex a hT.next.occ ha
  rw [HP.o_out wb wa (hp_w_fin vs fv) zu] at bv
  rw [HP.o_out wb wa wp zu] at hc
  clear E1 ex
  generalize (HP.dir k).along (hp vs b) = tb at *
  generalize (HP.dir k).along (hp vs a) = ta at *
  generalize (HP.dir k).along (hp vs v) = tv at *
  generalize (HP.dir k).along (hp vs p) = tp at *
  generalize (HP.dir k).out (hp vs b) = sb at *
  generalize (HP.dir k).out (hp vs a) = sa at *
  generalize (HP.dir k).out (hp vs v) = sv at *
  generalize (HP.dir k).out (hp vs p) = sp at *
  have hd := sub_pos.2 hab
  rcases le_or_gt sa sb with hs | hs
  · have := mul_nonneg (sub_nonneg.2 hs) (sub_pos.2 l1).le
    have := mul_nonneg (sub_nonneg.2 x1) hd.le
    nlinarith
  · have := mul_pos (sub_pos.2 hs) hd
    have := mul_nonneg (sub_nonneg.2 x2) hd.le
    have := mul_nonneg (sub_pos.2 hs).le (sub_nonneg.2 hb0)
    nlinarith

/-- After the last vertex of a chain. -/
theorem Extreme.end {k : Fin 4} (hE : Extreme vs ts (k + 3)) (hv : Valid (hp vs) ts) (ht : Tiled vs ts) (hC : Convexish vs ts) {b a p v' : Nat}
    (hT : TriIn ts b a (INF0 + k)) (hb : b < INF0) (ha : a < INF0) (hp0 : Occ ts p) (fp : p < INF0)
    (h2 : TriIn ts v' (INF0 + (k + 3 : Fin 4)) (INF0 + k)) (l2 : (HP.dir k).along (hp vs v') < (HP.dir k).along (hp vs p)) :
    HP.o (hp vs b) (hp vs a) (hp vs p) ≤ 0 := by
  have zu := hp_unit vs (inf_ge k)
  rw [hp_inf] at zu
  have ok := chain_ok hv ht (inf_ge k)
  have fv' := (cone_dir hv h2).1
  have h2' : TriIn ts v' (INF0 + (k + 3 : Fin 4)) (INF0 + (k + 3 + 1 : Fin 4)) := by rw [fin_add31]; exact h2
  have E2 := hE v' h2.occ fv' fun q oq fq => cone_empty hv ht h2' oq fq
  rw [fin_add31] at E2
  have wb := hp_w_fin vs hb
  have wa := hp_w_fin vs ha
  have wp := hp_w_fin vs fp
  have hab := link_lt hv ht hT hb ha
  obtain ⟨a2, hN2⟩ := ok.next _ _ hT ha
  have ha0 := chain_end hv ht h2 hN2 ha
  by_contra hc
  rw [not_le] at hc
  have bv := link_below hC hT hb ha (show chN ts (INF0 + k) v' _ from h2) fv'
  have ex := E2.resolve_left (fun h => by
    have := h p hp0 fp
    rw [dir_along', dir_along'] at l2
    linarith)
  have x1 := ex p hp0 fp
  have x2 := ex b hT.occ hb
  rw [HP.o_out wb wa (hp_w_fin vs fv') zu] at bv
  rw [HP.o_out wb wa wp zu] at hc
  clear E2 ex
  generalize (HP.dir k).along (hp vs b) = tb at *
  generalize (HP.dir k).along (hp vs a) = ta at *
  generalize (HP.dir k).along (hp vs v') = tv at *
  generalize (HP.dir k).along (hp vs p) = tp at *
  generalize (HP.dir k).out (hp vs b) = sb at *
  generalize (HP.dir k).out (hp vs a) = sa at *
  generalize (HP.dir k).out (hp vs v') = sv at *
  generalize (HP.dir k).out (hp vs p) = sp at *
  have hd := sub_pos.2 hab
  rcases le_or_gt sb sa with hs | hs
  · have := mul_nonneg (sub_nonneg.2 hs) (sub_pos.2 l2).le
    have := mul_nonneg (sub_nonneg.2 x1) hd.le
    nlinarith
  · have := mul_pos (sub_pos.2 hs) hd
    have := mul_nonneg (sub_nonneg.2 x2) hd.le
    have := mul_nonneg (sub_pos.2 hs).le (sub_nonneg.2 ha0)
    nlinarith

/-- Every vertex with no other vertex in one of its closed quadrants has an extreme coordinate. -/
structure CornerMesh (vs : List (Vtx K)) (ts : List Tri) : Prop where
  outer : ∀ k : Fin 4, ∃ i, Ent ts i (INF0 + k) (INF0 + (k + 1 : Fin 4)) NONE
  extreme : ∀ k : Fin 4, Extreme vs ts k

/-- Then no vertex is outside a link of a chain. -/
theorem CornerMesh.below (hM : CornerMesh vs ts) (hv : Valid (hp vs) ts) (ht : Tiled vs ts) (hC : Convexish vs ts)
    (hinf : ∀ q, Occ ts q → ¬ q < INF0 → ∃ k : Fin 4, q = INF0 + k) {k : Fin 4} {b a p : Nat}
    (hT : TriIn ts b a (INF0 + k)) (hb : b < INF0) (ha : a < INF0) (hp0 : Occ ts p) (fp : p < INF0) :
    HP.o (hp vs b) (hp vs a) (hp vs p) ≤ 0 := by
  obtain ⟨v, fv, h1⟩ := cone_get hv hM.outer k
  obtain ⟨v', fv', h2⟩ := cone_get hv hM.outer (k + 3)
  rw [fin_add31] at h2
  rcases lt_or_ge ((HP.dir k).along (hp vs p)) ((HP.dir k).along (hp vs v)) with l1 | l1
  · exact (hM.extreme k).start hv ht hC hT hb ha hp0 fp h1 l1
  · rcases lt_or_ge ((HP.dir k).along (hp vs v')) ((HP.dir k).along (hp vs p)) with l2 | l2
    · exact (hM.extreme (k + 3)).end hv ht hC hT hb ha hp0 fp h2 l2
    · exact range_below hv ht hC hinf hT hb ha h1 h2 hp0 fp l1 l2

/-- Three vertices that are not on a line give a triangle without artificial vertices. -/
theorem CornerMesh.finite (hM : CornerMesh vs ts) (hv : Valid (hp vs) ts) (ht : Tiled vs ts) (hC : Convexish vs ts)
    (hinf : ∀ q, Occ ts q → ¬ q < INF0 → ∃ k : Fin 4, q = INF0 + k) {p q r : Nat} (op : Occ ts p) (oq : Occ ts q) (or : Occ ts r)
    (fp : p < INF0) (fq : q < INF0) (fr : r < INF0) (hne : HP.o (hp vs p) (hp vs q) (hp vs r) ≠ 0) :
    ∃ a b c, TriIn ts a b c ∧ a < INF0 ∧ b < INF0 ∧ c < INF0 := by
  by_contra hno
  -- no links
  have nolink : ∀ {b a : Nat} {k : Fin 4}, TriIn ts b a (INF0 + k) → b < INF0 → a < INF0 → False := by
    intro b a k hT hb ha
    have wb := hp_w_fin vs hb
    have wa := hp_w_fin vs ha
    have zu := hp_unit vs (inf_ge k)
    rw [hp_inf] at zu
    have hab : (HP.dir k).along (hp vs b) < (HP.dir k).along (hp vs a) := by
      simpa only [chT, hp_inf] using (chain_ok hv ht (inf_ge k)).mono _ _ hT hb ha
    obtain ⟨i, T, _, _, _, hT', hR⟩ := id hT
    obtain ⟨d, hd⟩ : ∃ d, TriIn ts a b d := by
      rcases hv.adj _ _ _ _ ⟨T, hT', hR.has1⟩ with ⟨_, h, _⟩ | ⟨_, U, hU, hh⟩
      · exact absurd hb h
      · obtain ⟨d, _, _, hRU⟩ := hh.rot
        exact ⟨d, _, U, _, _, _, hU, hRU⟩
    have fd : ¬ d < INF0 := fun fd => hno ⟨a, b, d, hd, ha, hb, fd⟩
    obtain ⟨l, rfl⟩ := hinf d hd.next.next.occ fd
    have key : ∀ {p}, Occ ts p → p < INF0 → HP.o (hp vs b) (hp vs a) (hp vs p) = 0 := by
      intro p op fp
      have h1 := hM.below hv ht hC hinf hT hb ha op fp
      have h2 := hM.below hv ht hC hinf hd ha hb op fp
      rw [HP.o_swap] at h2
      linarith
    have k1 := key op fp
    have k2 := key oq fq
    have k3 := key or fr
    rw [HP.o_out wb wa (hp_w_fin vs fp) zu] at k1
    rw [HP.o_out wb wa (hp_w_fin vs fq) zu] at k2
    rw [HP.o_out wb wa (hp_w_fin vs fr) zu] at k3
    rw [HP.o_out (hp_w_fin vs fp) (hp_w_fin vs fq) (hp_w_fin vs fr) zu] at hne
    apply hne
    have hd := (sub_pos.2 hab).ne'
    apply (mul_eq_zero.1 ?_).resolve_left hd
    linear_combination (((HP.dir k).along (hp vs q)) - ((HP.dir k).along (hp vs p))) * (k3 - k1) -
      (((HP.dir k).along (hp vs r)) - ((HP.dir k).along (hp vs p))) * (k2 - k1)
  have step : ∀ {c : Nat} {k : Fin 4}, TriIn ts c (INF0 + k) (INF0 + (k + 1 : Fin 4)) →
      TriIn ts c (INF0 + (k + 3 : Fin 4)) (INF0 + (k + 3 + 1 : Fin 4)) := by
    intro c k hT
    have fc := (cone_dir hv hT).1
    obtain ⟨d, hd⟩ := (chain_ok hv ht (inf_ge k)).next (INF0 + (k + 1 : Fin 4)) c hT.next.next fc
    have hd : TriIn ts c d (INF0 + k) := hd
    have fd : ¬ d < INF0 := fun fd => nolink hd fc fd
    obtain ⟨l, rfl⟩ := hinf d hd.next.occ fd
    obtain ⟨-, el⟩ := cone_dir hv hd
    have el : l = k + 3 := by rw [el]; fin_cases l <;> rfl
    subst el
    rw [fin_add31]
    exact hd
  obtain ⟨c, fc, h0⟩ := cone_get hv hM.outer 0
  have h3 := step h0
  have h2 := step h3
  have h1 := step h2
  have all : ∀ {p}, Occ ts p → p < INF0 → p = c := by
    intro p op fp
    have wc := hp_w_fin vs fc
    have wp := hp_w_fin vs fp
    have c0 := cone_empty hv ht h0 op fp
    have c1 := cone_empty hv ht h1 op fp
    have c2 := cone_empty hv ht h2 op fp
    have c3 := cone_empty hv ht h3 op fp
    simp [HP.out, HP.dir] at c0 c1 c2 c3
    rcases le_total (hp vs c).x (hp vs p).x with hx | hx <;> rcases le_total (hp vs c).y (hp vs p).y with hy | hy
    · exact c1 hy hx
    · exact c2 hx hy
    · exact c0 hx hy
    · exact c3 hy hx
  rw [all op fp, all oq fq, HP.o_same] at hne
  exact hne rfl

end

end CDT

import Verif.Geo.ChainMesh
import Verif.Geo.CdtAccept
import Verif.Geo.Frame

/-! # Meshes with the corners of the bounding box -/

set_option linter.unusedSectionVars false
set_option linter.unusedSimpArgs false
set_option linter.unusedVariables false

namespace CDT

section
variable {K : Type} [Field K] [LinearOrder K] [IsStrictOrderedRing K] [ExactParams K] [IdCfg]
variable {vs : List (Vtx K)} {ts : List Tri}

/-- The insertions of a run keep the chains convex. -/
theorem wrap_convex {fuel bins : Nat} {m : Option (List Nat)} {s : DT} (hsep : Sep vs) (hu : ∀ v ∈ vs, Plane.InUnit v) (hb : 1 ≤ bins)
    (hn : 2 * vs.length + 2 ≤ NONE) (hfuel : 6 * vs.length + 10 ≤ fuel) (hm : MergeInit vs.length m)
    (hr : wrapAndTriangulate fuel bins vs m = .ok s) : Convexish vs s.ts := by
  have hB := IdCfg.big
  have hnn : vs.length ≤ NONE := by omega
  have hni : vs.length ≤ INF0 := by unfold NONE at hn; unfold INF0; omega
  obtain ⟨r, hc⟩ := countBins_ok (bins := bins) (vs := vs) (cnt := List.replicate (bins * bins) 0)
    (fun v hv => by simpa using binIndex_ok hb (hu v hv))
  obtain ⟨out, ho, hperm⟩ := binSort_of_bins (by unfold NONE at hnn; omega) hc
  obtain ⟨first, rest, h1, h2⟩ := wrapAndTriangulate_ok hr
  rw [ho] at h1
  simp only [Res.ok.injEq] at h1
  subst h1
  have hnd : (first :: rest).Nodup := hperm.nodup_iff.2 List.nodup_range
  have hlt : ∀ v ∈ first :: rest, v < vs.length := fun v hv => by simpa using hperm.subset hv
  have hlen := hperm.length_eq
  simp at hlen
  rw [List.nodup_cons] at hnd
  exact insertAll_convex hsep hn hfuel rest [first] [first] _ s (initial_dinv (hlt first (by simp)) hni m hm) hnd.2
    (by intro v hv hc; simp at hc; subst hc; exact hnd.1 hv) (fun v hv => hlt v (by simp [hv])) (by simp; omega)
    initial_convex (tiled_initial (hlt first (by simp)) hni) h2

/-- A point between two points that are not outside a line. -/
theorem HP.o_between {b a q1 q2 P Z : HP K} (wb : b.w = 1) (wa : a.w = 1) (w1 : q1.w = 1) (w2 : q2.w = 1) (wP : P.w = 1)
    (hZ : Z.x ^ 2 + Z.y ^ 2 = 1) (hab : Z.along b < Z.along a) (h1 : HP.o b a q1 ≤ 0) (h2 : HP.o b a q2 ≤ 0)
    (l1 : Z.along q1 ≤ Z.along P) (l2 : Z.along P ≤ Z.along q2) (l3 : Z.along q1 < Z.along q2) (e : Z.out q1 = Z.out q2)
    (hs : Z.out P ≤ Z.out q1) : HP.o b a P ≤ 0 ∧ (Z.out P < Z.out q1 → HP.o b a P < 0) := by
  rw [HP.o_out wb wa w1 hZ] at h1
  rw [HP.o_out wb wa w2 hZ, ← e] at h2
  rw [HP.o_out wb wa wP hZ]
  generalize Z.along b = tb at *
  generalize Z.along a = ta at *
  generalize Z.along q1 = t1 at *
  generalize Z.along q2 = t2 at *
  generalize Z.along P = tP at *
  generalize Z.out b = sb at *
  generalize Z.out a = sa at *
  generalize Z.out q1 = s1 at *
  generalize Z.out P = sP at *
  have k : (t2 - t1) * ((sP - sb) * (ta - tb) - (sa - sb) * (tP - tb)) =
      (t2 - tP) * ((s1 - sb) * (ta - tb) - (sa - sb) * (t1 - tb)) + (tP - t1) * ((s1 - sb) * (ta - tb) - (sa - sb) * (t2 - tb)) +
        (t2 - t1) * (ta - tb) * (sP - s1) := by ring
  have m1 := mul_nonpos_of_nonneg_of_nonpos (sub_nonneg.2 l2) h1
  have m2 := mul_nonpos_of_nonneg_of_nonpos (sub_nonneg.2 l1) h2
  have m3 := mul_pos (sub_pos.2 l3) (sub_pos.2 hab)
  constructor
  · have m4 := mul_nonpos_of_nonneg_of_nonpos m3.le (sub_nonpos.2 hs)
    by_contra hc
    have := mul_pos (sub_pos.2 l3) (not_le.1 hc)
    linarith
  · intro hlt
    have m4 := mul_neg_of_pos_of_neg m3 (sub_neg.2 hlt)
    by_contra hc
    have := mul_nonneg (sub_nonneg.2 l3.le) (not_lt.1 hc)
    linarith

/-- The mesh has the four corners of a rectangle as vertices, and all its real vertices are in the closed rectangle. -/
structure BoxMesh (vs : List (Vtx K)) (ts : List Tri) (x y w h : K) : Prop where
  wpos : 0 < w
  hpos : 0 < h
  inside : ∀ q, Occ ts q → q < INF0 → x ≤ (hp vs q).x ∧ (hp vs q).x ≤ x + w ∧ y ≤ (hp vs q).y ∧ (hp vs q).y ≤ y + h
  all : ∀ i j, ∃ q, Occ ts q ∧ q < INF0 ∧ hp vs q = HP.ofVtx (crn x y w h i j)
  outer : ∀ k : Fin 4, ∃ i, Ent ts i (INF0 + k) (INF0 + (k + 1 : Fin 4)) NONE

variable {x y w h : K}

theorem hp_inf (vs : List (Vtx K)) (k : Fin 4) : hp vs (INF0 + k) = HP.dir k := by
  have hB := IdCfg.big
  obtain ⟨e0, e1, e2, e3⟩ := hp_INF vs
  fin_cases k
  · exact e0
  · have : INF0 + 1 = INF1 := by unfold INF0 INF1; omega
    show hp vs (INF0 + 1) = HP.dir 1
    rw [this, e1]
  · have : INF0 + 2 = INF2 := by unfold INF0 INF2; omega
    show hp vs (INF0 + 2) = HP.dir 2
    rw [this, e2]
  · have : INF0 + 3 = INF3 := by unfold INF0 INF3; omega
    show hp vs (INF0 + 3) = HP.dir 3
    rw [this, e3]

theorem inf_ge (k : Fin 4) : ¬ INF0 + (k : Nat) < INF0 := by omega

/-- The corner in the quadrant between the directions `k` and `k + 1`. -/
def quadCorner (k : Fin 4) : Bool × Bool := match k with
  | 0 => (false, true)
  | 1 => (true, true)
  | 2 => (true, false)
  | 3 => (false, false)

/-- The apex of an unbounded triangle with two artificial vertices is a corner of the rectangle. -/
theorem BoxMesh.cone (hB : BoxMesh vs ts x y w h) (hv : Valid (hp vs) ts) (ht : Tiled vs ts) {k l : Fin 4} {v : Nat}
    (hTri : TriIn ts v (INF0 + k) (INF0 + l)) : v < INF0 ∧ l = k + 1 ∧ hp vs v = HP.ofVtx (crn x y w h (quadCorner k).1 (quadCorner k).2) := by
  have hpos := hTri.pos hv
  have fv : v < INF0 := by
    by_contra hc
    rw [HP.o_inf3 (hp_w_inf vs hc) (hp_w_inf vs (inf_ge k)) (hp_w_inf vs (inf_ge _))] at hpos
    exact lt_irrefl _ hpos
  have wv := hp_w_fin vs fv
  have hl : l = k + 1 := by
    rw [hp_inf, hp_inf] at hpos
    have z : ¬ (0 : K) < -1 := by norm_num
    fin_cases k <;> fin_cases l <;> simp [HP.o, HP.dir, wv] at hpos ⊢
    all_goals first | rfl | exact absurd hpos (by norm_num)
  subst hl
  refine ⟨fv, rfl, ?_⟩
  obtain ⟨q, hq, fq, eq⟩ := hB.all (quadCorner k).1 (quadCorner k).2
  have hi := hB.inside v hTri.occ fv
  have wpos := hB.wpos
  have hpos' := hB.hpos
  obtain ⟨i, T, j1, j2, j3, hT, hR⟩ := hTri
  have := vert_of_in hv ht fq hq hT hR
    (by rw [hp_inf, eq]; fin_cases k <;> simp [HP.o, HP.dir, HP.ofVtx, quadCorner, crn, wv] <;> linarith)
    (by rw [hp_inf, hp_inf, eq]; fin_cases k <;> simp [HP.o, HP.dir, HP.ofVtx, quadCorner, crn])
    (by rw [hp_inf, eq]; fin_cases k <;> simp [HP.o, HP.dir, HP.ofVtx, quadCorner, crn, wv] <;> linarith)
  rw [hR.hasVert] at this
  rcases this with rfl | rfl | rfl
  · exact eq
  · exact absurd fq (inf_ge _)
  · exact absurd fq (inf_ge _)

/-- The unbounded triangle between two consecutive directions. -/
theorem BoxMesh.apex (hB : BoxMesh vs ts x y w h) (hv : Valid (hp vs) ts) (ht : Tiled vs ts) (k : Fin 4) :
    ∃ v, v < INF0 ∧ TriIn ts v (INF0 + k) (INF0 + (k + 1 : Fin 4)) ∧
      hp vs v = HP.ofVtx (crn x y w h (quadCorner k).1 (quadCorner k).2) := by
  obtain ⟨i, T, hT, hh⟩ := hB.outer k
  obtain ⟨v, j2, j3, hR⟩ := hh.rot
  have hTri : TriIn ts (INF0 + k) (INF0 + (k + 1 : Fin 4)) v := ⟨i, T, _, _, _, hT, hR⟩
  obtain ⟨fv, -, e⟩ := hB.cone hv ht hTri.next.next
  exact ⟨v, fv, hTri.next.next, e⟩

/-- The two corners of the side of the rectangle in the direction `k` are next to the artificial vertex `k`. -/
theorem BoxMesh.ends (hB : BoxMesh vs ts x y w h) (hv : Valid (hp vs) ts) (ht : Tiled vs ts) (k : Fin 4) :
    (∃ v, v < INF0 ∧ hp vs v = HP.ofVtx (crn x y w h (quadCorner k).1 (quadCorner k).2) ∧ ∃ d, chN ts (INF0 + k) v d) ∧
    ∃ v, v < INF0 ∧ hp vs v = HP.ofVtx (crn x y w h (quadCorner (k + 3)).1 (quadCorner (k + 3)).2) ∧ ∃ d, chN ts (INF0 + k) v d := by
  constructor
  · obtain ⟨v, fv, hT, e⟩ := hB.apex hv ht k
    exact ⟨v, fv, e, (chain_ok hv ht (inf_ge k)).next (INF0 + (k + 1 : Fin 4)) v hT.next.next fv⟩
  · obtain ⟨v, fv, hT, e⟩ := hB.apex hv ht (k + 3)
    have hk : k + 3 + 1 = k := by fin_cases k <;> rfl
    rw [hk] at hT
    exact ⟨v, fv, e, _, hT⟩

/-- The chain in the direction `k` is on the side of the rectangle. -/
theorem BoxMesh.below (hB : BoxMesh vs ts x y w h) (hv : Valid (hp vs) ts) (ht : Tiled vs ts) (hC : Convexish vs ts) {b a z : Nat}
    (hT : TriIn ts b a z) (hb : b < INF0) (ha : a < INF0) {k : Fin 4} (hz : z = INF0 + k) {P : HP K} (wP : P.w = 1)
    (hP : x ≤ P.x ∧ P.x ≤ x + w ∧ y ≤ P.y ∧ P.y ≤ y + h) :
    HP.o (hp vs b) (hp vs a) P ≤ 0 ∧ (x < P.x ∧ P.x < x + w ∧ y < P.y ∧ P.y < y + h → HP.o (hp vs b) (hp vs a) P < 0) := by
  subst hz
  have zi := inf_ge k
  have zu := hp_unit vs zi
  have ok := chain_ok hv ht zi
  obtain ⟨⟨q2, f2, e2, d2⟩, q1, f1, e1, d1⟩ := hB.ends hv ht k
  have wb := hp_w_fin vs hb
  have wa := hp_w_fin vs ha
  have c1 := hC _ zi b a q1 hT hb ha f1 d1
  have c2 := hC _ zi b a q2 hT hb ha f2 d2
  have c1 : HP.o (hp vs b) (hp vs a) (hp vs q1) ≤ 0 := by
    rw [HP.o_out wb wa (hp_w_fin vs f1) zu]; exact sub_nonpos.2 c1
  have c2 : HP.o (hp vs b) (hp vs a) (hp vs q2) ≤ 0 := by
    rw [HP.o_out wb wa (hp_w_fin vs f2) zu]; exact sub_nonpos.2 c2
  have hab : (hp vs (INF0 + k)).along (hp vs b) < (hp vs (INF0 + k)).along (hp vs a) := ok.mono _ _ hT hb ha
  have wpos := hB.wpos
  have hpos := hB.hpos
  obtain ⟨p1, p2, p3, p4⟩ := hP
  rw [hp_inf] at hab zu
  rw [e1] at c1
  rw [e2] at c2
  have := HP.o_between (P := P) wb wa (q2 := HP.ofVtx (crn x y w h (quadCorner (k + 3)).1 (quadCorner (k + 3)).2))
    (q1 := HP.ofVtx (crn x y w h (quadCorner k).1 (quadCorner k).2)) rfl rfl wP zu hab c2 c1
    (by fin_cases k <;> simp [HP.along, HP.dir, HP.ofVtx, quadCorner, crn] <;> linarith)
    (by fin_cases k <;> simp [HP.along, HP.dir, HP.ofVtx, quadCorner, crn] <;> linarith)
    (by fin_cases k <;> simp [HP.along, HP.dir, HP.ofVtx, quadCorner, crn] <;> linarith)
    (by fin_cases k <;> simp [HP.out, HP.dir, HP.ofVtx, quadCorner, crn])
    (by fin_cases k <;> simp [HP.out, HP.dir, HP.ofVtx, quadCorner, crn] <;> linarith)
  refine ⟨this.1, fun ⟨g1, g2, g3, g4⟩ => this.2 ?_⟩
  fin_cases k <;> simp [HP.out, HP.dir, HP.ofVtx, quadCorner, crn] <;> linarith

/-- No point strictly inside the rectangle is in a closed unbounded triangle. -/
theorem BoxMesh.no_far (hB : BoxMesh vs ts x y w h) (hv : Valid (hp vs) ts) (ht : Tiled vs ts) (hC : Convexish vs ts)
    (hinf : ∀ q, Occ ts q → ¬ q < INF0 → ∃ k : Fin 4, q = INF0 + k) {b a z : Nat}
    (hT : TriIn ts b a z) (hz : ¬ z < INF0) {P : HP K} (wP : P.w = 1)
    (hP : x < P.x ∧ P.x < x + w ∧ y < P.y ∧ P.y < y + h) (h1 : 0 ≤ HP.o (hp vs b) (hp vs a) P) (h2 : 0 ≤ HP.o (hp vs a) (hp vs z) P)
    (h3 : 0 ≤ HP.o (hp vs z) (hp vs b) P) : False := by
  have cone : ∀ {v k l : Nat}, TriIn ts v k l → ¬ k < INF0 → ¬ l < INF0 → 0 ≤ HP.o (hp vs v) (hp vs k) P → 0 ≤ HP.o (hp vs l) (hp vs v) P → False := by
    intro v k' l' hT hk hl q1 q2
    obtain ⟨k, rfl⟩ := hinf _ hT.next.occ hk
    obtain ⟨l, rfl⟩ := hinf _ hT.next.next.occ hl
    obtain ⟨-, rfl, e⟩ := hB.cone hv ht hT
    rw [e, hp_inf] at q1 q2
    fin_cases k <;> simp [HP.o, HP.dir, HP.ofVtx, quadCorner, crn, wP] at q1 q2 <;> linarith
  by_cases fb : b < INF0
  · by_cases fa : a < INF0
    · obtain ⟨k, hk⟩ := hinf _ hT.next.next.occ hz
      have := (hB.below hv ht hC hT fb fa hk wP ⟨hP.1.le, hP.2.1.le, hP.2.2.1.le, hP.2.2.2.le⟩).2 hP
      linarith
    · exact cone hT fa hz h1 h3
  · by_cases fa : a < INF0
    · exact cone hT.next hz fb h2 h1
    · have hpos := hT.pos hv
      rw [HP.o_inf3 (hp_w_inf vs fb) (hp_w_inf vs fa) (hp_w_inf vs hz)] at hpos
      exact lt_irrefl _ hpos

end

end CDT

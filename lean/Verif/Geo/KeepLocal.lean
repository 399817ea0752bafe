import Verif.Props.Visible
import Verif.Geo.CdtAccept

/-! # Edges that survive the insertion of a constraint stay locally Delaunay -/

set_option linter.unusedSectionVars false
set_option linter.unusedVariables false

namespace CDT
open Plane

variable {K : Type} [Field K] [LinearOrder K] [IsStrictOrderedRing K] [ExactParams K] [IdCfg]
variable {vs : List (Vtx K)} {ts ts' : List Tri}

theorem HasEdge.tri {x y : Nat} (h : HasEdge ts x y) : ∃ z, TriIn ts x y z := by
  obtain ⟨i, j, T, hTi, hh⟩ := h
  obtain ⟨z, _, _, hR⟩ := hh.rot
  exact ⟨z, i, T, _, _, _, hTi, hR⟩

theorem TriIn.edge {x y z : Nat} (h : TriIn ts x y z) : HasEdge ts x y := by
  obtain ⟨i, T, j1, _, _, hTi, hR⟩ := h
  exact ⟨i, j1, T, hTi, hR.has1⟩

/-- A point of an edge is in no open triangle. -/
theorem edge_not_inAt (hv : Valid (hp vs) ts) (hT : Tiled vs ts) {x y z : Nat} (h : TriIn ts x y z) {p : Vtx K}
    (h0 : HP.o (hp vs x) (hp vs y) (HP.ofVtx p) = 0) (h1 : 0 ≤ HP.o (hp vs y) (hp vs z) (HP.ofVtx p))
    (h2 : 0 ≤ HP.o (hp vs z) (hp vs x) (HP.ofVtx p)) {j : Nat} (hj : InAt (hp vs) ts (HP.ofVtx p) j) : False := by
  obtain ⟨i, T, _, _, _, hTi, hR⟩ := h
  have hc : ClosedAt (hp vs) ts (HP.ofVtx p) i := by
    refine ⟨T, hTi, ?_⟩
    rcases hR with rfl | rfl | rfl
    · exact ⟨h0.ge, h1, h2⟩
    · exact ⟨h2, h0.ge, h1⟩
    · exact ⟨h1, h2, h0.ge⟩
  have := closed_inAt hv hT hc hj
  subst this
  have := ((inAt_rot hTi hR).1 hj).1
  rw [h0] at this
  exact lt_irrefl _ this

/-- A ray inside an unbounded triangle is no edge. -/
theorem ray_not_in (hv : Valid (hp vs) ts) (hT : Tiled vs ts) {x y z I : Nat} (hI : ¬ I < INF0) (hz : z < INF0) (h : TriIn ts y I x)
    (hE : HasEdge ts z I) (h1 : 0 < HP.o (hp vs y) (hp vs I) (hp vs z)) (h2 : 0 < HP.o (hp vs I) (hp vs x) (hp vs z)) : False := by
  have D := h.pos hv
  obtain ⟨u, hu⟩ := hE.tri
  have D' := hu.pos hv
  have wI := hp_w_inf vs hI
  have wz := hp_w_fin vs hz
  obtain ⟨t, ht0, ht⟩ : ∃ t : K, 0 < t ∧ 0 < HP.o (hp vs x) (hp vs y) (hp vs z) + t * HP.o (hp vs y) (hp vs I) (hp vs x) := by
    refine ⟨(|HP.o (hp vs x) (hp vs y) (hp vs z)| + 1) / HP.o (hp vs y) (hp vs I) (hp vs x), by positivity, ?_⟩
    rw [div_mul_cancel₀ _ D.ne']
    have := neg_abs_le (HP.o (hp vs x) (hp vs y) (hp vs z))
    linarith
  let p : Vtx K := ⟨(hp vs z).x + t * (hp vs I).x, (hp vs z).y + t * (hp vs I).y⟩
  have hp' : ∀ a b : HP K, HP.o a b (HP.ofVtx p) = HP.o a b (hp vs z) + t * HP.o a b (hp vs I) := by
    intro a b
    simp only [HP.o, HP.ofVtx, p, wI, wz]; ring
  obtain ⟨i, T, _, _, _, hTi, hR⟩ := h
  refine edge_not_inAt hv hT hu (p := p) ?_ ?_ ?_ ((inAt_rot (i := i) hTi hR).2 ⟨?_, ?_, ?_⟩)
  · rw [hp', HP.o_same'', HP.o_same']; simp
  · rw [hp', HP.o_same'', HP.o_cyc]; linarith
  · rw [hp', HP.o_same', HP.o_cyc']
    have := mul_pos ht0 D'; linarith
  · rw [hp', HP.o_same']; linarith
  · rw [hp', HP.o_same'']; linarith
  · rw [hp', HP.o_cyc' (hp vs y) (hp vs I) (hp vs x)]; exact ht

theorem infLocal_eq {v : Nat} {k : Fin 4} (h : infLocal v = .ok k) : v = INF0 + k.val := by
  unfold infLocal at h
  by_cases hv : v < INF0
  · rw [if_pos hv] at h; simp at h
  · rw [if_neg hv] at h
    match hm : v - INF0, h with
    | 0, h => simp at h; subst h; simp; omega
    | 1, h => simp at h; subst h; simp; omega
    | 2, h => simp at h; subst h; simp; omega
    | 3, h => simp at h; subst h; simp; omega

/-- Unbounded triangles on the same edge are equal. -/
theorem unb_third (hn : vs.length ≤ INF0) (hv : Valid (hp vs) ts) (hT : Tiled vs ts) (hv' : Valid (hp vs) ts') (hT' : Tiled vs ts')
    (hok : VertsIn (VOk vs.length) ts) (hok' : VertsIn (VOk vs.length) ts') {x y z I : Nat} (hI : ¬ I < INF0)
    (hy : y < INF0) (h : TriIn ts y I x) (h' : TriIn ts' y I z) (e : HasEdge ts I z) (e' : HasEdge ts' I x) : x = z := by
  have D := h.pos hv
  have D' := h'.pos hv'
  have wI := hp_w_inf vs hI
  have wy := hp_w_fin vs hy
  rcases lt_trichotomy (HP.o (hp vs I) (hp vs x) (hp vs z)) 0 with hs | hs | hs
  · rw [HP.o_swap'] at hs
    by_cases hx : x < INF0
    · exact (ray_not_in hv' hT' hI hx h' (HasEdge.symm hv' (.inr hx) e') D (by linarith)).elim
    · exfalso
      have wx := hp_w_inf vs hx
      by_cases hz : z < INF0
      · have wz := hp_w_fin vs hz
        simp only [HP.o, wI, wy, wx, wz] at hs D; linarith
      · have wz := hp_w_inf vs hz
        simp only [HP.o, wI, wx, wz] at hs; linarith
  · by_cases hx : x < INF0
    · have wx := hp_w_fin vs hx
      by_cases hz : z < INF0
      · have wz := hp_w_fin vs hz
        have ox := h.next.next.occ
        have oz : Occ ts z := by obtain ⟨i, j, he⟩ := e; exact he.occ.2
        -- one of them is on the ray of the other
        have key : ∀ {p q u : Nat}, p < INF0 → q < INF0 → TriIn ts p I u → Occ ts q → HP.o (hp vs I) (hp vs p) (hp vs q) = 0 →
            0 ≤ HP.o (hp vs u) (hp vs p) (hp vs q) → q = p := by
          intro p q u hp' hq' hu oq h0 h1
          have Du := hu.pos hv
          have wp := hp_w_fin vs hp'
          have wq := hp_w_fin vs hq'
          obtain ⟨i, T, _, _, _, hTi, hR⟩ := id hu
          have h0' : HP.o (hp vs p) (hp vs I) (hp vs q) = 0 := by rw [HP.o_swap]; linarith
          have h2 : 0 ≤ HP.o (hp vs I) (hp vs u) (hp vs q) := by
            have e1 : HP.o (hp vs I) (hp vs u) (hp vs q) = HP.o (hp vs p) (hp vs I) (hp vs u) -
                HP.o (hp vs p) (hp vs I) (hp vs q) * (hp vs u).w := by
              simp only [HP.o, wI, wp, wq]; ring
            rw [e1, h0']; linarith
          have := vert_of_in hv hT hq' oq hTi hR h0'.ge h2 h1
          rcases hR.hasVert.1 this with g | g | g
          · exact g.symm
          · exact absurd (g ▸ hq') hI
          · rw [g] at Du; linarith
        obtain ⟨u, hu⟩ := (HasEdge.symm hv (.inr hx) h.next.edge).tri
        obtain ⟨u', hu'⟩ := (HasEdge.symm hv (.inr hz) e).tri
        by_cases hc : 0 ≤ HP.o (hp vs u) (hp vs x) (hp vs z)
        · exact (key hx hz hu oz hs hc).symm
        · refine key hz hx hu' ox (by rw [HP.o_swap']; linarith) ?_
          -- the positions along the ray
          have Du := hu.pos hv
          have Du' := hu'.pos hv
          have e1 : HP.o (hp vs u) (hp vs x) (hp vs z) * HP.o (hp vs z) (hp vs I) (hp vs u') +
              HP.o (hp vs u') (hp vs z) (hp vs x) * HP.o (hp vs x) (hp vs I) (hp vs u) =
              HP.o (hp vs I) (hp vs x) (hp vs z) * (HP.o (hp vs u) (hp vs x) ⟨0, 1, 0⟩ * HP.o (hp vs u') (hp vs z) ⟨1, 0, 0⟩ -
                HP.o (hp vs u) (hp vs x) ⟨1, 0, 0⟩ * HP.o (hp vs u') (hp vs z) ⟨0, 1, 0⟩) := by
            simp only [HP.o, wI, wx, wz]; ring
          rw [hs, zero_mul] at e1
          push Not at hc
          have m := mul_neg_of_neg_of_pos hc Du'
          have : 0 < HP.o (hp vs u') (hp vs z) (hp vs x) * HP.o (hp vs x) (hp vs I) (hp vs u) := by linarith
          exact (pos_of_mul_pos_left this Du.le).le
      · exfalso
        have wz := hp_w_inf vs hz
        simp only [HP.o, wI, wy, wx, wz] at hs D'; linarith
    · have wx := hp_w_inf vs hx
      by_cases hz : z < INF0
      · exfalso
        have wz := hp_w_fin vs hz
        simp only [HP.o, wI, wy, wx, wz] at hs D; linarith
      · have wz := hp_w_inf vs hz
        have vx : VOk vs.length x := by
          obtain ⟨i, T, _, _, _, hTi, hR⟩ := h; exact (vertsIn_rot hok hTi hR).2.2
        have vz : VOk vs.length z := by
          obtain ⟨i, T, _, _, _, hTi, hR⟩ := h'; exact (vertsIn_rot hok' hTi hR).2.2
        have vI : VOk vs.length I := by
          obtain ⟨i, T, _, _, _, hTi, hR⟩ := h; exact (vertsIn_rot hok hTi hR).2.1
        obtain ⟨kx, ex⟩ := infLocal_ok (vx.inf hx hn).1 (vx.inf hx hn).2
        obtain ⟨kz, ez⟩ := infLocal_ok (vz.inf hz hn).1 (vz.inf hz hn).2
        obtain ⟨kI, eI⟩ := infLocal_ok (vI.inf hI hn).1 (vI.inf hI hn).2
        rw [infLocal_eq ex, infLocal_eq ez]
        simp only [HP.o, wy, (infLocal_hp vs ex).1, (infLocal_hp vs ez).1, (infLocal_hp vs eI).1] at D D'
        revert D D'
        clear ex ez eI
        fin_cases kx <;> fin_cases kz <;> fin_cases kI <;> simp [HP.dir]
  · by_cases hz : z < INF0
    · exact (ray_not_in hv hT hI hz h (HasEdge.symm hv (.inr hz) e) D' hs).elim
    · exfalso
      have wz := hp_w_inf vs hz
      by_cases hx : x < INF0
      · have wx := hp_w_fin vs hx
        simp only [HP.o, wI, wy, wx, wz] at hs D'; linarith
      · have wx := hp_w_inf vs hx
        simp only [HP.o, wI, wx, wz] at hs; linarith

/-- The meshes have the same edges with an artificial vertex. -/
def SameUnb (ts ts' : List Tri) : Prop := ∀ x y, ¬ (x < INF0 ∧ y < INF0) → (HasEdge ts x y ↔ HasEdge ts' x y)

theorem SameUnb.symm (h : SameUnb ts ts') : SameUnb ts' ts := fun x y hxy => (h x y hxy).symm

/-- Then they have the same unbounded triangles. -/
theorem SameUnb.tri (h : SameUnb ts ts') (hn : vs.length ≤ INF0) (hv : Valid (hp vs) ts) (hT : Tiled vs ts) (hv' : Valid (hp vs) ts')
    (hT' : Tiled vs ts') (hok : VertsIn (VOk vs.length) ts) (hok' : VertsIn (VOk vs.length) ts') {a b c : Nat} (habc : TriIn ts a b c)
    (hf : ¬ (a < INF0 ∧ b < INF0 ∧ c < INF0)) : TriIn ts' a b c := by
  have key : ∀ {y I x : Nat}, TriIn ts y I x → y < INF0 → ¬ I < INF0 → TriIn ts' y I x := by
    intro y I x hy fy fI
    obtain ⟨z, hz⟩ := ((h y I (by tauto)).1 hy.edge).tri
    have := unb_third hn hv hT hv' hT' hok hok' fI fy hy hz ((h I z (by tauto)).2 hz.next.edge) ((h I x (by tauto)).1 hy.next.edge)
    rw [this]; exact hz
  by_cases fa : a < INF0
  · by_cases fb : b < INF0
    · exact (key habc.next fb (by tauto)).next.next
    · exact key habc fa fb
  · by_cases fb : b < INF0
    · by_cases fc : c < INF0
      · exact (key habc.next.next fc fa).next
      · exact (key habc.next fb fc).next.next
    · by_cases fc : c < INF0
      · exact (key habc.next.next fc fa).next
      · exfalso
        have := habc.pos hv
        have w1 := hp_w_inf vs fa
        have w2 := hp_w_inf vs fb
        have w3 := hp_w_inf vs fc
        simp only [HP.o, w1, w2, w3] at this; linarith

/-- A point in a triangle with real corners of the one mesh is in one of the other mesh. -/
theorem SameUnb.region (h : SameUnb ts ts') (hn : vs.length ≤ INF0) (hv : Valid (hp vs) ts) (hT : Tiled vs ts) (hv' : Valid (hp vs) ts')
    (hT' : Tiled vs ts') (hok : VertsIn (VOk vs.length) ts) (hok' : VertsIn (VOk vs.length) ts') {a b c : Nat} (habc : TriIn ts' a b c)
    (fa : a < INF0) (fb : b < INF0) (fc : c < INF0) {p : Vtx K} (hp' : In3 (hp vs a) (hp vs b) (hp vs c) (HP.ofVtx p)) :
    ∃ (i : Nat) (T : Tri), ts[i]? = some T ∧ T.isFinite = true ∧ ClosedAt (hp vs) ts (HP.ofVtx p) i := by
  obtain ⟨i, T, hTi, c1, c2, c3⟩ := hT.closed (g := HP.ofVtx p) rfl
  refine ⟨i, T, hTi, ?_, T, hTi, c1, c2, c3⟩
  by_contra hfin
  have hfin' : ¬ (T.v1 < INF0 ∧ T.v2 < INF0 ∧ T.v3 < INF0) := by
    simp only [Tri.isFinite, Bool.and_eq_true, isFin_iff] at hfin; tauto
  obtain ⟨k, T', _, _, _, hTk, hR⟩ := h.tri hn hv hT hv' hT' hok hok' (triIn_get hTi) hfin'
  obtain ⟨k', T'', _, _, _, hTk', hR'⟩ := habc
  have hc : ClosedAt (hp vs) ts' (HP.ofVtx p) k := by
    refine ⟨T', hTk, ?_⟩
    rcases hR with rfl | rfl | rfl
    · exact ⟨c1, c2, c3⟩
    · exact ⟨c3, c1, c2⟩
    · exact ⟨c2, c3, c1⟩
  have := closed_inAt hv' hT' hc ((inAt_rot hTk' hR').2 hp')
  subst this
  rw [hTk] at hTk'; simp at hTk'; subst hTk'
  have q := fun x => (hR.hasVert (p := x)).symm.trans hR'.hasVert
  have q1 := (q T.v1).1 (.inl rfl)
  have q2 := (q T.v2).1 (.inr (.inl rfl))
  have q3 := (q T.v3).1 (.inr (.inr rfl))
  refine hfin' ⟨?_, ?_, ?_⟩
  · rcases q1 with e | e | e <;> omega
  · rcases q2 with e | e | e <;> omega
  · rcases q3 with e | e | e <;> omega

/-! ## Locally Delaunay meshes -/

/-- The Delaunay condition for neighbors with real corners whose common edge is no constraint. -/
def LocD (vs : List (Vtx K)) (S : List Edge) (ts : List Tri) : Prop := ∀ a b c d, TriIn ts a b c → TriIn ts b a d →
  a < INF0 → b < INF0 → c < INF0 → d < INF0 → (⟨a, b⟩ : Edge) ∉ S → (⟨b, a⟩ : Edge) ∉ S →
  HP.ic (hp vs a) (hp vs b) (hp vs c) (hp vs d) ≤ 0

theorem triIn_of_corners {T : Tri} (hT : T ∈ ts) {a b c : Nat} (h : Spec.CornersOf T.verts a b c) : TriIn ts a b c := by
  obtain ⟨i, hi⟩ := List.mem_iff_getElem?.1 hT
  have := triIn_get hi
  rcases h with h | h | h <;> simp only [Tri.verts, Prod.mk.injEq] at h <;> obtain ⟨rfl, rfl, rfl⟩ := h
  · exact this
  · exact this.next.next
  · exact this.next

theorem TriIn.corners {a b c : Nat} (h : TriIn ts a b c) : ∃ T ∈ ts, Spec.CornersOf T.verts a b c := by
  obtain ⟨i, T, _, _, _, hTi, hR⟩ := h
  refine ⟨T, List.mem_of_getElem? hTi, ?_⟩
  rcases hR with rfl | rfl | rfl
  · exact .inl rfl
  · exact .inr (.inr rfl)
  · exact .inr (.inl rfl)

theorem TriIn.mem_filterSeq {a b c : Nat} (h : TriIn ts a b c) (fa : a < INF0) (fb : b < INF0) (fc : c < INF0) :
    ∃ t ∈ filterSeq ts, Spec.CornersOf t a b c := by
  obtain ⟨T, hT, hc⟩ := h.corners
  refine ⟨T.verts, ?_, hc⟩
  rw [filterSeq_eq_map, List.mem_map]
  refine ⟨T, List.mem_filter.2 ⟨hT, ?_⟩, rfl⟩
  rcases hc with h | h | h <;> simp only [Tri.verts, Prod.mk.injEq] at h <;> obtain ⟨rfl, rfl, rfl⟩ := h <;>
    simp [Tri.isFinite, isFin_iff, fa, fb, fc]

theorem o_pos_cw {a b c : Nat} {A B C : Vtx K} (hn : vs.length ≤ INF0) (gA : vs[a]? = some A) (gB : vs[b]? = some B) (gC : vs[c]? = some C) :
    0 < HP.o (hp vs a) (hp vs b) (hp vs c) ↔ Clockwise A B C := by
  have := lt_of_getElem? gA
  have := lt_of_getElem? gB
  have := lt_of_getElem? gC
  rw [hp_fin (by omega) gA, hp_fin (by omega) gB, hp_fin (by omega) gC, o_area2]
  unfold Clockwise
  constructor <;> intro h <;> linarith

/-- Locally Delaunay meshes are constrained Delaunay. -/
theorem LocD.constrained {S : List Edge} (h : LocD vs S ts) (hn : vs.length ≤ INF0) (hv : Valid (hp vs) ts) (hT : Tiled vs ts)
    (hok : VertsIn (VOk vs.length) ts) (hall : ∀ P ∈ vs, ∃ w : Nat, vs[w]? = some P ∧ Occ ts w) :
    Spec.ConstrainedDelaunay vs S (filterSeq ts) := by
  have hle : ∀ {a : Nat} {A : Vtx K}, vs[a]? = some A → a < INF0 := fun ha => by have := lt_of_getElem? ha; omega
  have cw : ∀ t ∈ filterSeq ts, ∀ a b c A B C, Spec.CornersOf t a b c → vs[a]? = some A → vs[b]? = some B → vs[c]? = some C →
      Clockwise A B C := by
    intro t ht a b c A B C hc gA gB gC
    obtain ⟨T, hTm, hTf, rfl⟩ := mem_filterSeq ht
    exact (o_pos_cw hn gA gB gC).1 ((triIn_of_corners hTm hc).pos hv)
  refine constrainedDelaunay_of_local cw ?_ ?_ ?_ ?_
  · intro t ht a b c hc
    obtain ⟨T, hTm, hTf, rfl⟩ := mem_filterSeq ht
    obtain ⟨i, hi⟩ := List.mem_iff_getElem?.1 hTm
    have hm := hok.get hi
    simp only [Tri.isFinite, Bool.and_eq_true, isFin_iff] at hTf
    have : c < vs.length := by
      rcases hc with h | h | h <;> simp only [Tri.verts, Prod.mk.injEq] at h <;> obtain ⟨rfl, rfl, rfl⟩ := h
      · exact VOk.fin (hm 2) hTf.2
      · exact VOk.fin (hm 1) hTf.1.2
      · exact VOk.fin (hm 0) hTf.1.1
    exact ⟨_, List.getElem?_eq_getElem this⟩
  · intro t ht u hu a b c d htc huc A B C D gA gB gC gD hno hin
    have c1 := cw t ht a b c A B C htc gA gB gC
    obtain ⟨T, hTm, hTf, rfl⟩ := mem_filterSeq ht
    obtain ⟨U, hUm, hUf, rfl⟩ := mem_filterSeq hu
    have := h a b c d (triIn_of_corners hTm htc) (triIn_of_corners hUm huc) (hle gA) (hle gB) (hle gC) (hle gD)
      (fun hm => hno ⟨_, hm, .inl ⟨gA, gB⟩⟩) (fun hm => hno ⟨_, hm, .inr ⟨gB, gA⟩⟩)
    rw [hp_fin (hle gA) gA, hp_fin (hle gB) gB, hp_fin (hle gC) gC, hp_fin (hle gD) gD] at this
    have := (inCircle_ic c1).1 hin
    linarith
  · intro t ht a b c A B C P hc gA gB gC hP hin
    obtain ⟨w, hw, ow⟩ := hall P hP
    obtain ⟨T, hTm, hTf, rfl⟩ := mem_filterSeq ht
    obtain ⟨i, T', _, _, _, hTi, hR⟩ := triIn_of_corners hTm hc
    have hs : ∀ {x y : Nat} {X Y : Vtx K}, vs[x]? = some X → vs[y]? = some Y → area2 X Y P ≤ 0 → 0 ≤ HP.o (hp vs x) (hp vs y) (hp vs w) := by
      intro x y X Y gX gY hxy
      rw [hp_fin (hle gX) gX, hp_fin (hle gY) gY, hp_fin (hle hw) hw, o_area2]; linarith
    have := vert_of_in hv hT (hle hw) ow hTi hR (hs gA gB hin.1) (hs gB gC hin.2.1) (hs gC gA hin.2.2)
    rcases hR.hasVert.1 this with rfl | rfl | rfl
    · rw [gA] at hw; cases hw; exact .inl rfl
    · rw [gB] at hw; cases hw; exact .inr (.inl rfl)
    · rw [gC] at hw; cases hw; exact .inr (.inr rfl)
  · intro t ht a b c A B hc gA gB X P hX hP hno hcov
    obtain ⟨T, hTm, hTf, rfl⟩ := mem_filterSeq ht
    have fa := hle gA
    have fb := hle gB
    obtain ⟨d, hd⟩ := (HasEdge.symm hv (.inl fa) (triIn_of_corners hTm hc).edge).tri
    by_cases fd : d < INF0
    · obtain ⟨u, hu, huc⟩ := hd.mem_filterSeq fb fa fd
      exact ⟨u, hu, d, huc⟩
    exfalso
    have hposd := hd.pos hv
    obtain ⟨z, z0, z1, hx, hy⟩ := hX
    have hXo : ∀ x y : HP K, HP.o x y (HP.ofVtx X) = (1 - z) * HP.o x y (hp vs a) + z * HP.o x y (hp vs b) := by
      intro x y
      rw [hp_fin fa gA, hp_fin fb gB]
      simp only [HP.o, HP.ofVtx, hx, hy]
      ring
    have c1 := HP.o_cyc (hp vs b) (hp vs a) (hp vs d)
    have c2 := HP.o_cyc' (hp vs b) (hp vs a) (hp vs d)
    obtain ⟨δ, hδ, hn'⟩ := mix_in3 (a := hp vs b) (b := hp vs a) (c := hp vs d) (p := HP.ofVtx X) (v := HP.ofVtx P) rfl
      (zero_le_one : (0 : K) ≤ 1)
      (.inr ⟨by rw [hXo, HP.o_same', HP.o_same'']; simp, by
        rw [hp_fin fa gA, hp_fin fb gB, o_area2, neg_pos]; exact hP⟩)
      (.inl (by rw [hXo, HP.o_same'', c1]; have := mul_pos z0 hposd; linarith))
      (.inl (by rw [hXo, HP.o_same', c2]; have := mul_pos (sub_pos.2 z1) hposd; linarith))
    have hin := hn' (δ / 2) (by linarith) (by linarith)
    set e := δ / 2 with hedef
    have he : 0 < e := by rw [hedef]; linarith
    have hmix : (HP.ofVtx X).mix (HP.ofVtx P) e = HP.ofVtx (along X P (e / (1 + e))) := by
      have : (1 : K) + e ≠ 0 := by positivity
      simp only [HP.mix, HP.ofVtx, along, HP.mk.injEq]
      refine ⟨?_, ?_, trivial⟩ <;> field_simp <;> ring
    rw [hmix] at hin
    obtain ⟨t', ht', A', B', C', g1, g2, g3, hcl⟩ := hcov (along X P (e / (1 + e)))
      ⟨e / (1 + e), by positivity, by rw [div_lt_one (by positivity)]; linarith, rfl, rfl⟩
    obtain ⟨T', hTm', hTf', rfl⟩ := mem_filterSeq ht'
    obtain ⟨k, hTk⟩ := List.mem_iff_getElem?.1 hTm'
    have hcl' : ClosedAt (hp vs) ts (HP.ofVtx (along X P (e / (1 + e)))) k := by
      change vs[T'.v1]? = _ at g1
      change vs[T'.v2]? = _ at g2
      change vs[T'.v3]? = _ at g3
      refine ⟨T', hTk, ?_, ?_, ?_⟩ <;>
        rw [hp_fin (hle (by assumption)) (by assumption), hp_fin (hle (by assumption)) (by assumption), o_area2, neg_nonneg]
      · exact hcl.1
      · exact hcl.2.1
      · exact hcl.2.2
    obtain ⟨j, U, _, _, _, hUj, hR⟩ := hd
    have hkj := closed_inAt hv hT hcl' ((inAt_rot hUj hR).2 hin)
    subst hkj
    rw [hTk] at hUj; simp at hUj; subst hUj
    simp only [Tri.isFinite, Bool.and_eq_true, isFin_iff] at hTf'
    rcases hR with rfl | rfl | rfl
    · exact fd hTf'.2
    · exact fd hTf'.1.1
    · exact fd hTf'.1.2

/-! ## Edges that survive -/

/-- What two meshes of one run have in common: the vertices, the unbounded triangles, and the constraints `S` as edges. -/
structure Twin (vs : List (Vtx K)) (S : List Edge) (ts ts' : List Tri) : Prop where
  ids : vs.length ≤ INF0
  v : Valid (hp vs) ts
  v' : Valid (hp vs) ts'
  t : Tiled vs ts
  t' : Tiled vs ts'
  ok : VertsIn (VOk vs.length) ts
  ok' : VertsIn (VOk vs.length) ts'
  all : ∀ P ∈ vs, ∃ w : Nat, vs[w]? = some P ∧ Occ ts w
  all' : ∀ P ∈ vs, ∃ w : Nat, vs[w]? = some P ∧ Occ ts' w
  unb : SameUnb ts ts'
  cons : ∀ e ∈ S, HasEdge ts' e.src e.dst

/-- From a point of a new triangle its corners can be seen. -/
theorem Twin.visible {S : List Edge} (h : Twin vs S ts ts') {a b c : Nat} (habc : TriIn ts' a b c) (fa : a < INF0) (fb : b < INF0)
    (fc : c < INF0) {q C : Vtx K} (hq : In3 (hp vs a) (hp vs b) (hp vs c) (HP.ofVtx q)) (gC : vs[c]? = some C) :
    Spec.Visible vs S (filterSeq ts) q C := by
  have hn := h.ids
  have hle : ∀ {a : Nat} {A : Vtx K}, vs[a]? = some A → a < INF0 := fun ha => by have := lt_of_getElem? ha; omega
  have D := habc.pos h.v'
  rintro x ⟨z, z0, z1, hx, hy⟩
  have hX : ∀ u w : HP K, HP.o u w (HP.ofVtx x) = (1 - z) * HP.o u w (HP.ofVtx q) + z * HP.o u w (hp vs c) := by
    intro u w
    rw [hp_fin fc gC]
    simp only [HP.o, HP.ofVtx, hx, hy]; ring
  have hz := sub_pos.2 z1
  have hin : In3 (hp vs a) (hp vs b) (hp vs c) (HP.ofVtx x) := by
    refine ⟨?_, ?_, ?_⟩
    · rw [hX]; have := mul_pos hz hq.1; have := mul_pos z0 D; linarith
    · rw [hX, HP.o_same']; have := mul_pos hz hq.2.1; linarith
    · rw [hX, HP.o_same'']; have := mul_pos hz hq.2.2; linarith
  obtain ⟨i, T, _, _, _, hTi, hR⟩ := id habc
  refine ⟨?_, ?_, ?_⟩
  · intro hm
    obtain ⟨w, hw, ow⟩ := h.all' x hm
    rw [← hp_fin (hle hw) hw] at hin
    have := vert_of_in h.v' h.t' (hle hw) ow hTi hR hin.1.le hin.2.1.le hin.2.2.le
    rcases hR.hasVert.1 this with rfl | rfl | rfl
    · have := hin.1; rw [HP.o_same''] at this; exact lt_irrefl _ this
    · have := hin.1; rw [HP.o_same'] at this; exact lt_irrefl _ this
    · have := hin.2.1; rw [HP.o_same'] at this; exact lt_irrefl _ this
  · obtain ⟨j, U, hUj, hUf, U', hUj', c1, c2, c3⟩ := h.unb.region hn h.v h.t h.v' h.t' h.ok h.ok' habc fa fb fc hin
    rw [hUj] at hUj'; simp at hUj'; subst hUj'
    have hm := h.ok.get hUj
    have hUf' := hUf
    simp only [Tri.isFinite, Bool.and_eq_true, isFin_iff] at hUf'
    obtain ⟨P, -, gP, eP⟩ := getI_fin (hm 0) hUf'.1.1
    obtain ⟨Q, -, gQ, eQ⟩ := getI_fin (hm 1) hUf'.1.2
    obtain ⟨R, -, gR, eR⟩ := getI_fin (hm 2) hUf'.2
    refine ⟨U.verts, ?_, P, Q, R, gP, gQ, gR, ?_⟩
    · rw [filterSeq_eq_map, List.mem_map]
      exact ⟨U, List.mem_filter.2 ⟨List.mem_of_getElem? hUj, hUf⟩, rfl⟩
    · change hp vs U.v1 = _ at eP
      change hp vs U.v2 = _ at eQ
      change hp vs U.v3 = _ at eR
      rw [eP, eQ, o_area2] at c1
      rw [eQ, eR, o_area2] at c2
      rw [eR, eP, o_area2] at c3
      exact ⟨by linarith, by linarith, by linarith⟩
  · rintro e he A B gA gB ⟨s, s0, s1, sx, sy⟩
    obtain ⟨u, hu⟩ := (h.cons e he).tri
    have Du := hu.pos h.v'
    have hX : ∀ u w : HP K, HP.o u w (HP.ofVtx x) = (1 - s) * HP.o u w (hp vs e.src) + s * HP.o u w (hp vs e.dst) := by
      intro u w
      rw [hp_fin (hle gA) gA, hp_fin (hle gB) gB]
      simp only [HP.o, HP.ofVtx, sx, sy]; ring
    refine edge_not_inAt h.v' h.t' hu (p := x) ?_ ?_ ?_ ((inAt_rot (i := i) hTi hR).2 hin)
    · rw [hX, HP.o_same', HP.o_same'']; simp
    · rw [hX, HP.o_same'', HP.o_cyc]; have := mul_nonneg (sub_nonneg.2 s1) Du.le; linarith
    · rw [hX, HP.o_same', HP.o_cyc']; have := mul_nonneg s0 Du.le; linarith

/-- The old triangle on a surviving side of a new triangle is real, and its circle does not contain the corner of the new one. -/
theorem Twin.side {S : List Edge} (h : Twin vs S ts ts') (hD : Spec.ConstrainedDelaunay vs S (filterSeq ts)) {a b c c0 : Nat}
    (habc : TriIn ts' a b c) (fa : a < INF0) (fb : b < INF0) (fc : c < INF0) (h0 : TriIn ts a b c0) :
    c0 < INF0 ∧ HP.ic (hp vs a) (hp vs b) (hp vs c0) (hp vs c) ≤ 0 := by
  have hn := h.ids
  have D := habc.pos h.v'
  have D0 := h0.pos h.v
  have get : ∀ {x y z : Nat} {ts : List Tri}, VertsIn (VOk vs.length) ts → TriIn ts x y z → x < INF0 → ∃ X, vs[x]? = some X := by
    rintro x y z ts hok ⟨i, T, _, _, _, hTi, hR⟩ hx
    exact ⟨_, List.getElem?_eq_getElem ((vertsIn_rot hok hTi hR).1.fin hx)⟩
  obtain ⟨A, gA⟩ := get h.ok' habc fa
  obtain ⟨B, gB⟩ := get h.ok' habc.next fb
  obtain ⟨C, gC⟩ := get h.ok' habc.next.next fc
  let M : Vtx K := ⟨(A.x + B.x) / 2, (A.y + B.y) / 2⟩
  have hM : ∀ u w : HP K, HP.o u w (HP.ofVtx M) = (HP.o u w (hp vs a) + HP.o u w (hp vs b)) / 2 := by
    intro u w
    rw [hp_fin fa gA, hp_fin fb gB]
    simp only [HP.o, HP.ofVtx, M]; ring
  have near : ∀ {x : Nat}, 0 < HP.o (hp vs a) (hp vs b) (hp vs x) → ∃ d, 0 < d ∧ ∀ e, 0 < e → e < d →
      In3 (hp vs a) (hp vs b) (hp vs x) ((HP.ofVtx M).mix (HP.ofVtx C) e) := by
    intro x Dx
    refine mix_in3 (p := HP.ofVtx M) (v := HP.ofVtx C) rfl (zero_le_one : (0 : K) ≤ 1) (.inr ⟨?_, ?_⟩) (.inl ?_) (.inl ?_)
    · rw [hM, HP.o_same', HP.o_same'']; simp
    · rw [← hp_fin fc gC]; exact D
    · rw [hM, HP.o_same'', HP.o_cyc]; linarith
    · rw [hM, HP.o_same', HP.o_cyc']; linarith
  obtain ⟨d1, p1, n1⟩ := near D
  obtain ⟨d2, p2, n2⟩ := near D0
  obtain ⟨e, he0, hed⟩ := exists_between (lt_min p1 p2)
  rw [lt_min_iff] at hed
  have i1 := n1 e he0 hed.1
  have i2 := n2 e he0 hed.2
  obtain ⟨q, hq⟩ : ∃ q : Vtx K, (HP.ofVtx M).mix (HP.ofVtx C) e = HP.ofVtx q := ⟨⟨_, _⟩, rfl⟩
  rw [hq] at i1 i2
  have f0 : c0 < INF0 := by
    obtain ⟨j, U, hUj, hUf, hcl⟩ := h.unb.region hn h.v h.t h.v' h.t' h.ok h.ok' habc fa fb fc i1
    obtain ⟨k, T, _, _, _, hTk, hR⟩ := h0
    have := closed_inAt h.v h.t hcl ((inAt_rot hTk hR).2 i2)
    subst this
    rw [hUj] at hTk; simp at hTk; subst hTk
    simp only [Tri.isFinite, Bool.and_eq_true, isFin_iff] at hUf
    rcases hR with rfl | rfl | rfl
    · exact hUf.2
    · exact hUf.1.1
    · exact hUf.1.2
  refine ⟨f0, ?_⟩
  obtain ⟨C0, gC0⟩ := get h.ok h0.next.next f0
  have hcw := (o_pos_cw hn gA gB gC0).1 D0
  by_contra hcon
  push Not at hcon
  rw [hp_fin fa gA, hp_fin fb gB, hp_fin fc gC, hp_fin f0 gC0] at hcon
  have hin := (inCircle_ic hcw).2 hcon
  have hvis := h.visible habc fa fb fc i1 gC
  obtain ⟨t, ht, hc⟩ := h0.mem_filterSeq fa fb f0
  have hqT : InTriangle A B C0 q := by
    obtain ⟨q1, q2, q3⟩ := i2
    rw [hp_fin fa gA, hp_fin fb gB, o_area2] at q1
    rw [hp_fin fb gB, hp_fin f0 gC0, o_area2] at q2
    rw [hp_fin fa gA, hp_fin f0 gC0, o_area2] at q3
    unfold InTriangle Clockwise
    exact ⟨by linarith, by linarith, by linarith⟩
  have hCm := List.mem_of_getElem? gC
  rcases hc with rfl | rfl | rfl
  · exact hD _ ht A B C0 gA gB gC0 q hqT C hCm hvis hin
  · exact hD _ ht B C0 A gB gC0 gA q ⟨hqT.2.1, hqT.2.2, hqT.1⟩ C hCm hvis (inCircle_cyc hin)
  · exact hD _ ht C0 A B gC0 gA gB q ⟨hqT.2.2, hqT.1, hqT.2.1⟩ C hCm hvis (inCircle_cyc (inCircle_cyc hin))

/-- An edge of both meshes is locally Delaunay in the second one if the first one is locally Delaunay. -/
theorem Twin.keep {S : List Edge} (h : Twin vs S ts ts') (hD : LocD vs S ts) {a b c d : Nat} (h1 : TriIn ts' a b c) (h2 : TriIn ts' b a d)
    (fa : a < INF0) (fb : b < INF0) (fc : c < INF0) (fd : d < INF0) (n1 : (⟨a, b⟩ : Edge) ∉ S) (n2 : (⟨b, a⟩ : Edge) ∉ S)
    (hab : HasEdge ts a b) : HP.ic (hp vs a) (hp vs b) (hp vs c) (hp vs d) ≤ 0 := by
  have hC := hD.constrained h.ids h.v h.t h.ok h.all
  obtain ⟨c0, hc0⟩ := hab.tri
  obtain ⟨d0, hd0⟩ := (HasEdge.symm h.v (.inl fa) hab).tri
  obtain ⟨f1, q1⟩ := h.side hC h1 fa fb fc hc0
  obtain ⟨f2, q2⟩ := h.side hC h2 fb fa fd hd0
  have q3 := hD a b c0 d0 hc0 hd0 fa fb f1 f2 n1 n2
  have wa := hp_w_fin vs fa
  have wb := hp_w_fin vs fb
  have wc := hp_w_fin vs fc
  have wd := hp_w_fin vs fd
  have w1 := hp_w_fin vs f1
  have w2 := hp_w_fin vs f2
  have p1 := h1.pos h.v'
  have p2 := h2.pos h.v'
  have p3 := hc0.pos h.v
  have p4 := hd0.pos h.v
  have q4 : HP.ic (hp vs b) (hp vs a) (hp vs d) (hp vs c0) ≤ 0 := by
    refine ic_local wb wa w2 wd w1 p4 p2 ?_ q2 ?_
    · rw [HP.o_swap]; linarith
    · rw [ic_both wa wb w1 w2]; exact q3
  rw [ic_both wa wb w1 wd] at q4
  exact ic_local wa wb w1 wc wd p3 p1 (by rw [HP.o_swap] at p2; linarith) q1 q4

end CDT

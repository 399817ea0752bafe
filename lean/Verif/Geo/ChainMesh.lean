import Verif.Geo.Chain
import Verif.Geo.Delaunay

/-! # The chains of a mesh stay convex -/

set_option linter.unusedSectionVars false
set_option linter.unusedSimpArgs false
set_option linter.unusedVariables false

namespace CDT

section
variable {K : Type} [Field K] [LinearOrder K] [IsStrictOrderedRing K] [ExactParams K] [IdCfg]
variable {vs : List (Vtx K)} {ts ts0 ts' : List Tri}

/-- Coordinate along the chain of the direction `Z`. -/
def HP.along (Z a : HP K) : K := a.y * Z.x - a.x * Z.y

/-- Coordinate in the direction `Z`. -/
def HP.out (Z a : HP K) : K := a.x * Z.x + a.y * Z.y

theorem HP.o_along {u v Z : HP K} (hu : u.w = 1) (hv : v.w = 1) (hZ : Z.w = 0) : HP.o u v Z = Z.along v - Z.along u := by
  simp only [HP.o, HP.along, hu, hv, hZ]; ring

theorem hp_unit (vs : List (Vtx K)) {z : Nat} (hz : ¬ z < INF0) : (hp vs z).x ^ 2 + (hp vs z).y ^ 2 = 1 := by
  unfold hp
  rw [if_neg hz]
  split
  · simp [HP.dir]
  split
  · simp [HP.dir]
  split <;> simp [HP.dir]

theorem HP.o_out {u v c Z : HP K} (hu : u.w = 1) (hv : v.w = 1) (hc : c.w = 1) (hZ : Z.x ^ 2 + Z.y ^ 2 = 1) :
    HP.o u v c = (Z.out c - Z.out u) * (Z.along v - Z.along u) - (Z.out v - Z.out u) * (Z.along c - Z.along u) := by
  have e : (Z.out c - Z.out u) * (Z.along v - Z.along u) - (Z.out v - Z.out u) * (Z.along c - Z.along u) =
      (Z.x ^ 2 + Z.y ^ 2) * ((v.y - u.y) * (c.x - u.x) - (v.x - u.x) * (c.y - u.y)) := by
    simp only [HP.out, HP.along]; ring
  rw [e, hZ]
  simp only [HP.o, hu, hv, hc]; ring

/-- The chain coordinates and links of the artificial vertex `z`. -/
def chT (vs : List (Vtx K)) (z v : Nat) : K := (hp vs z).along (hp vs v)
def chS (vs : List (Vtx K)) (z v : Nat) : K := (hp vs z).out (hp vs v)
def chF (v : Nat) : Prop := v < INF0
def chN (ts : List Tri) (z u v : Nat) : Prop := TriIn ts u v z

theorem TriIn.eq_of (hv : Valid (hp vs) ts) {i : Nat} {T : Tri} (hT : ts[i]? = some T) {u v x y z j1 j2 j3 k1 k2 k3 : Nat}
    (h1 : Rot T u v z j1 j2 j3) (h2 : Rot T x y z k1 k2 k3) : u = x ∧ v = y := by
  obtain ⟨n1, n2, n3⟩ := (hv.pos _ _ hT).ne
  rcases h1 with rfl | rfl | rfl <;> rcases h2 with h | h | h <;> rw [Tri.mk.injEq] at h <;> simp only at n1 n2 n3 <;>
    obtain ⟨e1, e2, e3, -⟩ := h <;> first
    | exact ⟨e1, e2⟩
    | exact ⟨e2, e3⟩
    | exact ⟨e3, e1⟩
    | omega

theorem chain_ok (hv : Valid (hp vs) ts) (ht : Tiled vs ts) {z : Nat} (hz : ¬ z < INF0) :
    Chain.Ok chF (chT vs z) (chN ts z) := by
  have wz := hp_w_inf vs hz
  have hu1 := hp_unit vs hz
  have hfin : ∀ u v, chN ts z u v → chF u ∨ chF v := by
    intro u v h
    by_contra hc
    rw [not_or] at hc
    have := h.pos hv
    rw [HP.o_inf3 (hp_w_inf vs hc.1) (hp_w_inf vs hc.2) wz] at this
    exact lt_irrefl _ this
  refine ⟨?_, hfin, ?_, ?_, ?_⟩
  · intro u v h fu fv
    have := h.pos hv
    rw [HP.o_along (hp_w_fin vs fu) (hp_w_fin vs fv) wz] at this
    exact sub_pos.1 this
  · intro u v h fv
    obtain ⟨i, T, _, _, _, hT, hR⟩ := h
    rcases hv.adj _ _ _ _ ⟨T, hT, hR.has2⟩ with ⟨_, h, _⟩ | ⟨_, U, hU, hh⟩
    · exact absurd fv h
    · obtain ⟨d, _, _, hRU⟩ := hh.rot
      exact ⟨d, TriIn.next ⟨_, U, _, _, _, hU, hRU⟩⟩
  · intro u v h fu
    obtain ⟨i, T, _, _, _, hT, hR⟩ := h
    rcases hv.adj _ _ _ _ ⟨T, hT, hR.has3⟩ with ⟨_, _, h⟩ | ⟨_, U, hU, hh⟩
    · exact absurd fu h
    · obtain ⟨d, _, _, hRU⟩ := hh.rot
      exact ⟨d, (TriIn.next ⟨_, U, _, _, _, hU, hRU⟩).next⟩
  · intro u v x y h1 h2 r b1 b2
    set Z := hp vs z with hZ
    have key : ∀ u v, chN ts z u v → Chain.Bet chF (chT vs z) u v r → ∃ S0 : K, ∀ S, S0 ≤ S →
        In3 (hp vs u) (hp vs v) Z ⟨S * Z.x - r * Z.y, S * Z.y + r * Z.x, 1⟩ := by
      intro u v h b
      have hp0 := h.pos hv
      rw [← hZ] at hp0
      have tg : ∀ S, Z.along ⟨S * Z.x - r * Z.y, S * Z.y + r * Z.x, 1⟩ = r := by
        intro S
        have : Z.along ⟨S * Z.x - r * Z.y, S * Z.y + r * Z.x, 1⟩ = r * (Z.x ^ 2 + Z.y ^ 2) := by simp only [HP.along]; ring
        rw [this, hu1, mul_one]
      have e : ∀ S, HP.o (hp vs u) (hp vs v) ⟨S * Z.x - r * Z.y, S * Z.y + r * Z.x, 1⟩ =
          HP.o (hp vs u) (hp vs v) ⟨- r * Z.y, r * Z.x, 1⟩ + S * HP.o (hp vs u) (hp vs v) Z := by
        intro S; simp only [HP.o, wz]; ring
      have s2 : ∀ S, 0 < HP.o (hp vs v) Z ⟨S * Z.x - r * Z.y, S * Z.y + r * Z.x, 1⟩ := by
        intro S
        by_cases fv : chF v
        · rw [← HP.o_cyc', HP.o_along rfl (hp_w_fin vs fv) wz, tg]
          exact sub_pos.2 (b.2 fv)
        · have fu := (hfin _ _ h).resolve_right fv
          rw [HP.o_inf2 (q := hp vs u) (hp_w_inf vs fv) wz rfl (hp_w_fin vs fu), HP.o_cyc]
          exact hp0
      have s3 : ∀ S, 0 < HP.o Z (hp vs u) ⟨S * Z.x - r * Z.y, S * Z.y + r * Z.x, 1⟩ := by
        intro S
        by_cases fu : chF u
        · rw [← HP.o_cyc, HP.o_along (hp_w_fin vs fu) rfl wz, tg]
          exact sub_pos.2 (b.1 fu)
        · have fv := (hfin _ _ h).resolve_left fu
          rw [HP.o_inf2 (q := hp vs v) wz (hp_w_inf vs fu) rfl (hp_w_fin vs fv), HP.o_cyc']
          exact hp0
      refine ⟨(1 - HP.o (hp vs u) (hp vs v) ⟨- r * Z.y, r * Z.x, 1⟩) / HP.o (hp vs u) (hp vs v) Z, fun S hS => ⟨?_, s2 S, s3 S⟩⟩
      rw [e]
      rw [div_le_iff₀ hp0] at hS
      linarith
    obtain ⟨S1, k1⟩ := key _ _ h1 b1
    obtain ⟨S2, k2⟩ := key _ _ h2 b2
    have k1 := k1 _ (le_max_left S1 S2)
    have k2 := k2 _ (le_max_right S1 S2)
    obtain ⟨i, T, _, _, _, hT, hR⟩ := h1
    obtain ⟨j, U, _, _, _, hU, hRU⟩ := h2
    have := ht.disjoint (g := ⟨max S1 S2 * Z.x - r * Z.y, max S1 S2 * Z.y + r * Z.x, 1⟩) rfl ((inAt_rot hT hR).2 k1) ((inAt_rot hU hRU).2 k2)
    subst this
    rw [hT] at hU; simp at hU; subst hU
    exact TriIn.eq_of hv hT hR hRU

/-- The unbounded triangles of the mesh form convex chains: no finite vertex next to the artificial vertex `z` is strictly outside the
line of a finite edge with a triangle to `z`. -/
def Convexish (vs : List (Vtx K)) (ts : List Tri) : Prop :=
  ∀ z, ¬ z < INF0 → Chain.Convex chF (chT vs z) (chS vs z) (chN ts z)

/-- The point of `p` is in a closed triangle with the vertex `v`. -/
def Near (vs : List (Vtx K)) (ts0 : List Tri) (p v : Nat) : Prop := ∃ x y, TriIn ts0 v x y ∧ 0 ≤ HP.o (hp vs v) (hp vs x) (hp vs p) ∧
  0 ≤ HP.o (hp vs x) (hp vs y) (hp vs p) ∧ 0 ≤ HP.o (hp vs y) (hp vs v) (hp vs p)

/-- The triangles around the inserted vertex: the opposite edges are edges of the old mesh, and the artificial vertices are those of
the old triangles where the vertex was inserted. -/
def LinkInv (vs : List (Vtx K)) (ts0 : List Tri) (p : Nat) (ts : List Tri) : Prop :=
  ∀ (i : Nat) (T : Tri), ts[i]? = some T → TriIn ts0 T.v1 T.v2 T.v3 ∨ (T.v1 = p ∧ (∃ z, TriIn ts0 T.v2 T.v3 z) ∧
    (¬ T.v2 < INF0 → Near vs ts0 p T.v2) ∧ (¬ T.v3 < INF0 → Near vs ts0 p T.v3))

/-- The swap test never swaps towards an artificial vertex. -/
theorem shouldSwap_fin {a b c p : Nat} (h : shouldSwap vs ⟨a, b, c, p⟩ = .ok true) : c < INF0 := by
  by_contra hc
  unfold shouldSwap at h
  rw [if_pos (isInf_iff.2 (by simpa using hc))] at h
  simp at h

/-- The swap test with one artificial vertex on the diagonal. -/
theorem shouldSwap_semi {a b c p : Nat} (ha : VOk vs.length a) (hb : VOk vs.length b) (hc : VOk vs.length c)
    (hp' : p < vs.length) (hpf : p < INF0) (hcf : c < INF0) (h : shouldSwap vs ⟨a, b, c, p⟩ = .ok false) :
    (¬ a < INF0 → b < INF0 → HP.o (hp vs c) (hp vs b) (hp vs p) < ExactParams.eps) ∧
    (a < INF0 → ¬ b < INF0 → HP.o (hp vs a) (hp vs c) (hp vs p) < ExactParams.eps) := by
  obtain ⟨P, gP, _, eP⟩ := getI_fin (vs := vs) (.inl hp') hpf
  obtain ⟨C, gC, _, eC⟩ := getI_fin hc hcf
  unfold shouldSwap at h
  rw [if_neg (by rw [isInf_iff]; simpa using hcf)] at h
  constructor
  · intro haf hbf
    have haf' : isFin a = false := by rw [isFin_false_iff]; omega
    obtain ⟨B, gB, _, eB⟩ := getI_fin hb hbf
    simp only [isFin_iff.2 hbf, haf', Bool.and_false, Bool.not_true, Bool.false_and, Bool.and_true, Bool.not_false,
      Bool.false_eq_true, if_false, if_true,
      inHalfPlane1, oppEdgeIdx, edgeToVert0, edgeToVert1, Quad.v, Fin.castSucc, Fin.castAdd, Fin.castLE, gB, gC, gP,
      Res.ok_bind] at h
    simp [strictlyRightOfEdge, edgeSide_eq] at h
    rw [eB, eC, eP]; linarith
  · intro haf hbf
    have hbf' : isFin b = false := by rw [isFin_false_iff]; omega
    obtain ⟨A, gA, _, eA⟩ := getI_fin ha haf
    simp only [isFin_iff.2 haf, hbf', Bool.and_false, Bool.not_true, Bool.false_and, Bool.false_eq_true, if_false,
      inHalfPlane1, oppEdgeIdx, edgeToVert0, edgeToVert1, Quad.v, Fin.castSucc, Fin.castAdd, Fin.castLE, gA, gC, gP,
      Res.ok_bind] at h
    simp [strictlyRightOfEdge, edgeSide_eq] at h
    rw [eA, eC, eP]; linarith

/-- Separated vertices are not slightly outside a line. -/
theorem Sep.le_zero (h : Sep vs) (hn : vs.length ≤ INF0) {a b p : Nat} (ha : VOk vs.length a) (hb : VOk vs.length b) (hpl : p < vs.length)
    (haf : a < INF0) (hlt : HP.o (hp vs a) (hp vs b) (hp vs p) < ExactParams.eps) : HP.o (hp vs a) (hp vs b) (hp vs p) ≤ 0 := by
  by_contra hc
  obtain ⟨P, _, mP, eP⟩ := getI_fin (vs := vs) (.inl hpl) (by omega)
  rw [eP] at hlt hc
  exact hc (h.zero hn (List.mem_of_getElem? mP) ha hb (.inl haf) (by rw [abs_of_pos (not_le.1 hc)]; exact hlt)).le

/-- One step of the restoration keeps the comparison with the old mesh. -/
theorem LinkInv.step {p s o : Nat} {st st' : List (Nat × Nat)} (hI : RInv vs p ts ((s, o) :: st))
    (hS : LinkInv vs ts0 p ts) (hfresh : ¬ Occ ts0 p) (hn : vs.length ≤ INF0) (hpl : p < vs.length)
    (hr : checkAndSwap vs p ts s o st = .ok (ts', st')) : LinkInv vs ts0 p ts' := by
  have hv := hI.valid
  have hpf : p < INF0 := by omega
  obtain ⟨T, hT, hT1, hT2, ho⟩ := hI.stack (s, o) (by simp)
  obtain ⟨v1, a, b, n2, n23, n1⟩ := T
  simp only at hT hT1 hT2 ho
  subst hT1 hT2
  obtain ⟨U, c, n3, n4, hU, hRU, hcase⟩ := checkAndSwap_total (st := st) hv hn hI.ok hpl hT ho
  rcases hcase with ⟨hsw, hres⟩ | ⟨hsw, ts2, hres, hF, hs', ho', g1, g2⟩
  · rw [hres] at hr; simp at hr; rw [← hr.1]; exact hS
  rw [hres] at hr; simp at hr
  obtain ⟨rfl, _⟩ := hr
  have hR := rot_self (⟨v1, a, b, n2, n23, n1⟩ : Tri)
  simp only at hR
  have pS := hR.pos_iff.1 (hv.pos _ _ hT)
  have hab : (¬ a < INF0 → Near vs ts0 v1 a) ∧ (¬ b < INF0 → Near vs ts0 v1 b) := by
    rcases hS _ _ hT with h | ⟨_, _, h1, h2⟩
    · exact absurd h.occ hfresh
    · exact ⟨h1, h2⟩
  have hcf := shouldSwap_fin hsw
  have hUp : U.v1 ≠ v1 := by
    intro h
    have hh : U.hasVert v1 = true := hasVert_iff.2 (.inl h)
    rw [hRU.hasVert] at hh
    rcases hh with rfl | rfl | rfl
    · rw [HP.o_same''] at pS; exact lt_irrefl _ pS
    · rw [HP.o_same] at pS; exact lt_irrefl _ pS
    · rw [HP.o_same] at g2; exact lt_irrefl _ g2
  have old : TriIn ts0 b a c := by
    rcases hS _ _ hU with h | ⟨h, _⟩
    · exact hRU.triIn h
    · exact absurd h hUp
  intro i X hX
  by_cases his : i = s
  · subst his; rw [hs'] at hX; simp at hX; subst hX
    exact .inr ⟨rfl, ⟨b, old.next⟩, hab.1, fun h => absurd hcf h⟩
  by_cases hio : i = n23
  · subst hio; rw [ho'] at hX; simp at hX; subst hX
    exact .inr ⟨rfl, ⟨a, old.next.next⟩, fun h => absurd hcf h, hab.2⟩
  obtain ⟨X0, hX0, w1, w2, w3⟩ := hF.verts_other his hio hX
  have := hS _ _ hX0
  rw [w1, w2, w3]
  exact this

theorem restore_link {p : Nat} (hfresh : ¬ Occ ts0 p) (hn : vs.length ≤ INF0) (hpl : p < vs.length) (fuel : Nat) :
    ∀ (ts : List Tri) (st : List (Nat × Nat)), RInv vs p ts st → LinkInv vs ts0 p ts → ∀ ts', restore vs p fuel ts st = .ok ts' →
      LinkInv vs ts0 p ts' := by
  induction fuel with
  | zero =>
    intro ts st hI hS ts' h
    cases st with
    | nil => simp [restore] at h; subst h; exact hS
    | cons e st => simp [restore] at h
  | succ n ih =>
    intro ts st hI hS ts' h
    cases st with
    | nil => simp [restore] at h; subst h; exact hS
    | cons e st =>
      obtain ⟨s, o⟩ := e
      obtain ⟨ts1, st1, h1, hI', _⟩ := hI.step hn hpl
      simp only [restore, h1, Res.ok_bind] at h
      exact ih ts1 st1 hI' (hS.step hI hfresh hn hpl h1) ts' h

/-- The vertices of the mesh after a split. -/
theorem MStep.link {vid : Nat} (h : MStep (hp vs) ts0 ts) (hl : ts.length = ts0.length + 2) (hv : Valid (hp vs) ts0)
    (hfresh : ¬ Occ ts0 vid) (hocc : Occ ts vid) : LinkInv vs ts0 vid ts := by
  have inside : ∀ {a b c : Nat}, TriIn ts0 a b c → 0 ≤ HP.o (hp vs a) (hp vs b) (hp vs vid) →
      0 ≤ HP.o (hp vs b) (hp vs c) (hp vs vid) → 0 ≤ HP.o (hp vs c) (hp vs a) (hp vs vid) →
      (∃ z, TriIn ts0 a b z) ∧ (¬ a < INF0 → Near vs ts0 vid a) ∧ (¬ b < INF0 → Near vs ts0 vid b) := by
    intro a b c hT h1 h2 h3
    exact ⟨⟨c, hT⟩, fun _ => ⟨b, c, hT, h1, h2, h3⟩, fun _ => ⟨c, a, hT.next, h2, h3, h1⟩⟩
  cases h with
  | split3 ht hs hl' h =>
    rename_i t1 p t
    have hT := triIn_get ht
    have hp : vid = p := by
      obtain ⟨i, T, gT, hh⟩ := hocc
      have hil := lt_of_getElem? gT
      rw [hs.len] at hil
      rw [hasVert_iff] at hh
      by_cases h1 : i = t1
      · subst h1; rw [hs.h1] at gT; simp at gT; subst gT
        rcases hh with rfl | rfl | rfl
        · rfl
        · exact absurd hT.next.next.occ hfresh
        · exact absurd hT.occ hfresh
      by_cases h2 : i = ts0.length
      · subst h2; rw [hs.h2] at gT; simp at gT; subst gT
        rcases hh with rfl | rfl | rfl
        · rfl
        · exact absurd hT.next.occ hfresh
        · exact absurd hT.next.next.occ hfresh
      by_cases h3 : i = ts0.length + 1
      · subst h3; rw [hs.h3] at gT; simp at gT; subst gT
        rcases hh with rfl | rfl | rfl
        · rfl
        · exact absurd hT.occ hfresh
        · exact absurd hT.next.occ hfresh
      exfalso
      obtain ⟨u0, hu0, w1, w2, w3⟩ := hs.verts_other (by omega) h1 gT
      refine hfresh ⟨i, u0, hu0, ?_⟩
      rw [hasVert_iff]; rwa [w1, w2, w3] at hh
    subst hp
    have s0 := (h 0).le
    have s1 := (h 1).le
    have s2 := (h 2).le
    simp only [sideO, Tri.v_0, Tri.v_1, Tri.v_2, show (0 : Fin 3) + 1 = 1 from rfl, show (1 : Fin 3) + 1 = 2 from rfl,
      show (2 : Fin 3) + 1 = 0 from rfl] at s0 s1 s2
    intro i T gT
    have hil := lt_of_getElem? gT
    rw [hs.len] at hil
    by_cases h1 : i = t1
    · subst h1; rw [hs.h1] at gT; simp at gT; subst gT
      exact .inr ⟨rfl, inside hT.next.next s2 s0 s1⟩
    by_cases h2 : i = ts0.length
    · subst h2; rw [hs.h2] at gT; simp at gT; subst gT
      exact .inr ⟨rfl, inside hT.next s1 s2 s0⟩
    by_cases h3 : i = ts0.length + 1
    · subst h3; rw [hs.h3] at gT; simp at gT; subst gT
      exact .inr ⟨rfl, inside hT s0 s1 s2⟩
    obtain ⟨u0, hu0, w1, w2, w3⟩ := hs.verts_other (by omega) h1 gT
    rw [w1, w2, w3]
    exact .inl (triIn_get hu0)
  | split4 hs hl' h0 h1 h2 =>
    rename_i t1 t2 p x y o1 o2 n1 n2 n3 n4
    have hA : TriIn ts0 x y o1 := by obtain ⟨a, ga, hRa⟩ := hs.g1; exact ⟨_, a, _, _, _, ga, hRa⟩
    have hB : TriIn ts0 y x o2 := by obtain ⟨a, ga, hRa⟩ := hs.g2; exact ⟨_, a, _, _, _, ga, hRa⟩
    have hp : vid = p := by
      obtain ⟨i, T, gT, hh⟩ := hocc
      have hil := lt_of_getElem? gT
      rw [hs.len] at hil
      rw [hasVert_iff] at hh
      by_cases h1 : i = t1
      · subst h1; rw [hs.h1] at gT; simp at gT; subst gT
        rcases hh with rfl | rfl | rfl
        · rfl
        · exact absurd hA.next.next.occ hfresh
        · exact absurd hA.occ hfresh
      by_cases h2 : i = t2
      · subst h2; rw [hs.h2] at gT; simp at gT; subst gT
        rcases hh with rfl | rfl | rfl
        · rfl
        · exact absurd hA.occ hfresh
        · exact absurd hB.next.next.occ hfresh
      by_cases h3 : i = ts0.length
      · subst h3; rw [hs.h3] at gT; simp at gT; subst gT
        rcases hh with rfl | rfl | rfl
        · rfl
        · exact absurd hA.next.occ hfresh
        · exact absurd hA.next.next.occ hfresh
      by_cases h4 : i = ts0.length + 1
      · subst h4; rw [hs.h4] at gT; simp at gT; subst gT
        rcases hh with rfl | rfl | rfl
        · rfl
        · exact absurd hB.next.next.occ hfresh
        · exact absurd hB.occ hfresh
      exfalso
      obtain ⟨u0, hu0, w1, w2, w3⟩ := hs.verts_other (by omega) h1 h2 gT
      refine hfresh ⟨i, u0, hu0, ?_⟩
      rw [hasVert_iff]; rwa [w1, w2, w3] at hh
    subst hp
    obtain ⟨q1, q2, q3, q4⟩ := hs.pos4 hv h0 h1 h2
    have a1 : 0 ≤ HP.o (hp vs x) (hp vs y) (hp vs vid) := h0.ge
    have b1 : 0 ≤ HP.o (hp vs y) (hp vs x) (hp vs vid) := by rw [HP.o_swap, h0, neg_zero]
    have b2 : 0 ≤ HP.o (hp vs x) (hp vs o2) (hp vs vid) := by rw [HP.o_cyc]; exact q2.le
    have b3 : 0 ≤ HP.o (hp vs o2) (hp vs y) (hp vs vid) := by rw [HP.o_cyc]; exact q4.le
    intro i T gT
    have hil := lt_of_getElem? gT
    rw [hs.len] at hil
    by_cases k1 : i = t1
    · subst k1; rw [hs.h1] at gT; simp at gT; subst gT
      exact .inr ⟨rfl, inside hA.next.next h2.le a1 h1.le⟩
    by_cases k2 : i = t2
    · subst k2; rw [hs.h2] at gT; simp at gT; subst gT
      exact .inr ⟨rfl, inside hB.next b2 b3 b1⟩
    by_cases k3 : i = ts0.length
    · subst k3; rw [hs.h3] at gT; simp at gT; subst gT
      exact .inr ⟨rfl, inside hA.next h1.le h2.le a1⟩
    by_cases k4 : i = ts0.length + 1
    · subst k4; rw [hs.h4] at gT; simp at gT; subst gT
      exact .inr ⟨rfl, inside hB.next.next b3 b1 b2⟩
    obtain ⟨u0, hu0, w1, w2, w3⟩ := hs.verts_other (by omega) k1 k2 gT
    rw [w1, w2, w3]
    exact .inl (triIn_get hu0)
  | flip hs h1 h2 => rw [hs.len] at hl; omega

/-- The triangles around the inserted vertex. -/
theorem LinkInv.star {p x y : Nat} (hS : LinkInv vs ts0 p ts) (hv : Valid (hp vs) ts) (hfresh : ¬ Occ ts0 p)
    (h : TriIn ts p x y) : (∃ z, TriIn ts0 x y z) ∧ (¬ x < INF0 → Near vs ts0 p x) ∧ (¬ y < INF0 → Near vs ts0 p y) := by
  have hp0 := h.pos hv
  obtain ⟨i, T, _, _, _, hT, hR⟩ := h
  rcases hS i T hT with h | ⟨h1, h2⟩
  · exact absurd (hR.triIn h).occ hfresh
  · rcases hR with rfl | rfl | rfl
    · exact h2
    · simp only at h1; subst h1; rw [HP.o_same''] at hp0; exact absurd hp0 (lt_irrefl _)
    · simp only at h1; subst h1; rw [HP.o_same] at hp0; exact absurd hp0 (lt_irrefl _)

theorem LinkInv.old {p a b c : Nat} (hS : LinkInv vs ts0 p ts) (h : TriIn ts a b c) (ha : a ≠ p) (hb : b ≠ p) (hc : c ≠ p) :
    TriIn ts0 a b c := by
  obtain ⟨i, T, _, _, _, hT, hR⟩ := h
  rcases hS i T hT with h | ⟨h1, -⟩
  · exact hR.triIn h
  · exfalso
    rcases hR with rfl | rfl | rfl <;> simp only at h1
    · exact ha h1
    · exact hc h1
    · exact hb h1

/-- Behind the edge opposite to the inserted vertex the swap test fails. -/
theorem RInv.behind {p x y : Nat} (hI : RInv vs p ts []) (h : TriIn ts p x y) (hxy : x < INF0 ∨ y < INF0) :
    ∃ c, TriIn ts y x c ∧ shouldSwap vs ⟨x, y, c, p⟩ = .ok false ∧ VOk vs.length x ∧ VOk vs.length y ∧ VOk vs.length c := by
  have hv := hI.valid
  have hp0 := h.pos hv
  obtain ⟨i, T, j1, j2, j3, hT, hR⟩ := h
  have h1 := hI.first i T hT (hR.hasVert.2 (.inl rfl))
  have hT' : T = ⟨p, x, y, j1, j2, j3⟩ := by
    rcases hR with rfl | rfl | rfl
    · rfl
    · simp only at h1; subst h1; rw [HP.o_same''] at hp0; exact absurd hp0 (lt_irrefl _)
    · simp only at h1; subst h1; rw [HP.o_same] at hp0; exact absurd hp0 (lt_irrefl _)
  subst hT'
  have hN : j2 ≠ NONE := by
    rcases hv.adj _ _ _ _ ⟨_, hT, hR.has2⟩ with ⟨_, h, h'⟩ | h
    · rcases hxy with g | g
      · exact absurd g h
      · exact absurd g h'
    · exact h.1
  obtain ⟨U, hU, hh⟩ := hv.ent_pos ⟨_, hT, hR.has2⟩ hN
  obtain ⟨c, m2, m3, hRU⟩ := hh.rot
  have hsw := (hI.settled i _ hT rfl).resolve_left (by simp) _ _ _ _ _ hT hN U c _ _ _ hU hRU
  refine ⟨c, ⟨_, U, _, _, _, hU, hRU⟩, hsw, hI.ok.get hT 1, hI.ok.get hT 2, ?_⟩
  have := fun k => hI.ok.get hU k
  rw [forall_fin3] at this
  rcases hRU with rfl | rfl | rfl
  · exact this.2.2
  · exact this.1
  · exact this.2.1

/-- One insertion keeps the chains convex. -/
theorem Convexish.insert {p : Nat} (hC : Convexish vs ts0) (hI : RInv vs p ts []) (hS : LinkInv vs ts0 p ts) (hfresh : ¬ Occ ts0 p)
    (hv0 : Valid (hp vs) ts0) (ht0 : Tiled vs ts0) (ht : Tiled vs ts) (hsep : Sep vs) (hn : vs.length ≤ INF0) (hpl : p < vs.length) :
    Convexish vs ts := by
  intro z hz
  have hv := hI.valid
  have hpf : p < INF0 := by omega
  have wz := hp_w_inf vs hz
  have zu := hp_unit vs hz
  have hzp : z ≠ p := by rintro rfl; exact hz hpf
  have ok0 := chain_ok hv0 ht0 hz
  have ok := chain_ok hv ht hz
  have wf := fun {i : Nat} (h : i < INF0) => hp_w_fin vs h
  have below : ∀ {u v : Nat}, chF u → chF v → HP.o (hp vs u) (hp vs v) (hp vs p) ≤ 0 → Chain.Below (chT vs z) (chS vs z) u v p := by
    intro u v fu fv h
    rw [HP.o_out (wf fu) (wf fv) (wf hpf) zu] at h
    exact sub_nonpos.1 h
  refine Chain.Ins.stays (p := p) ⟨ok0, ok, hC z hz, hpf, ?_, ?_, ?_, ?_, ?_, ?_⟩
  · intro u v hN hu hv
    exact hS.old hN hu hv hzp
  · intro u hN fu
    have hT : TriIn ts p z u := TriIn.next hN
    obtain ⟨⟨c, hc⟩, -⟩ := hS.star hv hfresh hT
    exact ⟨c, hc.next⟩
  · intro v hN fv
    obtain ⟨⟨c, hc⟩, -⟩ := hS.star hv hfresh hN
    exact ok0.next c v hc.next.next fv
  · rintro ⟨d, hd⟩
    obtain ⟨-, -, hnear⟩ := hS.star hv hfresh hd
    obtain ⟨x, y, h0, h1, h2, h3⟩ := hnear hz
    refine ⟨x, y, h0.next, fun fx => ?_, fun fy => ?_, fun fx fy => ?_⟩
    · rw [← HP.o_cyc, HP.o_along (wf fx) (wf hpf) wz] at h1
      exact sub_nonneg.1 h1
    · rw [← HP.o_cyc', HP.o_along (wf hpf) (wf fy) wz] at h3
      exact sub_nonneg.1 h3
    · rw [HP.o_out (wf fx) (wf fy) (wf hpf) zu] at h2
      exact sub_nonneg.1 h2
  · intro x u h1 h2 fx fu
    have hT : TriIn ts p z u := TriIn.next h2
    obtain ⟨c, hc, hsw, _, oku, okc⟩ := hI.behind hT (.inr fu)
    have hcu : chN ts z c u := hc.next.next
    obtain ⟨rfl, -⟩ := ok.hit h1 hcu fu (fun fx => ok.mono _ _ h1 fx fu) (fun _ => le_rfl)
    exact below fx fu (hsep.le_zero hn okc oku hpl fx ((shouldSwap_semi (by assumption) oku okc hpl hpf fx hsw).1 hz fu))
  · intro v x h1 h2 fx fv
    obtain ⟨c, hc, hsw, okv, okz, okc⟩ := hI.behind h2 (.inl fv)
    have hcu : chN ts z v c := hc.next
    obtain ⟨rfl, -⟩ := ok.mirror.hit h1 hcu fv (fun fx => by have := ok.mono _ _ h1 fv fx; linarith) (fun _ => le_rfl)
    exact below fv fx (hsep.le_zero hn okv okc hpl fv ((shouldSwap_semi okv okz okc hpl hpf fx hsw).2 fv hz))

/-- One insertion. -/
theorem insertVertex_convex {done ins : List Nat} {s s' : DT} {vid fuel : Nat} (hI : DInv vs done ins s)
    (hsep : Sep vs) (hn : vs.length ≤ INF0) (hvl : vid < vs.length) (hvd : vid ∉ done)
    (hfuel : 4 + 3 * (s.ts.length + 2) ≤ fuel) (hlen : s.ts.length + 2 ≤ NONE) (hC : Convexish vs s.ts) (ht : Tiled vs s.ts)
    (hr : insertVertex vs fuel s vid = .ok s') :
    Convexish vs s'.ts ∧ Tiled vs s'.ts ∧ ∃ ins', DInv vs (vid :: done) ins' s' := by
  obtain ⟨sh, h1, h2⟩ := insertWith_shape hI hsep hn hvl hvd hlen
  rw [insertVertex_with, h1] at hr
  cases sh with
  | fail => simp [Shape.eval] at hr
  | keep s1 =>
    simp [Shape.eval] at hr; subst hr
    rw [h2.2]
    exact ⟨hC, ht, _, h2.1⟩
  | go ts1 st =>
    obtain ⟨a1, a2, a3, a4, a5, a6⟩ := h2
    obtain ⟨s2, f1, f2, f3, f4, f5⟩ := finish_total hI hn hvl hvd a1 a2 a3 a4 a5 a6 hfuel hlen
    simp only [Shape.eval] at hr
    rw [f1] at hr; simp at hr; subst hr
    have hvi : vid ∉ ins := fun h => hvd (hI.sub _ h)
    have hvf : vid < INF0 := by omega
    have hfresh : ¬ Occ s.ts vid := by
      rintro ⟨i, t, gt, htv⟩
      have := fun k => hI.verts.get gt k
      rw [forall_fin3] at this
      rw [hasVert_iff] at htv
      simp only [Tri.v_0, Tri.v_1, Tri.v_2] at this
      rcases htv with h | h | h
      · rw [h] at this; rcases this.1 with h' | h'
        · exact hvi h'
        · omega
      · rw [h] at this; rcases this.2.1 with h' | h'
        · exact hvi h'
        · omega
      · rw [h] at this; rcases this.2.2 with h' | h'
        · exact hvi h'
        · omega
    have hS1 := a1.link a2 hI.valid hfresh a3
    obtain ⟨ts2, g1, g2, g3⟩ := restore_total hn hvl fuel ts1 st a4 (by rw [a2]; omega)
    have hts : s2.ts = ts2 := by
      have hl2 := restore_length g1
      have hl3 := g2.valid.len
      simp only [finishInsert, g1, Res.ok_bind, lastId_ok (ts := ts2) (by omega) (by omega)] at f1
      simp at f1; rw [← f1]
    have hS2 := restore_link hfresh hn hvl fuel ts1 st a4 hS1 ts2 g1
    rw [← hts] at hS2
    have ht2 := tiled_steps f4 hI.valid ht
    exact ⟨hC.insert f5 hS2 hfresh hI.valid ht ht2 hsep hn hvl, ht2, _, f2⟩

/-- All insertions. -/
theorem insertAll_convex {fuel : Nat} (hsep : Sep vs) (hn : 2 * vs.length + 2 ≤ NONE) (hfuel : 6 * vs.length + 10 ≤ fuel)
    (rest done ins : List Nat) (s s' : DT) (hI : DInv vs done ins s) (hnd : rest.Nodup) (hdis : ∀ v ∈ rest, v ∉ done)
    (hlt : ∀ v ∈ rest, v < vs.length) (hcard : done.length + rest.length ≤ vs.length) (hC : Convexish vs s.ts) (ht : Tiled vs s.ts)
    (hr : insertAll vs fuel rest s = .ok s') : Convexish vs s'.ts := by
  induction rest generalizing done ins s with
  | nil => simp [insertAll] at hr; subst hr; exact hC
  | cons v rest ih =>
    have hl := hI.len
    simp only [List.length_cons] at hcard
    rw [List.nodup_cons] at hnd
    simp only [insertAll] at hr
    cases h1 : insertVertex vs fuel s v with
    | err e => rw [h1] at hr; simp at hr
    | panic => rw [h1] at hr; simp at hr
    | diverge => rw [h1] at hr; simp at hr
    | ok s1 =>
      rw [h1] at hr; simp only [Res.ok_bind] at hr
      obtain ⟨e1, e3, ins', e4⟩ := insertVertex_convex hI hsep
        (by unfold NONE at hn; unfold INF0; have := IdCfg.big; omega) (hlt v (by simp)) (hdis v (by simp)) (by omega) (by omega)
        hC ht h1
      exact ih _ _ _ e4 hnd.2 (by
          intro w hw hc
          rcases List.mem_cons.1 hc with rfl | hc
          · exact hnd.1 hw
          · exact hdis w (by simp [hw]) hc)
        (fun w hw => hlt w (by simp [hw])) (by simp; omega) e1 e3 hr

/-- The first four triangles have no finite edge. -/
theorem initial_convex {first : Nat} : Convexish vs (initialTriangles first) := by
  intro z hz u v c hN hu hv hc _
  exfalso
  obtain ⟨i, T, _, _, _, hT, hR⟩ := hN
  have hb := IdCfg.big
  have hi := lt_of_getElem? hT
  simp [initialTriangles] at hi
  unfold chF at hu hv
  have : i = 0 ∨ i = 1 ∨ i = 2 ∨ i = 3 := by omega
  rcases this with rfl | rfl | rfl | rfl <;> simp [initialTriangles] at hT <;> subst hT <;>
    rcases hR with h | h | h <;> simp only [Tri.mk.injEq] at h <;> obtain ⟨h1, h2, h3, -⟩ := h <;>
    simp only [INF0, INF1, INF2, INF3] at * <;> omega

end

end CDT

import Verif.Geo.NoCross
import Verif.Spec.Planar
import Verif.Props.RoundedC
import Verif.Props.Grid
import Verif.Props.Rounding

/-!
# C51, C52

C51: constraints that are already edges of the mesh do not change it. C52: the mesh is a planar straight-line mesh.
-/

set_option linter.unusedSectionVars false
set_option linter.unusedVariables false

namespace CDT
open Plane

section
variable {K : Type} [Field K] [LinearOrder K] [IsStrictOrderedRing K]

theorem properCross {a b c d : Vtx K} (h : Spec.ProperCross a b c d) : Plane.Cross a b c d := by
  obtain ⟨p, ⟨t, t0, t1, tx, ty⟩, ⟨s, s0, s1, sx, sy⟩, hn⟩ := h
  let X := (b.x - a.x) * (d.y - c.y) - (d.x - c.x) * (b.y - a.y)
  have e1 : area2 a b c = -s * X := by
    simp only [area2, X]; linear_combination (b.y - a.y) * (sx - tx) - (b.x - a.x) * (sy - ty)
  have e2 : area2 a b d = (1 - s) * X := by
    simp only [area2, X]; linear_combination (b.y - a.y) * (sx - tx) - (b.x - a.x) * (sy - ty)
  have e3 : area2 c d a = t * X := by
    simp only [area2, X]; linear_combination (d.y - c.y) * (tx - sx) - (d.x - c.x) * (ty - sy)
  have e4 : area2 c d b = -(1 - t) * X := by
    simp only [area2, X]; linear_combination (d.y - c.y) * (tx - sx) - (d.x - c.x) * (ty - sy)
  have hX : X ≠ 0 := by rintro h0; rw [e1, h0] at hn; simp at hn
  have hX2 : 0 < X * X := mul_self_pos.2 hX
  have p1 : 0 < s * (1 - s) := mul_pos s0 (by linarith)
  have p2 : 0 < t * (1 - t) := mul_pos t0 (by linarith)
  refine ⟨?_, ?_⟩
  · rw [e1, e2]; have := mul_pos p1 hX2; linarith
  · rw [e3, e4]; have := mul_pos p2 hX2; linarith

theorem side_verts {t : Tri} {a b : Nat} (h : Spec.Side t.verts a b) : ∃ j, Has t a b j := by
  rcases h with ⟨rfl, rfl⟩ | ⟨rfl, rfl⟩ | ⟨rfl, rfl⟩
  · exact ⟨_, has_0 t⟩
  · exact ⟨_, has_1 t⟩
  · exact ⟨_, has_2 t⟩

theorem corner_verts [IdCfg] {t : Tri} {v : Nat} : Spec.Corner t.verts v ↔ t.hasVert v = true := by
  rw [hasVert_iff]; unfold Spec.Corner Tri.verts
  constructor <;> (rintro (h | h | h) <;> simp [h])

variable [ExactParams K] [IdCfg]

/-- A tiled mesh has one vertex per position. -/
theorem occ_inj {vs : List (Vtx K)} {ts : List Tri} (hv : Valid (hp vs) ts) (ht : Tiled vs ts) {v w : Nat} (hw : w < INF0) (h1 : Occ ts v) (h2 : Occ ts w)
    (e : hp vs v = hp vs w) : v = w := by
  obtain ⟨i, T, hT, hTv⟩ := h1
  obtain ⟨y, z, j1, j2, j3, hR, -⟩ := vertexIndex_rot4 hTv (hv.pos _ _ hT)
  have D := hR.pos_iff.1 (hv.pos _ _ hT)
  have := vert_of_in hv ht hw h2 hT hR (by rw [← e, HP.o_same'']) (by rw [← e, HP.o_cyc]; exact D.le) (by rw [← e, HP.o_same'])
  rcases hR.hasVert.1 this with h | h | h
  · exact h
  · exfalso; rw [h, e, HP.o_same] at D; exact lt_irrefl _ D
  · exfalso; rw [h, e, HP.o_same''] at D; exact lt_irrefl _ D

theorem hp_norm_eq {vs : List (Vtx K)} (hn : (normalizeVerts vs).length ≤ INF0) {x : Nat} {X : Vtx K} (hx : vs[x]? = some X) :
    hp (normalizeVerts vs) x = HP.ofVtx (toNorm vs X) := by
  rw [normalizeVerts_eq, List.length_map] at hn
  refine hp_fin (by have := lt_of_getElem? hx; omega) ?_
  rw [normalizeVerts_eq, List.getElem?_map, hx]; rfl

theorem o_norm_area {vs : List (Vtx K)} (hs : 0 < scaleFactor vs) (hn : (normalizeVerts vs).length ≤ INF0) {a b c : Nat} {A B C : Vtx K}
    (gA : vs[a]? = some A) (gB : vs[b]? = some B) (gC : vs[c]? = some C) :
    HP.o (hp (normalizeVerts vs) a) (hp (normalizeVerts vs) b) (hp (normalizeVerts vs) c) = -(area2 A B C / scaleFactor vs ^ 2) := by
  rw [hp_norm_eq hn gA, hp_norm_eq hn gB, hp_norm_eq hn gC, o_area2]
  unfold toNorm
  rw [area2_normalized _ _ _ _ _ _ hs.ne']

/-- The meshes of the algorithm are planar, in input coordinates. -/
theorem planar_mesh {vs : List (Vtx K)} (hs : 0 < scaleFactor vs) (hn : (normalizeVerts vs).length ≤ INF0) {ts : List Tri}
    (hv : Valid (hp (normalizeVerts vs)) ts) (ht : Tiled (normalizeVerts vs) ts) : Spec.Planar vs (ts.map Tri.verts) := by
  have hl : (normalizeVerts vs).length = vs.length := by rw [normalizeVerts_eq]; simp
  have lt : ∀ {a : Nat} {A : Vtx K}, vs[a]? = some A → a < INF0 := fun h => by have := lt_of_getElem? h; omega
  have occ : ∀ {u : Tri} {w : Nat}, u ∈ ts → Spec.Corner u.verts w → Occ ts w := fun hu hc => by
    obtain ⟨i, hi⟩ := List.mem_iff_getElem?.1 hu
    exact ⟨i, _, hi, corner_verts.1 hc⟩
  have edge : ∀ {t : Tri} {a b : Nat}, t ∈ ts → Spec.Side t.verts a b → HasEdge ts a b := fun hu hc => by
    obtain ⟨i, hi⟩ := List.mem_iff_getElem?.1 hu
    obtain ⟨j, hj⟩ := side_verts hc
    exact ⟨i, j, _, hi, hj⟩
  have hs2 : 0 < scaleFactor vs ^ 2 := by positivity
  constructor <;> simp only [List.forall_mem_map]
  · intro t htt u hu v w V c1 c2 g1 g2
    exact occ_inj hv ht (lt g2) (occ htt c1) (occ hu c2) (by rw [hp_norm_eq hn g1, hp_norm_eq hn g2])
  · intro t htt u hu a b w A B W hab hw gA gB gW hI
    refine (edge htt hab).noBtw hv ht (lt gA) (lt gB) w (occ hu hw) ?_
    rw [hp_norm_eq hn gA, hp_norm_eq hn gB, hp_norm_eq hn gW]
    obtain ⟨s, s0, s1, sx, sy⟩ := hI
    refine ⟨1 - s, s, by linarith, s0, ?_, ?_, ?_⟩
    · simp only [HP.ofVtx, toNorm]; rw [sx]; field_simp; ring
    · simp only [HP.ofVtx, toNorm]; rw [sy]; field_simp; ring
    · simp [HP.ofVtx]
  · intro t htt u hu a b c d A B C D hab hcd gA gB gC gD hX
    obtain ⟨x1, x2⟩ := properCross hX
    have hC : HP.Cross (hp (normalizeVerts vs) a) (hp (normalizeVerts vs) b) (hp (normalizeVerts vs) c) (hp (normalizeVerts vs) d) := by
      refine ⟨?_, ?_⟩
      · rw [o_norm_area hs hn gA gB gC, o_norm_area hs hn gA gB gD, neg_mul_neg, div_mul_div_comm]
        exact div_neg_of_neg_of_pos x1 (by positivity)
      · rw [o_norm_area hs hn gC gD gA, o_norm_area hs hn gC gD gB, neg_mul_neg, div_mul_div_comm]
        exact div_neg_of_neg_of_pos x2 (by positivity)
    have hab := edge htt hab
    have hcd := edge hu hcd
    have wa := hp_w_fin (normalizeVerts vs) (lt gA)
    have wb := hp_w_fin (normalizeVerts vs) (lt gB)
    have wc := (hp_w_fin (normalizeVerts vs) (lt gC)).symm ▸ zero_le_one
    have wd := (hp_w_fin (normalizeVerts vs) (lt gD)).symm ▸ zero_le_one
    rcases mul_neg_iff.1 hC.1 with ⟨h1, h2⟩ | ⟨h1, h2⟩
    · have hE := Ed.of_cross wa wb wd wc hC.flip (.inr (.inl h2))
      obtain ⟨i, j, he⟩ := HasEdge.symm hv (.inl (lt gC)) hcd
      exact no_cross hv ht (lt gA) (lt gB) hab he hE
    · have hE := Ed.of_cross wa wb wc wd hC (.inr (.inl h1))
      obtain ⟨i, j, he⟩ := hcd
      exact no_cross hv ht (lt gA) (lt gB) hab he hE
  · intro t htt u hu w A B C W hw gA gB gC gW h1 h2 h3
    obtain ⟨i, hi⟩ := List.mem_iff_getElem?.1 htt
    rw [corner_verts]
    change vs[t.v1]? = _ at gA
    change vs[t.v2]? = _ at gB
    change vs[t.v3]? = _ at gC
    refine vert_of_in hv ht (lt gW) (occ hu hw) hi (rot_self t) ?_ ?_ ?_
    · rw [o_norm_area hs hn gA gB gW]; have := div_nonpos_of_nonpos_of_nonneg h1 hs2.le; linarith
    · rw [o_norm_area hs hn gB gC gW]; have := div_nonpos_of_nonpos_of_nonneg h2 hs2.le; linarith
    · rw [o_norm_area hs hn gC gA gW]; have := div_nonpos_of_nonpos_of_nonneg h3 hs2.le; linarith

/-- **C52** (exact arithmetic): the mesh after inserting any constraints, artificial vertices left out, is a planar
straight-line mesh in input coordinates, and so is the output. -/
theorem C52_constrained (fuel : Nat) (bins : Nat → Nat) (vs : List (Vtx K)) (h : Good fuel bins vs) (es : List Edge) :
    (∀ r, constrainedMesh fuel bins vs es = .ok r → Spec.Planar vs (r.ts.map Tri.verts)) ∧
    ∀ out, constrained2d fuel bins vs es = .ok out → Spec.Planar vs out := by
  have key : ∀ r, constrainedMesh fuel bins vs es = .ok r → Spec.Planar vs (r.ts.map Tri.verts) := by
    intro r hr
    obtain ⟨hv, -, hT⟩ := h.cmesh_inv hr
    exact planar_mesh h.scale h.ids_inf hv hT
  refine ⟨key, fun out ho => ?_⟩
  unfold constrained2d at ho
  split at ho
  · simp at ho; subst ho; constructor <;> simp
  rw [Res.bind_eq_ok] at ho
  obtain ⟨r, hr, ho⟩ := ho
  refine (key r hr).sub fun t ht => ?_
  obtain ⟨t', ht', -, rfl⟩ := cdtFilter_mem ho ht
  exact List.mem_map_of_mem ht'

/-- **C52** (exact arithmetic): the unconstrained output is a planar straight-line mesh. -/
theorem C52_unconstrained (fuel : Nat) (bins : Nat → Nat) (vs : List (Vtx K)) (h : Good fuel bins vs) (out : List Out)
    (ho : triangulation2d fuel bins vs = .ok out) : Spec.Planar vs out := by
  by_cases hne : out = []
  · subst hne; constructor <;> simp
  obtain ⟨s, done, ins, first, hI, hperm, hf, hst, rfl⟩ := h.mesh ho hne
  have hT := tiled_steps hst (initial_valid hf h.ids_inf) (tiled_initial hf h.ids_inf)
  refine (planar_mesh h.scale h.ids_inf hI.valid hT).sub fun t ht => ?_
  obtain ⟨t', ht', -, rfl⟩ := mem_filterSeq ht
  exact List.mem_map_of_mem ht'

theorem applyLoop_present {vs : List (Vtx K)} (hu : ∀ v ∈ vs, InUnit v) (hn : vs.length ≤ INF0) {merge : List Nat} {fuel : Nat}
    {fs : List Edge} {s : AC} (hm : MInv vs s.ts s.v2t) (ht : Tiled vs s.ts)
    (hf : ∀ e ∈ fs, ∃ a b, merge[e.src]? = some a ∧ merge[e.dst]? = some b ∧ a < vs.length ∧ b < vs.length ∧
      (a = b ∨ HasEdge s.ts a b)) :
    ∃ S, applyLoop vs fuel merge fs s = .ok ⟨s.ts, s.v2t, S⟩ := by
  induction fs generalizing s with
  | nil => exact ⟨s.S, rfl⟩
  | cons e fs ih =>
    obtain ⟨a, b, ha, hb, la, lb, hE⟩ := hf e (by simp)
    have : ∃ S, applyOne vs fuel merge e s = .ok ⟨s.ts, s.v2t, S⟩ := by
      unfold applyOne
      rw [getI_of ha, Res.ok_bind, getI_of hb, Res.ok_bind]
      split
      · exact ⟨s.S, rfl⟩
      rename_i hab
      split
      · exact ⟨s.S, rfl⟩
      obtain ⟨A, gA, -⟩ := getI_lt la
      obtain ⟨B, gB, -⟩ := getI_lt lb
      exact ⟨_, insertEdge_present (s := { s with S := ⟨a, b⟩ :: s.S }) hu hn hm ht gA gB (hE.resolve_left hab) fuel⟩
    obtain ⟨S, hS⟩ := this
    obtain ⟨S', hS'⟩ := ih (s := ⟨s.ts, s.v2t, S⟩) hm ht fun e he => hf e (by simp [he])
    exact ⟨S', by simp only [applyLoop, hS, Res.ok_bind]; exact hS'⟩

/-- `e` joins the positions of the ends of an edge of the mesh, or joins a position to itself. -/
def Spec.Present {F : Type} (vs : List (Vtx F)) (ts : List Tri) (e : Edge) : Prop :=
  ∃ A B, vs[e.src]? = some A ∧ vs[e.dst]? = some B ∧
    (A = B ∨ ∃ a b : Nat, vs[a]? = some A ∧ vs[b]? = some B ∧ (Spec.MeshEdge ts a b ∨ Spec.MeshEdge ts b a))

/-- **C51** (exact arithmetic): further constraints that are edges of the mesh already, in either direction, given by any
vertices at those positions, are accepted and do not change the mesh. -/
theorem C51_present (fuel : Nat) (bins : Nat → Nat) (vs : List (Vtx K)) (h : Good fuel bins vs) (es fs : List Edge) (r : AC)
    (hr : constrainedMesh fuel bins vs es = .ok r) (hp' : ∀ e ∈ fs, Spec.Present vs r.ts e) :
    ∃ r', constrainedMesh fuel bins vs (es ++ fs) = .ok r' ∧ r'.ts = r.ts ∧ r'.v2t = r.v2t := by
  have hl : (normalizeVerts vs).length = vs.length := by rw [normalizeVerts_eq]; simp
  have hni := h.ids_inf
  obtain ⟨s, hs, -⟩ := constrainedMesh_ok hr
  obtain ⟨v2t, hv, hI, hT, hmi, hml, hlen, hpos⟩ := h.start hs
  obtain ⟨hvalid, hok, hTr⟩ := h.cmesh_inv hr
  rw [Good.cmesh_eq hs hv] at hr
  obtain ⟨hB, -⟩ := applyLoop_inv h.unit hni (fun v x hx => (hmi v x hx).1) hI hr
  have hfs : ∀ e ∈ fs, ∃ a b, (s.merge.getD [])[e.src]? = some a ∧ (s.merge.getD [])[e.dst]? = some b ∧
      a < (normalizeVerts vs).length ∧ b < (normalizeVerts vs).length ∧ (a = b ∨ HasEdge r.ts a b) := by
    intro e he
    obtain ⟨A, B, gA, gB, hE⟩ := hp' e he
    obtain ⟨a, ha, -⟩ := getI_lt (by rw [hml]; exact lt_of_getElem? gA : e.src < (s.merge.getD []).length)
    obtain ⟨b, hb, -⟩ := getI_lt (by rw [hml]; exact lt_of_getElem? gB : e.dst < (s.merge.getD []).length)
    have ga := (hpos _ _ ha).trans gA
    have gb := (hpos _ _ hb).trans gB
    have oa := steps_occ hB.steps (hmi _ _ ha).1
    have ob := steps_occ hB.steps (hmi _ _ hb).1
    have inj : ∀ {v w : Nat} {V : Vtx K}, vs[v]? = some V → vs[w]? = some V → Occ r.ts v → Occ r.ts w → v = w := by
      intro v w V g1 g2 o1 o2
      exact occ_inj hvalid hTr (by have := lt_of_getElem? g2; omega) o1 o2 (by rw [hp_norm_eq hni g1, hp_norm_eq hni g2])
    refine ⟨a, b, ha, hb, (hmi _ _ ha).2, (hmi _ _ hb).2, ?_⟩
    rcases hE with rfl | ⟨a', b', ga', gb', hE⟩
    · exact .inl (inj ga gb oa ob)
    · right
      have hE : HasEdge r.ts a' b' := by
        rcases hE with hE | hE
        · exact meshEdge_iff.1 hE
        · exact HasEdge.symm hvalid (.inl (by have := lt_of_getElem? gb'; omega)) (meshEdge_iff.1 hE)
      rw [inj ga ga' oa hE.occ.1, inj gb gb' ob hE.occ.2]
      exact hE
  obtain ⟨S, hS⟩ := applyLoop_present (fuel := fuel) h.unit hni hB.m hTr hfs
  refine ⟨⟨r.ts, r.v2t, S⟩, ?_, rfl, rfl⟩
  rw [Good.cmesh_eq hs hv, applyLoop_append, hr, Res.ok_bind, hS]

end

section
open Rounded
variable {F : Type} [FloatOps F] [Rounded F] [IdCfg] {fuel : Nat} {bins : Nat → Nat} {vs : List (Vtx F)}
  {V : List (Vtx ℚ)} {W : ℚ}

/-- **C51** in rounded arithmetic. -/
theorem C51_rounded (h : RGoodC fuel bins vs V W) (es fs : List Edge) (r : AC)
    (hr : constrainedMesh fuel bins vs es = .ok r) (hp' : ∀ e ∈ fs, Spec.Present V r.ts e) :
    ∃ r', constrainedMesh fuel bins vs (es ++ fs) = .ok r' ∧ r'.ts = r.ts ∧ r'.v2t = r.v2t := by
  let P := params F (bins vs.length) W (scaleVal vs)
  rw [h.mesh] at hr
  rw [h.mesh]
  exact C51_present fuel bins V h.good es fs r hr hp'

/-- **C52** in rounded arithmetic. -/
theorem C52_rounded : (RGood fuel bins vs V W → ∀ out, triangulation2d fuel bins vs = .ok out → Spec.Planar V out) ∧
    (RGoodC fuel bins vs V W → ∀ es, (∀ r, constrainedMesh fuel bins vs es = .ok r → Spec.Planar V (r.ts.map Tri.verts)) ∧
      ∀ out, constrained2d fuel bins vs es = .ok out → Spec.Planar V out) := by
  let P := params F (bins vs.length) W (scaleVal vs)
  refine ⟨fun h out ho => ?_, fun h es => ?_⟩
  · rw [h.run] at ho
    exact C52_unconstrained fuel bins V h.good out ho
  · rw [h.run, h.mesh]
    exact C52_constrained fuel bins V h.good es

end
end CDT

namespace CDT
open Witness Plane Rounded
local instance presentCfg : IdCfg := u32Cfg

/-- The constraint from 0 to 6 changes the mesh of the sample; then it is an edge, and so is the one from 6 to 0. -/
example : ∃ r, constrainedMesh 342 defaultBins (fpts robustSample) [⟨0, 6⟩] = .ok r ∧
    (∃ r0, constrainedMesh 342 defaultBins (fpts robustSample) [] = .ok r0 ∧ r0.ts ≠ r.ts) ∧
    ∀ e ∈ ([⟨6, 0⟩, ⟨3, 3⟩] : List Edge), Spec.Present (pts robustSample) r.ts e := by
  have h0 : okAnd (constrainedMesh 342 defaultBins (fpts robustSample) [⟨0, 6⟩]) (fun r =>
      (r.ts.any fun t => (Spec.edges t).any fun e => e.1 == 0 && e.2.1 == 6) &&
      okAnd (constrainedMesh 342 defaultBins (fpts robustSample) []) fun r0 => decide (r0.ts ≠ r.ts)) = true := by decide +kernel
  obtain ⟨r, hr, h1⟩ := okAnd_iff.1 h0
  rw [Bool.and_eq_true, okAnd_iff] at h1
  obtain ⟨h1, r0, hr0, h2⟩ := h1
  refine ⟨r, hr, ⟨r0, hr0, of_decide_eq_true h2⟩, ?_⟩
  simp only [List.any_eq_true, Bool.and_eq_true, beq_iff_eq] at h1
  obtain ⟨t, ht, ⟨a, b, j⟩, he, rfl, rfl⟩ := h1
  intro e he'
  simp only [List.mem_cons, List.not_mem_nil, or_false] at he'
  rcases he' with rfl | rfl
  · exact ⟨_, _, rfl, rfl, .inr ⟨_, _, rfl, rfl, .inr ⟨t, ht, j, he⟩⟩⟩
  · exact ⟨_, _, rfl, rfl, .inl rfl⟩

/-- The output of the sample has triangles, so `C52_rounded` says something about it; and a triangle pair with crossing edges is not planar. -/
example : RGoodC (F := F64) 342 defaultBins (fpts robustSample) (pts robustSample) 12 ∧
    okAnd (constrained2d 342 defaultBins (fpts robustSample) [⟨0, 6⟩]) (fun out => decide (4 ≤ out.length)) = true ∧
    ¬ Spec.Planar (pts [(0,0), (2,2), (0,2), (2,0)]) [(0,2,1), (2,0,3)] := by
  refine ⟨robustSample_goodC, by decide +kernel, fun h => ?_⟩
  refine h.cross (0,2,1) (by simp) (2,0,3) (by simp) 1 0 3 2 _ _ _ _ (.inr (.inr ⟨rfl, rfl⟩)) (.inr (.inr ⟨rfl, rfl⟩)) rfl rfl rfl rfl ?_
  refine ⟨⟨1, 1⟩, ⟨1 / 2, ?_⟩, ⟨1 / 2, ?_⟩, ?_⟩ <;> simp only [area2] <;> decide +kernel

end CDT

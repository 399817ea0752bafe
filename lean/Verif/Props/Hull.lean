import Verif.Geo.HullMesh
import Verif.Props.Three

/-! # C72: points inside the hull of a frame -/

set_option linter.unusedSectionVars false
set_option linter.unusedSimpArgs false
set_option linter.unusedVariables false

namespace CDT
open Plane

section Main
variable {K : Type} [Field K] [LinearOrder K] [IsStrictOrderedRing K] [ExactParams K] [IdCfg]

/-! ## Specification -/

/-- `p` is strictly on the right of the directed lines `H`. -/
def Spec.Within (H : List (Vtx K × Vtx K)) (p : Vtx K) : Prop := ∀ e ∈ H, area2 e.1 e.2 p < 0

/-- Every point strictly on the right of the lines `H` is in a triangle. -/
def Spec.CoversWithin (H : List (Vtx K × Vtx K)) (vs : List (Vtx K)) (out : List Out) : Prop :=
  ∀ q, Spec.Within H q → ∃ o ∈ out, ∃ A B C, vs[o.1]? = some A ∧ vs[o.2.1]? = some B ∧ vs[o.2.2]? = some C ∧ Spec.InClosed A B C q

/-! ## Runs -/

/-- A run whose first vertices cover the region of all others. -/
theorem Good.hull_run {fuel : Nat} {bins : Nat → Nat} {vs : List (Vtx K)} (h : Good fuel bins vs) {f0 : Nat} {fs rest : List Nat}
    (hb : binSort (bins vs.length) (normalizeVerts vs) = .ok (f0 :: (fs ++ rest))) {m : Option (List Nat)} (hm : MergeInit vs.length m) {s0 : DT}
    (hs0 : insertAll (normalizeVerts vs) fuel fs ⟨initialTriangles f0, 3, m⟩ = .ok s0) {E : List (HP K × HP K)}
    (hH : HullMesh (normalizeVerts vs) s0.ts E) {P0 : HP K} (hP0 : Reg E P0)
    (hin : ∀ v ∈ rest, ∃ P, (normalizeVerts vs)[v]? = some P ∧ Reg E (HP.ofVtx P)) :
    ∃ s, wrapAndTriangulate fuel (bins vs.length) (normalizeVerts vs) m = .ok s ∧ Emp (normalizeVerts vs) s.ts ∧ Tiled (normalizeVerts vs) s.ts ∧
      (∀ P : HP K, Reg E P → Inner (normalizeVerts vs) s.ts P) ∧
      ∃ done ins, DInv (normalizeVerts vs) done ins s ∧ done.Perm (List.range vs.length) := by
  have hl : (normalizeVerts vs).length = vs.length := by rw [normalizeVerts_eq]; simp
  have hni := h.ids_inf
  have hperm := binSort_perm (by rw [hl]; have := h.ids; unfold NONE at this; omega) hb
  have hnd : (f0 :: (fs ++ rest)).Nodup := hperm.nodup_iff.2 List.nodup_range
  have hlt : ∀ v ∈ f0 :: (fs ++ rest), v < (normalizeVerts vs).length := fun v hv => by simpa using hperm.subset hv
  have hlen := hperm.length_eq
  simp only [List.length_cons, List.length_append, List.length_range] at hlen
  obtain ⟨ins, hI, -, -, -⟩ := h.prefix_run hb hm fs.length (by rw [List.take_left']; exact hs0; rfl)
  rw [List.take_left' rfl] at hI
  have hdis : ∀ v ∈ rest, v ∉ fs.reverse ++ [f0] := by
    intro v hv hc
    rw [List.nodup_cons, List.nodup_append] at hnd
    simp only [List.mem_append, List.mem_reverse, List.mem_cons, List.not_mem_nil, or_false] at hc
    rcases hc with hc | rfl
    · exact hnd.2.2.2 v hc v hv rfl
    · exact hnd.1 (by simp [hv])
  have hndr : rest.Nodup := by rw [List.nodup_cons, List.nodup_append] at hnd; exact hnd.2.2.1
  have hinn : ∀ v ∈ rest, Inner (normalizeVerts vs) s0.ts (hp (normalizeVerts vs) v) := by
    intro v hv
    obtain ⟨P, g, hP⟩ := hin v hv
    rw [hp_fin (by have := lt_of_getElem? g; omega) g]
    exact hH.inner hP
  obtain ⟨s, hs⟩ := insertAll_inner (fuel := fuel) h.sep (by rw [hl]; exact h.ids) (by rw [hl]; exact h.fuel) rest _ ins s0 hI hndr hdis
    (fun v hv => hlt v (by simp [hv])) (by simp; omega) (hH.emp hP0) hH.tiled hinn
    (.inl fun v hv p gp => by
      obtain ⟨P, g, hP⟩ := hin v hv
      rw [g] at gp; simp only [Option.some.injEq] at gp; subst gp
      exact hH.found hP hI.tid)
  obtain ⟨e1, e2⟩ := insertAll_emp (fuel := fuel) h.sep (by rw [hl]; exact h.ids) (by rw [hl]; exact h.fuel) rest _ ins s0 s hI hndr hdis
    (fun v hv => hlt v (by simp [hv])) (by simp; omega) (hH.emp hP0) hH.tiled hinn hs
  have hall : insertAll (normalizeVerts vs) fuel (fs ++ rest) ⟨initialTriangles f0, 3, m⟩ = .ok s := by
    rw [insertAll_append, hs0]; exact hs
  obtain ⟨insF, hIF, -, -, hstF⟩ := h.prefix_run hb hm (fs ++ rest).length (by rw [List.take_length]; exact hall)
  rw [List.take_length] at hIF
  have hf' : f0 < (normalizeVerts vs).length := hlt _ (by simp)
  refine ⟨s, ?_, e1, tiled_steps hstF (initial_valid hf' hni) (tiled_initial hf' hni), fun P hP => (hH.inner hP).mono e2, _, _, hIF, ?_⟩
  · have e : lastId (initialTriangles f0) = .ok 3 := by
      have := IdCfg.big
      simpa [initialTriangles] using lastId_ok (ts := initialTriangles f0) (by simp [initialTriangles]) (by simp [initialTriangles, NONE]; omega)
    unfold wrapAndTriangulate
    simp only [hb, Res.ok_bind, e]
    exact hall
  · refine List.Perm.trans ?_ (hl ▸ hperm)
    refine (List.perm_append_comm).trans ?_
    simp only [List.singleton_append, List.perm_cons]
    exact List.reverse_perm _

/-! ## The frame in front -/

/-- Numbers of the frame of `m` vertices when `n` vertices are put in front of it. -/
def shiftR (n m i : Nat) : Nat := if i < m then i + n else if i < n + m then i - m else i

theorem shiftR_ren {ws vs : List (Vtx K)} {n : Nat} (hn : n + ws.length ≤ INF0) (hv : ∀ k : Nat, k < ws.length → vs[k + n]? = ws[k]?) :
    Ren (shiftR n ws.length) ws vs := by
  have e : ∀ {a a' : Vtx K}, RPair (shiftR n ws.length) ws vs a a' → a = a' := by
    rintro a a' ⟨i, h1, h2⟩
    have hi := lt_of_getElem? h1
    unfold shiftR at h2
    rw [if_pos hi, hv i hi, h1] at h2
    simpa using h2
  refine ⟨?_, ?_, ?_, ?_, ?_, ?_, ?_, ?_, ?_, ?_, ?_, ?_⟩
  · intro i j h
    unfold shiftR at h
    split_ifs at h <;> omega
  · intro i hi
    unfold shiftR
    split_ifs <;> omega
  · intro i hi
    unfold shiftR
    split_ifs <;> omega
  · intro i a ha
    have hi := lt_of_getElem? ha
    unfold shiftR
    rw [if_pos hi]
    exact ⟨a, by rw [hv i hi, ha]⟩
  · intro a a' b b' p p' ha hb hp; rw [e ha, e hb, e hp]
  · intro a a' b b' p p' ha hb hp; rw [e ha, e hb, e hp]
  · intro a a' b b' p p' ha hb hp; rw [e ha, e hb, e hp]
  · intro a a' p p' k ha hp; rw [e ha, e hp]
  · intro a a' p p' k ha hp; rw [e ha, e hp]
  · intro a a' p p' k ha hp; rw [e ha, e hp]
  · intro a a' b b' ha hb; rw [e ha, e hb]
  · intro a a' b b' c c' p p' ha hb hc hp; rw [e ha, e hb, e hc, e hp]

/-- A point of a closed clockwise triangle is in its bounding box. -/
theorem InClosed.box {A B C q : Vtx K} (hc : Clockwise A B C) (h : Spec.InClosed A B C q) :
    (∀ l, l ≤ A.x → l ≤ B.x → l ≤ C.x → l ≤ q.x) ∧ (∀ l, A.x ≤ l → B.x ≤ l → C.x ≤ l → q.x ≤ l) ∧
    (∀ l, l ≤ A.y → l ≤ B.y → l ≤ C.y → l ≤ q.y) ∧ (∀ l, A.y ≤ l → B.y ≤ l → C.y ≤ l → q.y ≤ l) := by
  obtain ⟨h1, h2, h3⟩ := h
  have ex : ∀ l, area2 A B C * (q.x - l) = area2 B C q * (A.x - l) + area2 C A q * (B.x - l) + area2 A B q * (C.x - l) := by
    intro l; unfold area2; ring
  have ey : ∀ l, area2 A B C * (q.y - l) = area2 B C q * (A.y - l) + area2 C A q * (B.y - l) + area2 A B q * (C.y - l) := by
    intro l; unfold area2; ring
  have hneg : area2 A B C < 0 := hc
  refine ⟨fun l a b c => ?_, fun l a b c => ?_, fun l a b c => ?_, fun l a b c => ?_⟩ <;> by_contra hcon <;> rw [not_le] at hcon
  · have := ex l
    have k1 := mul_pos_of_neg_of_neg hneg (by linarith : q.x - l < 0)
    have k2 := mul_nonpos_of_nonpos_of_nonneg h2 (by linarith : 0 ≤ A.x - l)
    have k3 := mul_nonpos_of_nonpos_of_nonneg h3 (by linarith : 0 ≤ B.x - l)
    have k4 := mul_nonpos_of_nonpos_of_nonneg h1 (by linarith : 0 ≤ C.x - l)
    linarith
  · have := ex l
    have k1 := mul_neg_of_neg_of_pos hneg (by linarith : 0 < q.x - l)
    have k2 := mul_nonneg_of_nonpos_of_nonpos h2 (by linarith : A.x - l ≤ 0)
    have k3 := mul_nonneg_of_nonpos_of_nonpos h3 (by linarith : B.x - l ≤ 0)
    have k4 := mul_nonneg_of_nonpos_of_nonpos h1 (by linarith : C.x - l ≤ 0)
    linarith
  · have := ey l
    have k1 := mul_pos_of_neg_of_neg hneg (by linarith : q.y - l < 0)
    have k2 := mul_nonpos_of_nonpos_of_nonneg h2 (by linarith : 0 ≤ A.y - l)
    have k3 := mul_nonpos_of_nonpos_of_nonneg h3 (by linarith : 0 ≤ B.y - l)
    have k4 := mul_nonpos_of_nonpos_of_nonneg h1 (by linarith : 0 ≤ C.y - l)
    linarith
  · have := ey l
    have k1 := mul_neg_of_neg_of_pos hneg (by linarith : 0 < q.y - l)
    have k2 := mul_nonneg_of_nonpos_of_nonpos h2 (by linarith : A.y - l ≤ 0)
    have k3 := mul_nonneg_of_nonpos_of_nonpos h3 (by linarith : B.y - l ≤ 0)
    have k4 := mul_nonneg_of_nonpos_of_nonpos h1 (by linarith : C.y - l ≤ 0)
    linarith

/-- Points in the bounding box of the frame do not change it. -/
theorem bbox_append {pts fr : List (Vtx K)} (hr : InRange (pts ++ fr)) (hne : fr ≠ [])
    (hx0 : ∀ p ∈ pts, ∃ v ∈ fr, v.x ≤ p.x) (hx1 : ∀ p ∈ pts, ∃ v ∈ fr, p.x ≤ v.x)
    (hy0 : ∀ p ∈ pts, ∃ v ∈ fr, v.y ≤ p.y) (hy1 : ∀ p ∈ pts, ∃ v ∈ fr, p.y ≤ v.y) : bbox (pts ++ fr) = bbox fr := by
  have hB := bbox_isBox (vs := fr) (fun v hv => hr v (by simp [hv])) hne
  refine (bbox_isBox hr (by simp [hne])).unique ⟨?_, ?_, ?_, ?_, ?_, ?_, ?_, ?_⟩
  · intro v hv
    rcases List.mem_append.1 hv with hv | hv
    · obtain ⟨w, hw, hl⟩ := hx0 v hv; exact (hB.x0 w hw).trans hl
    · exact hB.x0 v hv
  · intro v hv
    rcases List.mem_append.1 hv with hv | hv
    · obtain ⟨w, hw, hl⟩ := hy0 v hv; exact (hB.y0 w hw).trans hl
    · exact hB.y0 v hv
  · intro v hv
    rcases List.mem_append.1 hv with hv | hv
    · obtain ⟨w, hw, hl⟩ := hx1 v hv; exact hl.trans (hB.x1 w hw)
    · exact hB.x1 v hv
  · intro v hv
    rcases List.mem_append.1 hv with hv | hv
    · obtain ⟨w, hw, hl⟩ := hy1 v hv; exact hl.trans (hB.y1 w hw)
    · exact hB.y1 v hv
  · obtain ⟨v, hv, e⟩ := hB.ax0; exact ⟨v, by simp [hv], e⟩
  · obtain ⟨v, hv, e⟩ := hB.ay0; exact ⟨v, by simp [hv], e⟩
  · obtain ⟨v, hv, e⟩ := hB.ax1; exact ⟨v, by simp [hv], e⟩
  · obtain ⟨v, hv, e⟩ := hB.ay1; exact ⟨v, by simp [hv], e⟩

theorem inCircle_norm_iff {vs : List (Vtx K)} (hs : 0 < scaleFactor vs) {A B C P : Vtx K} :
    InCircle (toNorm vs A) (toNorm vs B) (toNorm vs C) (toNorm vs P) ↔ InCircle A B C P := by
  refine ⟨?_, inCircle_norm hs⟩
  rintro ⟨m, ⟨e1, e2⟩, e3⟩
  have hs2 : 0 < scaleFactor vs ^ 2 := by positivity
  obtain ⟨m', rfl⟩ : ∃ m', m = toNorm vs m' := by
    refine ⟨⟨m.x * scaleFactor vs + (bbox vs).1, m.y * scaleFactor vs + (bbox vs).2.1⟩, ?_⟩
    have := hs.ne'
    cases m
    simp only [toNorm, Vtx.mk.injEq]
    constructor <;> field_simp <;> ring
  unfold toNorm at e1 e2 e3
  rw [dist2_normalized _ _ _ _ _ hs.ne', dist2_normalized _ _ _ _ _ hs.ne'] at e1 e2 e3
  exact ⟨m', ⟨(div_left_inj' hs2.ne').1 e1, (div_left_inj' hs2.ne').1 e2⟩, (div_lt_div_iff_of_pos_right hs2).1 e3⟩

theorem exists_toNorm {vs : List (Vtx K)} (hs : 0 < scaleFactor vs) (m : Vtx K) : ∃ m', m = toNorm vs m' := by
  refine ⟨⟨m.x * scaleFactor vs + (bbox vs).1, m.y * scaleFactor vs + (bbox vs).2.1⟩, ?_⟩
  have := hs.ne'
  cases m
  simp only [toNorm, Vtx.mk.injEq]
  constructor <;> field_simp <;> ring

theorem o_toNorm {vs : List (Vtx K)} (hs : 0 < scaleFactor vs) (A B C : Vtx K) :
    HP.o (HP.ofVtx (toNorm vs A)) (HP.ofVtx (toNorm vs B)) (HP.ofVtx (toNorm vs C)) = -(area2 A B C / scaleFactor vs ^ 2) := by
  rw [o_area2]; unfold toNorm; rw [area2_normalized _ _ _ _ _ _ hs.ne']

theorem o_toNorm_pos {vs : List (Vtx K)} (hs : 0 < scaleFactor vs) {A B C : Vtx K} :
    0 < HP.o (HP.ofVtx (toNorm vs A)) (HP.ofVtx (toNorm vs B)) (HP.ofVtx (toNorm vs C)) ↔ area2 A B C < 0 := by
  have hs2 : 0 < scaleFactor vs ^ 2 := by positivity
  rw [o_toNorm hs, neg_pos, div_lt_iff₀ hs2, zero_mul]

theorem o_toNorm_nonneg {vs : List (Vtx K)} (hs : 0 < scaleFactor vs) {A B C : Vtx K} :
    0 ≤ HP.o (HP.ofVtx (toNorm vs A)) (HP.ofVtx (toNorm vs B)) (HP.ofVtx (toNorm vs C)) ↔ area2 A B C ≤ 0 := by
  have hs2 : 0 < scaleFactor vs ^ 2 := by positivity
  rw [o_toNorm hs, neg_nonneg, div_le_iff₀ hs2, zero_mul]

/-- The lines in normalized coordinates. -/
def normLines (vs : List (Vtx K)) (H : List (Vtx K × Vtx K)) : List (HP K × HP K) :=
  H.map fun e => (HP.ofVtx (toNorm vs e.1), HP.ofVtx (toNorm vs e.2))

theorem reg_norm {vs : List (Vtx K)} (hs : 0 < scaleFactor vs) {H : List (Vtx K × Vtx K)} {q : Vtx K} :
    Reg (normLines vs H) (HP.ofVtx (toNorm vs q)) ↔ Spec.Within H q := by
  unfold Reg normLines Spec.Within
  simp only [List.mem_map, forall_exists_index, and_imp, forall_apply_eq_imp_iff₂]
  constructor
  · rintro ⟨-, h⟩ e he
    exact (o_toNorm_pos hs).1 (h e he)
  · intro h
    exact ⟨rfl, fun e he => (o_toNorm_pos hs).2 (h e he)⟩

theorem reg_exists {vs : List (Vtx K)} (hs : 0 < scaleFactor vs) {H : List (Vtx K × Vtx K)} {P : HP K} (h : Reg (normLines vs H) P) :
    ∃ q, P = HP.ofVtx (toNorm vs q) ∧ Spec.Within H q := by
  obtain ⟨q, e⟩ := exists_toNorm hs ⟨P.x, P.y⟩
  have e' : P = HP.ofVtx (toNorm vs q) := by
    rw [← e]; cases P; have := h.1; simp only at this; subst this; rfl
  exact ⟨q, e', by rw [e', reg_norm hs] at h; exact h⟩

/-- The hypotheses on the frame alone. -/
structure Spec.Frame (fuel : Nat) (bins : Nat → Nat) (fr : List (Vtx K)) (H : List (Vtx K × Vtx K)) : Prop where
  closed : ∀ p ∈ fr, ∀ e ∈ H, area2 e.1 e.2 p ≤ 0
  run : ∃ out0, triangulation2d fuel bins fr = .ok out0 ∧ Spec.Delaunay fr out0 ∧ Spec.CoversWithin H fr out0

/-- The state after the frame has been inserted. -/
theorem Good.frame_state {fuel : Nat} {bins : Nat → Nat} {pts fr : List (Vtx K)} (h : Good fuel bins (pts ++ fr)) (h1 : bins (pts ++ fr).length = 1)
    (h1' : bins fr.length = 1) {H : List (Vtx K × Vtx K)} (hF : Spec.Frame fuel bins fr H) (hP : ∀ p ∈ pts, Spec.Within H p) (hne : pts ≠ [])
    {m : Option (List Nat)} (hm : MergeInit (pts ++ fr).length m) :
    ∃ s, wrapAndTriangulate fuel (bins (pts ++ fr).length) (normalizeVerts (pts ++ fr)) m = .ok s ∧ Emp (normalizeVerts (pts ++ fr)) s.ts ∧
      Tiled (normalizeVerts (pts ++ fr)) s.ts ∧ (∀ P : HP K, Reg (normLines (pts ++ fr) H) P → Inner (normalizeVerts (pts ++ fr)) s.ts P) ∧
      ∃ done ins, DInv (normalizeVerts (pts ++ fr)) done ins s ∧ done.Perm (List.range (pts ++ fr).length) := by
  have hni := h.ids_inf
  have hs := h.scale
  have hids := h.ids
  have hl : (normalizeVerts (pts ++ fr)).length = pts.length + fr.length := by rw [normalizeVerts_eq]; simp
  have hll : (pts ++ fr).length = pts.length + fr.length := by simp
  have hlf : (normalizeVerts fr).length = fr.length := by rw [normalizeVerts_eq]; simp
  obtain ⟨hcl, out0, h0, hD, hC⟩ := hF
  obtain ⟨p0, hp0⟩ := List.exists_mem_of_ne_nil _ hne
  have hC0 := hC p0 (hP p0 hp0)
  -- the frame has three vertices
  have hlen3 : ¬ fr.length < 3 := by
    intro hlt
    unfold triangulation2d at h0
    rw [if_pos hlt] at h0
    simp only [Res.ok.injEq] at h0
    subst h0
    obtain ⟨o, ho, -⟩ := hC0
    simp at ho
  -- the bounding box
  have hin : ∀ p ∈ pts, ∃ A B C, A ∈ fr ∧ B ∈ fr ∧ C ∈ fr ∧ Clockwise A B C ∧ Spec.InClosed A B C p := by
    intro p hp
    obtain ⟨o, ho, A, B, C, gA, gB, gC, hcc⟩ := hC p (hP p hp)
    obtain ⟨A', B', C', gA', gB', gC', hcw, -⟩ := hD o ho
    rw [gA] at gA'; rw [gB] at gB'; rw [gC] at gC'
    simp only [Option.some.injEq] at gA' gB' gC'
    subst gA' gB' gC'
    exact ⟨A, B, C, List.mem_of_getElem? gA, List.mem_of_getElem? gB, List.mem_of_getElem? gC, hcw, hcc⟩
  have hbox : bbox (pts ++ fr) = bbox fr := by
    refine bbox_append h.range (by rintro rfl; simp at hlen3) ?_ ?_ ?_ ?_ <;> intro p hp <;>
      obtain ⟨A, B, C, mA, mB, mC, hcw, hcc⟩ := hin p hp <;> by_contra hcon <;> push Not at hcon
    · have := (InClosed.box hcw hcc).1 (min A.x (min B.x C.x)) (min_le_left _ _) ((min_le_right _ _).trans (min_le_left _ _)) ((min_le_right _ _).trans (min_le_right _ _))
      have : p.x < min A.x (min B.x C.x) := lt_min (hcon A mA) (lt_min (hcon B mB) (hcon C mC))
      linarith
    · have := (InClosed.box hcw hcc).2.1 (max A.x (max B.x C.x)) (le_max_left _ _) ((le_max_left _ _).trans (le_max_right _ _)) ((le_max_right _ _).trans (le_max_right _ _))
      have : max A.x (max B.x C.x) < p.x := max_lt (hcon A mA) (max_lt (hcon B mB) (hcon C mC))
      linarith
    · have := (InClosed.box hcw hcc).2.2.1 (min A.y (min B.y C.y)) (min_le_left _ _) ((min_le_right _ _).trans (min_le_left _ _)) ((min_le_right _ _).trans (min_le_right _ _))
      have : p.y < min A.y (min B.y C.y) := lt_min (hcon A mA) (lt_min (hcon B mB) (hcon C mC))
      linarith
    · have := (InClosed.box hcw hcc).2.2.2 (max A.y (max B.y C.y)) (le_max_left _ _) ((le_max_left _ _).trans (le_max_right _ _)) ((le_max_right _ _).trans (le_max_right _ _))
      have : max A.y (max B.y C.y) < p.y := max_lt (hcon A mA) (max_lt (hcon B mB) (hcon C mC))
      linarith
  have hsc : scaleFactor (pts ++ fr) = scaleFactor fr := by rw [scaleFactor_eq, scaleFactor_eq, hbox]
  have gN : ∀ {k : Nat} {X : Vtx K}, (pts ++ fr)[k]? = some X → (normalizeVerts (pts ++ fr))[k]? = some (toNorm (pts ++ fr) X) := by
    intro k X hx; rw [normalizeVerts_eq, List.getElem?_map, hx]; rfl
  have gF : ∀ {k : Nat} {X : Vtx K}, fr[k]? = some X → (pts ++ fr)[k + pts.length]? = some X := by
    intro k X hx; rw [List.getElem?_append_right (by omega)]; simpa using hx
  have hshift : ∀ k : Nat, k < (normalizeVerts fr).length → (normalizeVerts (pts ++ fr))[k + pts.length]? = (normalizeVerts fr)[k]? := by
    intro k hk
    rw [normalizeVerts_eq, normalizeVerts_eq, hbox, hsc, List.getElem?_map, List.getElem?_map, List.getElem?_append_right (by omega)]
    simp
  have hR : Ren (shiftR pts.length fr.length) (normalizeVerts fr) (normalizeVerts (pts ++ fr)) := by
    have := shiftR_ren (ws := normalizeVerts fr) (vs := normalizeVerts (pts ++ fr)) (n := pts.length) (by rw [hlf, ← hl]; exact hni) hshift
    rwa [hlf] at this
  -- the run of the frame
  unfold triangulation2d at h0
  rw [if_neg hlen3] at h0
  simp only [Res.bind_eq_ok, Res.ok.injEq] at h0
  obtain ⟨sF, hwF, rfl⟩ := h0
  obtain ⟨first, restF, hbF, hsF⟩ := wrapAndTriangulate_ok hwF
  rw [h1'] at hbF
  have eF := binSort_one (by rw [hlf]; unfold NONE at hids; omega) hbF
  rw [hlf] at eF
  obtain ⟨mm, hmm⟩ : ∃ mm, fr.length = mm + 1 := ⟨fr.length - 1, by omega⟩
  rw [hmm, List.range_succ, List.reverse_append, List.reverse_singleton, List.singleton_append] at eF
  simp only [List.cons.injEq] at eF
  rw [eF.1, eF.2] at hsF
  have hsim := hR.insertAll fuel (List.range mm).reverse (hR.initial mm 3 none m)
  rw [hsF] at hsim
  obtain ⟨s0, hs0, hst⟩ := hsim.ok_of
  have hts : s0.ts = sF.ts.map (Tri.ren (shiftR pts.length fr.length)) := hst.1
  have hfs : filterSeq s0.ts = (filterSeq sF.ts).map (outRen (shiftR pts.length fr.length)) := by rw [hts, filterSeq_ren hR]
  -- the order of the whole run
  obtain ⟨r, hr⟩ := countBins_ok (bins := bins (pts ++ fr).length) (vs := normalizeVerts (pts ++ fr))
    (cnt := List.replicate (bins (pts ++ fr).length * bins (pts ++ fr).length) 0) (fun v hv => by simpa using binIndex_ok h.bins (h.unit v hv))
  have hnn : (normalizeVerts (pts ++ fr)).length ≤ IdCfg.maxId + 1 := by rw [hl, ← hll]; unfold NONE at hids; omega
  obtain ⟨out, ho, -⟩ := binSort_of_bins hnn hr
  have e := ho
  rw [h1] at e
  have e := binSort_one hnn e
  have hsh : ∀ i, i < fr.length → shiftR pts.length fr.length i = pts.length + i := by
    intro i hi; unfold shiftR; rw [if_pos hi]; omega
  have hmap : (List.range mm).reverse.map (shiftR pts.length fr.length) = ((List.range mm).map fun i => pts.length + i).reverse := by
    rw [List.map_reverse]
    congr 1
    apply List.map_congr_left
    intro i hi
    rw [List.mem_range] at hi
    exact hsh i (by omega)
  have e2 : out = shiftR pts.length fr.length mm :: ((List.range mm).reverse.map (shiftR pts.length fr.length) ++ (List.range pts.length).reverse) := by
    rw [e, hl, hmm, ← Nat.add_assoc, List.range_succ, List.reverse_append, List.reverse_singleton, List.singleton_append, ← hmm, hsh mm (by omega), hmap,
      List.range_add, List.reverse_append]
  rw [e2] at ho
  -- the mesh of the frame
  obtain ⟨ins, hI, -, -, hst0⟩ := h.prefix_run ho hm ((List.range mm).reverse.map (shiftR pts.length fr.length)).length
    (by rw [List.take_left']; exact hs0; rfl)
  rw [List.take_left' rfl] at hI
  have hf0 : shiftR pts.length fr.length mm < (normalizeVerts (pts ++ fr)).length := by rw [hsh mm (by omega), hl]; omega
  have hT := tiled_steps hst0 (initial_valid hf0 hni) (tiled_initial hf0 hni)
  have hget : ∀ {k : Nat} {X : Vtx K}, fr[k]? = some X → hp (normalizeVerts (pts ++ fr)) (shiftR pts.length fr.length k) = HP.ofVtx (toNorm (pts ++ fr) X) := by
    intro k X hx
    have hk := lt_of_getElem? hx
    rw [hsh k hk, Nat.add_comm]
    exact hp_norm_eq hni (gF hx)
  have hocc : ∀ q, Occ s0.ts q → q < INF0 → ∃ k X, q = shiftR pts.length fr.length k ∧ fr[k]? = some X := by
    intro q hq hqi
    obtain ⟨i, T, hTi, hTq⟩ := hq
    have hv : q ∈ ins := by
      have := hI.verts.get hTi
      rw [hasVert_iff] at hTq
      have h0 := this 0; have h1 := this 1; have h2 := this 2
      simp only [Tri.v_0, Tri.v_1, Tri.v_2] at h0 h1 h2
      rcases hTq with rfl | rfl | rfl
      · exact h0.resolve_right (by omega)
      · exact h1.resolve_right (by omega)
      · exact h2.resolve_right (by omega)
    have hd := hI.sub _ hv
    rw [List.mem_append, List.mem_reverse, List.mem_map, List.mem_singleton] at hd
    obtain ⟨k, hk, rfl⟩ : ∃ k, k < fr.length ∧ q = shiftR pts.length fr.length k := by
      rcases hd with ⟨k, hk, rfl⟩ | rfl
      · exact ⟨k, by simp at hk; omega, rfl⟩
      · exact ⟨mm, by omega, rfl⟩
    exact ⟨k, _, rfl, List.getElem?_eq_getElem hk⟩
  have hmesh : HullMesh (normalizeVerts (pts ++ fr)) s0.ts (normLines (pts ++ fr) H) := by
    refine ⟨⟨hI.valid, hT, hI.ok, hni, ?_, ?_⟩, ?_⟩
    · intro P hPR
      obtain ⟨q, rfl, hq⟩ := reg_exists hs hPR
      obtain ⟨o, ho, A, B, C, gA, gB, gC, c1, c2, c3⟩ := hC q hq
      have hm2 : outRen (shiftR pts.length fr.length) o ∈ filterSeq s0.ts := by rw [hfs]; exact List.mem_map_of_mem ho
      obtain ⟨T, hTm, hTf, hTv⟩ := mem_filterSeq hm2
      obtain ⟨k, hk⟩ := List.mem_iff_getElem?.1 hTm
      simp only [Tri.isFinite, Bool.and_eq_true, isFin_iff] at hTf
      simp only [outRen, Tri.verts, Prod.mk.injEq] at hTv
      obtain ⟨v1, v2, v3⟩ := hTv
      refine ⟨k, T, hk, hTf.1.1, hTf.1.2, hTf.2, ?_⟩
      rw [← v1, ← v2, ← v3, hget gA, hget gB, hget gC]
      exact ⟨(o_toNorm_nonneg hs).2 c1, (o_toNorm_nonneg hs).2 c2, (o_toNorm_nonneg hs).2 c3⟩
    · intro q hq hqi l hl'
      obtain ⟨k, X, rfl, gX⟩ := hocc q hq hqi
      unfold normLines at hl'
      rw [List.mem_map] at hl'
      obtain ⟨e, he, rfl⟩ := hl'
      rw [hget gX]
      exact (o_toNorm_nonneg hs).2 (hcl X (List.mem_of_getElem? gX) e he)
    · have key : ∀ (i : Nat) (T : Tri), s0.ts[i]? = some T → T.v1 < INF0 → T.v2 < INF0 → T.v3 < INF0 → ∀ q, Occ s0.ts q → q < INF0 →
          HP.ic (hp (normalizeVerts (pts ++ fr)) T.v1) (hp (normalizeVerts (pts ++ fr)) T.v2) (hp (normalizeVerts (pts ++ fr)) T.v3)
            (hp (normalizeVerts (pts ++ fr)) q) ≤ 0 := by
        intro i T hTi f1 f2 f3 q hq hqi
        obtain ⟨k, X, rfl, gX⟩ := hocc q hq hqi
        have hmem : T.verts ∈ filterSeq s0.ts := by
          rw [filterSeq_eq_map, List.mem_map]
          exact ⟨T, List.mem_filter.2 ⟨List.mem_of_getElem? hTi, by simp [Tri.isFinite, isFin_iff, f1, f2, f3]⟩, rfl⟩
        rw [hfs, List.mem_map] at hmem
        obtain ⟨o, ho, hv⟩ := hmem
        obtain ⟨A, B, C, gA, gB, gC, hcw, hemp⟩ := hD o ho
        simp only [outRen, Tri.verts, Prod.mk.injEq] at hv
        obtain ⟨v1, v2, v3⟩ := hv
        rw [← v1, ← v2, ← v3, hget gA, hget gB, hget gC, hget gX, ic_crS]
        by_contra hcon
        have hpos : 0 < area2 (toNorm (pts ++ fr) B) (toNorm (pts ++ fr) A) (toNorm (pts ++ fr) C) := by
          have := (o_toNorm_pos hs).2 hcw
          rw [o_area2] at this
          rw [area2_swap]; exact this
        have hic := (crS_inCircle hpos).1 (by linarith)
        rw [inCircle_norm_iff hs] at hic
        refine hemp X (List.mem_of_getElem? gX) ?_
        obtain ⟨c, ⟨e1, e2⟩, e3⟩ := hic
        exact ⟨c, ⟨e1.symm, e1.symm.trans e2⟩, by rw [← e1]; exact e3⟩
      intro a b c q hTr ha hb hc hq hqi
      obtain ⟨i, T, j1, j2, j3, hTi, hRot⟩ := hTr
      rcases hRot with rfl | rfl | rfl
      · exact key i _ hTi ha hb hc q hq hqi
      · have := key i _ hTi hc ha hb q hq hqi
        rw [← HP.ic_cyc] at this; exact this
      · have := key i _ hTi hb hc ha q hq hqi
        rw [← HP.ic_cyc, ← HP.ic_cyc] at this; exact this
  refine h.hull_run ho hm hs0 hmesh ((reg_norm hs).2 (hP p0 hp0)) ?_
  intro v hv
  rw [List.mem_reverse, List.mem_range] at hv
  have g : (pts ++ fr)[v]? = some pts[v] := by rw [List.getElem?_append_left hv, List.getElem?_eq_getElem hv]
  exact ⟨_, gN g, (reg_norm hs).2 (hP _ (List.getElem_mem hv))⟩

/-- A point in no unbounded triangle is in a triangle of the result. -/
theorem Inner.covered {vs : List (Vtx K)} {s : DT} {done ins : List Nat} (hs : 0 < scaleFactor vs) (hni : (normalizeVerts vs).length ≤ INF0)
    (hI : DInv (normalizeVerts vs) done ins s) (hT : Tiled (normalizeVerts vs) s.ts) {q : Vtx K}
    (inn : Inner (normalizeVerts vs) s.ts (HP.ofVtx (toNorm vs q))) :
    ∃ o ∈ filterSeq s.ts, ∃ A B C, vs[o.1]? = some A ∧ vs[o.2.1]? = some B ∧ vs[o.2.2]? = some C ∧ Spec.InClosed A B C q := by
  have hl : (normalizeVerts vs).length = vs.length := by rw [normalizeVerts_eq]; simp
  obtain ⟨i, T, hT, c1, c2, c3⟩ := hT.closed (g := HP.ofVtx (toNorm vs q)) rfl
  have hTi := triIn_get hT
  have f1 : T.v1 < INF0 := by
    by_contra hc
    rcases inn.far _ _ _ hTi hc with h | h | h <;> linarith
  have f2 : T.v2 < INF0 := by
    by_contra hc
    rcases inn.far _ _ _ hTi.next hc with h | h | h <;> linarith
  have f3 : T.v3 < INF0 := by
    by_contra hc
    rcases inn.far _ _ _ hTi.next.next hc with h | h | h <;> linarith
  have hm := List.mem_of_getElem? hT
  have hfin : T.isFinite = true := by
    simp [Tri.isFinite, isFin_iff, f1, f2, f3]
  have hok := fun k => hI.ok T hm k
  rw [forall_fin3] at hok
  simp only [Tri.v_0, Tri.v_1, Tri.v_2] at hok
  have get : ∀ {a}, VOk (normalizeVerts vs).length a → a < INF0 → ∃ A, vs[a]? = some A := fun {a} ha hi =>
    ⟨_, List.getElem?_eq_getElem (hl ▸ ha.resolve_right (by omega))⟩
  obtain ⟨A, gA⟩ := get hok.1 f1
  obtain ⟨B, gB⟩ := get hok.2.1 f2
  obtain ⟨C, gC⟩ := get hok.2.2 f3
  have mem : T.verts ∈ filterSeq s.ts := by
    rw [filterSeq_eq_map, List.mem_map]
    exact ⟨T, List.mem_filter.2 ⟨hm, hfin⟩, rfl⟩
  rw [hp_norm_eq hni gA, hp_norm_eq hni gB, o_toNorm_nonneg hs] at c1
  rw [hp_norm_eq hni gB, hp_norm_eq hni gC, o_toNorm_nonneg hs] at c2
  rw [hp_norm_eq hni gC, hp_norm_eq hni gA, o_toNorm_nonneg hs] at c3
  exact ⟨T.verts, mem, A, B, C, gA, gB, gC, c1, c2, c3⟩

/-- **C72**. When the triangulation of a frame is Delaunay and covers a convex region around it, the frame with any
points of the region in front of it is triangulated, with empty circumcircles, and the region is still covered. -/
theorem C72_hull (fuel : Nat) (bins : Nat → Nat) (pts fr : List (Vtx K)) (H : List (Vtx K × Vtx K)) (h : Good fuel bins (pts ++ fr))
    (h1 : bins (pts ++ fr).length = 1) (h1' : bins fr.length = 1) (hF : Spec.Frame fuel bins fr H) (hP : ∀ p ∈ pts, Spec.Within H p) :
    ∃ out, triangulation2d fuel bins (pts ++ fr) = .ok out ∧ Spec.Delaunay (pts ++ fr) out ∧ Spec.CoversWithin H (pts ++ fr) out := by
  by_cases hne : pts = []
  · subst hne
    exact hF.run
  obtain ⟨s, hr, hE, hT, hinn, done, ins, hI, hperm⟩ := h.frame_state h1 h1' hF hP hne (mergeInit_none _)
  have hlen : ¬ (pts ++ fr).length < 3 := by
    obtain ⟨-, out0, h0, -, hC⟩ := hF
    obtain ⟨p, hp⟩ := List.exists_mem_of_ne_nil _ hne
    obtain ⟨o, ho, -⟩ := hC p (hP p hp)
    intro hlt
    unfold triangulation2d at h0
    rw [if_pos (by simp at hlt; omega)] at h0
    simp only [Res.ok.injEq] at h0
    subst h0
    simp at ho
  refine ⟨filterSeq s.ts, ?_, hE.delaunay h.scale h.sep h.ids_inf hI hperm, ?_⟩
  · unfold triangulation2d
    simp only [if_neg hlen, hr, Res.ok_bind]
  · intro q hq
    exact (hinn _ ((reg_norm h.scale).2 hq)).covered h.scale h.ids_inf hI hT

/-- **C72** in rounded arithmetic (`f32`, `f64`) on robust inputs and on grids. -/
theorem C72_hull_rounded {F : Type} [FloatOps F] [Rounded F] (fuel : Nat) (bins : Nat → Nat) (vs : List (Vtx F)) (V Vf : List (Vtx ℚ)) (W : ℚ)
    (H : List (Vtx ℚ × Vtx ℚ)) (h : Rounded.RGood fuel bins vs (V ++ Vf) W) (h1 : bins vs.length = 1) (h1' : bins Vf.length = 1)
    (hF : let _ := Rounded.params F (bins vs.length) W (Rounded.scaleVal vs); Spec.Frame fuel bins Vf H) (hP : ∀ p ∈ V, Spec.Within H p) :
    ∃ out, triangulation2d fuel bins vs = .ok out ∧ Spec.Delaunay (V ++ Vf) out ∧ Spec.CoversWithin H (V ++ Vf) out := by
  let P := Rounded.params F (bins vs.length) W (Rounded.scaleVal vs)
  rw [h.run]
  exact C72_hull fuel bins V Vf H h.good (by rw [h.len]; exact h1) h1' hF hP

/-! ## Three points around the others -/

theorem Sep.sub {vs ws : List (Vtx K)} (h : Sep vs) (hs : ∀ v ∈ ws, v ∈ vs) : Sep ws :=
  ⟨fun a ha b hb => h.x a (hs a ha) b (hs b hb), fun a ha b hb => h.y a (hs a ha) b (hs b hb),
    fun a ha b hb c hc => h.o a (hs a ha) b (hs b hb) c (hs c hc)⟩

/-- The three sides of a triangle. -/
def triSides (a b c : Vtx K) : List (Vtx K × Vtx K) := [(a, b), (b, c), (c, a)]

theorem within_sides {a b c p : Vtx K} : Spec.Within (triSides a b c) p ↔ InTriangle a b c p := by
  simp [Spec.Within, triSides, InTriangle, Clockwise]

theorem InTriangle.cw {a b c p : Vtx K} (h : InTriangle a b c p) : Clockwise a b c := by
  obtain ⟨h1, h2, h3⟩ := h
  unfold Clockwise area2 at *
  linarith

/-- The frame of a triangle alone is as good as the whole input. -/
theorem Good.triangle {fuel : Nat} {bins : Nat → Nat} {pts : List (Vtx K)} {a b c A B C : Vtx K} (h : Good fuel bins (pts ++ [a, b, c]))
    (h1 : bins 3 = 1) (hA : [A, B, C] ⊆ [a, b, c]) (hc : Clockwise A B C) (hP : ∀ p ∈ pts, InTriangle A B C p) : Good fuel bins [a, b, c] := by
  have mA : A ∈ [a, b, c] := hA (by simp)
  have mB : B ∈ [a, b, c] := hA (by simp)
  have mC : C ∈ [a, b, c] := hA (by simp)
  have hcl : ∀ p ∈ pts, Spec.InClosed A B C p := fun p hp => ⟨(hP p hp).1.le, (hP p hp).2.1.le, (hP p hp).2.2.le⟩
  have hbox : bbox (pts ++ [a, b, c]) = bbox [a, b, c] := by
    refine bbox_append h.range (by simp) ?_ ?_ ?_ ?_ <;> intro p hp <;> have hcc := hcl p hp <;> by_contra hcon <;> push Not at hcon
    · have := (InClosed.box hc hcc).1 (min A.x (min B.x C.x)) (min_le_left _ _) ((min_le_right _ _).trans (min_le_left _ _)) ((min_le_right _ _).trans (min_le_right _ _))
      have : p.x < min A.x (min B.x C.x) := lt_min (hcon A mA) (lt_min (hcon B mB) (hcon C mC))
      linarith
    · have := (InClosed.box hc hcc).2.1 (max A.x (max B.x C.x)) (le_max_left _ _) ((le_max_left _ _).trans (le_max_right _ _)) ((le_max_right _ _).trans (le_max_right _ _))
      have : max A.x (max B.x C.x) < p.x := max_lt (hcon A mA) (max_lt (hcon B mB) (hcon C mC))
      linarith
    · have := (InClosed.box hc hcc).2.2.1 (min A.y (min B.y C.y)) (min_le_left _ _) ((min_le_right _ _).trans (min_le_left _ _)) ((min_le_right _ _).trans (min_le_right _ _))
      have : p.y < min A.y (min B.y C.y) := lt_min (hcon A mA) (lt_min (hcon B mB) (hcon C mC))
      linarith
    · have := (InClosed.box hc hcc).2.2.2 (max A.y (max B.y C.y)) (le_max_left _ _) ((le_max_left _ _).trans (le_max_right _ _)) ((le_max_right _ _).trans (le_max_right _ _))
      have : max A.y (max B.y C.y) < p.y := max_lt (hcon A mA) (max_lt (hcon B mB) (hcon C mC))
      linarith
  have hsc : scaleFactor (pts ++ [a, b, c]) = scaleFactor [a, b, c] := by rw [scaleFactor_eq, scaleFactor_eq, hbox]
  refine ⟨fun v hv => h.range v (by simp at hv ⊢; tauto), ⟨A, mA, B, mB, ?_⟩, by simp [h1], ?_, ?_, ?_⟩
  · rintro rfl
    unfold Clockwise area2 at hc
    have : (A.x - A.x) * (C.y - A.y) - (A.y - A.y) * (C.x - A.x) = 0 := by ring
    linarith
  · have := h.ids; simp at this ⊢; omega
  · refine h.sep.sub fun v hv => ?_
    rw [normalizeVerts_eq, List.mem_map] at hv ⊢
    obtain ⟨w, hw, e⟩ := hv
    rw [hbox, hsc]
    exact ⟨w, by simp at hw ⊢; tauto, e⟩
  · have := h.fuel; simp at this ⊢; omega

theorem delaunay_three {vs : List (Vtx K)} {o : Out} {A B C : Vtx K} (h1 : vs[o.1]? = some A) (h2 : vs[o.2.1]? = some B) (h3 : vs[o.2.2]? = some C)
    (hc : Clockwise A B C) (hv : ∀ v ∈ vs, v = A ∨ v = B ∨ v = C) : Spec.Delaunay vs [o] := by
  intro o' ho
  rw [List.mem_singleton] at ho
  subst ho
  refine ⟨A, B, C, h1, h2, h3, hc, ?_⟩
  rintro q hq ⟨m, ⟨e1, e2⟩, e3⟩
  rcases hv q hq with rfl | rfl | rfl
  · exact lt_irrefl _ e3
  · rw [e1] at e3; exact lt_irrefl _ e3
  · rw [e2] at e3; exact lt_irrefl _ e3

theorem frame_three {fuel : Nat} {bins : Nat → Nat} {fr : List (Vtx K)} {o : Out} {A B C : Vtx K} (hr : triangulation2d fuel bins fr = .ok [o])
    (h1 : fr[o.1]? = some A) (h2 : fr[o.2.1]? = some B) (h3 : fr[o.2.2]? = some C)
    (hc : Clockwise A B C) (hv : ∀ v ∈ fr, v = A ∨ v = B ∨ v = C) : Spec.Frame fuel bins fr (triSides A B C) where
  closed := by
    have hc' : area2 A B C < 0 := hc
    have e1 : ∀ x y : Vtx K, area2 x y x = 0 := by intro x y; unfold area2; ring
    have e2 : ∀ x y : Vtx K, area2 x y y = 0 := by intro x y; unfold area2; ring
    have e3 : area2 B C A = area2 A B C := by unfold area2; ring
    have e4 : area2 C A B = area2 A B C := by unfold area2; ring
    intro p hp e he
    simp only [triSides, List.mem_cons, List.not_mem_nil, or_false] at he
    rcases hv p hp with rfl | rfl | rfl <;> rcases he with rfl | rfl | rfl <;> simp only [e1, e2, e3, e4, le_refl] <;> exact hc'.le
  run := by
    refine ⟨_, hr, delaunay_three h1 h2 h3 hc hv, ?_⟩
    intro q hq
    rw [within_sides] at hq
    exact ⟨o, by simp, A, B, C, h1, h2, h3, hq.1.le, hq.2.1.le, hq.2.2.le⟩

/-- **C72**, three points around the others: success, empty circumcircles, and the triangle is covered, unless the
last of the three is strictly between the other two in both coordinates. -/
theorem C72_triangle (hc : RealCfg) (fuel : Nat) (bins : Nat → Nat) (pts : List (Vtx K)) (a b c : Vtx K) (h : Good fuel bins (pts ++ [a, b, c]))
    (h1 : bins (pts ++ [a, b, c]).length = 1) (h3 : bins 3 = 1) (hb : ¬ Spec.Between a b c) :
    (Clockwise a b c → (∀ p ∈ pts, InTriangle a b c p) → ∃ out, triangulation2d fuel bins (pts ++ [a, b, c]) = .ok out ∧
      Spec.Delaunay (pts ++ [a, b, c]) out ∧ Spec.CoversWithin (triSides a b c) (pts ++ [a, b, c]) out) ∧
    (Clockwise a c b → (∀ p ∈ pts, InTriangle a c b p) → ∃ out, triangulation2d fuel bins (pts ++ [a, b, c]) = .ok out ∧
      Spec.Delaunay (pts ++ [a, b, c]) out ∧ Spec.CoversWithin (triSides a c b) (pts ++ [a, b, c]) out) := by
  constructor
  · intro hcw hP
    have hg := h.triangle h3 (A := a) (B := b) (C := c) (fun _ h => h) hcw hP
    exact C72_hull fuel bins pts [a, b, c] (triSides a b c) h h1 h3
      (frame_three ((C71_three hc fuel bins a b c hg h3).1 hcw hb) rfl rfl rfl hcw (by simp)) (fun p hp => within_sides.2 (hP p hp))
  · intro hcw hP
    have hg := h.triangle h3 (A := a) (B := c) (C := b) (by intro x hx; simp at hx ⊢; tauto) hcw hP
    exact C72_hull fuel bins pts [a, b, c] (triSides a c b) h h1 h3
      (frame_three ((C71_three hc fuel bins a b c hg h3).2.1 hcw hb) rfl rfl rfl hcw (by intro v hv; simp at hv; tauto))
      (fun p hp => within_sides.2 (hP p hp))

/-- **C72** for three points in rounded arithmetic, on robust inputs and on grids. -/
theorem C72_triangle_rounded {F : Type} [FloatOps F] [Rounded F] (hc : RealCfg) (fuel : Nat) (bins : Nat → Nat) (vs : List (Vtx F)) (V : List (Vtx ℚ))
    (a b c : Vtx ℚ) (W : ℚ) (h : Rounded.RGood fuel bins vs (V ++ [a, b, c]) W) (h1 : bins vs.length = 1) (h3 : bins 3 = 1) (hb : ¬ Spec.Between a b c) :
    (Clockwise a b c → (∀ p ∈ V, InTriangle a b c p) → ∃ out, triangulation2d fuel bins vs = .ok out ∧
      Spec.Delaunay (V ++ [a, b, c]) out ∧ Spec.CoversWithin (triSides a b c) (V ++ [a, b, c]) out) ∧
    (Clockwise a c b → (∀ p ∈ V, InTriangle a c b p) → ∃ out, triangulation2d fuel bins vs = .ok out ∧
      Spec.Delaunay (V ++ [a, b, c]) out ∧ Spec.CoversWithin (triSides a c b) (V ++ [a, b, c]) out) := by
  let P := Rounded.params F (bins vs.length) W (Rounded.scaleVal vs)
  rw [h.run]
  exact C72_triangle hc fuel bins V a b c h.good (by rw [h.len]; exact h1) h3 hb

end Main

section Example
open Rounded
local instance hullCfg : IdCfg := u32Cfg

/-- Four points, two of them equal, in a triangle. -/
def hullGrid : List (Int × Int) := [(3,2),(5,3),(3,2),(4,4),(0,0),(16,1),(3,9)]

theorem hull_good : RGood (F := F64) 500 (fun _ => 1) (flPts binary64 hullGrid) (intPts hullGrid) (2 ^ 4) :=
  C44_grid hullGrid 4 (by decide) (by decide) (by decide) ⟨by norm_num, by decide +kernel, by decide +kernel⟩
      (by decide +kernel) (by decide +kernel) (by decide +kernel) (by decide)

/-- The hypotheses of `C72_triangle_rounded` hold; the conclusion for this input. -/
example : ∃ out, triangulation2d (F := F64) 500 (fun _ => 1) (flPts binary64 hullGrid) = .ok out ∧ Spec.Delaunay (intPts hullGrid) out ∧
    Spec.CoversWithin (triSides ⟨0, 0⟩ ⟨3, 9⟩ ⟨16, 1⟩) (intPts hullGrid) out :=
  (C72_triangle_rounded (.inl rfl) 500 (fun _ => 1) (flPts binary64 hullGrid) (intPts [(3,2),(5,3),(3,2),(4,4)]) ⟨0, 0⟩ ⟨16, 1⟩ ⟨3, 9⟩ _ hull_good rfl rfl
    (by norm_num [Spec.Between])).2 (by norm_num [Clockwise, area2])
    (by
      intro p hp
      simp only [intPts, List.map_cons, List.map_nil, List.mem_cons, List.not_mem_nil, or_false] at hp
      rcases hp with rfl | rfl | rfl | rfl <;> norm_num [InTriangle, Clockwise, area2])

/-- Its number of triangles. -/
example : (do let out ← triangulation2d (F := F64) 500 (fun _ => 1) (flPts binary64 hullGrid); Res.ok out.length) = .ok 7 := by decide +kernel

end Example

end CDT

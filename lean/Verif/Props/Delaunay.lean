import Verif.Geo.FrameRun
import Verif.Proofs.OneBin
import Verif.Props.Present
import Verif.Props.Grid

/-! # C53: Delaunay triangulations of framed points -/

set_option linter.unusedSectionVars false
set_option linter.unusedSimpArgs false
set_option linter.unusedVariables false

namespace CDT
open Plane

variable {K : Type} [Field K] [LinearOrder K] [IsStrictOrderedRing K] [ExactParams K] [IdCfg]

/-- The mesh of the corners of an axis-parallel rectangle. -/
theorem Good.frame_mesh {fuel : Nat} {bins : Nat → Nat} {vs : List (Vtx K)} (h : Good fuel bins vs) {f0 f1 f2 f3 : Nat} {rest : List Nat}
    (hb : binSort (bins vs.length) (normalizeVerts vs) = .ok (f0 :: f1 :: f2 :: f3 :: rest)) {x y w t : K} (hw : 0 < w) (ht : 0 < t)
    (hF : ∀ q ∈ [f0, f1, f2, f3], ∃ i j, (normalizeVerts vs)[q]? = some (crn x y w t i j))
    (hA : ∀ i j, ∃ q ∈ [f0, f1, f2, f3], (normalizeVerts vs)[q]? = some (crn x y w t i j))
    {m : Option (List Nat)} (hm : MergeInit vs.length m) {s0 : DT}
    (hs0 : insertAll (normalizeVerts vs) fuel [f1, f2, f3] ⟨initialTriangles f0, 3, m⟩ = .ok s0) :
    RectMesh (normalizeVerts vs) s0.ts x y w t ∧ Tiled (normalizeVerts vs) s0.ts ∧ ∃ ins, DInv (normalizeVerts vs) [f3, f2, f1, f0] ins s0 := by
  have hl : (normalizeVerts vs).length = vs.length := by rw [normalizeVerts_eq]; simp
  have hni := h.ids_inf
  obtain ⟨ins, hI, hf, hfi, hst⟩ := h.prefix_run hb hm 3 (s := s0) (by simpa using hs0)
  have hf' : f0 < (normalizeVerts vs).length := by rw [hl]; exact hf
  have hT := tiled_steps hst (initial_valid hf' hni) (tiled_initial hf' hni)
  have hdone : ∀ q, q ∈ ([f1, f2, f3] : List Nat).reverse ++ [f0] ↔ q ∈ [f0, f1, f2, f3] := by intro q; simp; tauto
  refine ⟨?_, hT, ins, by simpa using hI⟩
  refine ⟨hw, ht, ?_, ?_⟩
  · intro q hq hqi
    obtain ⟨i, T, hT, hTq⟩ := hq
    have hv : q ∈ ins := by
      have := hI.verts.get hT
      rw [hasVert_iff] at hTq
      have h0 := this 0; have h1 := this 1; have h2 := this 2
      simp only [Tri.v_0, Tri.v_1, Tri.v_2] at h0 h1 h2
      rcases hTq with rfl | rfl | rfl
      · exact h0.resolve_right (by omega)
      · exact h1.resolve_right (by omega)
      · exact h2.resolve_right (by omega)
    have hd := hI.sub _ hv
    simp only [List.take_succ_cons, List.take_zero] at hd
    obtain ⟨i, j, g⟩ := hF q ((hdone q).1 hd)
    exact ⟨i, j, hp_fin hqi g⟩
  · intro i j
    obtain ⟨q, hq, g⟩ := hA i j
    have hqi : q < INF0 := by have := lt_of_getElem? g; omega
    refine ⟨q, hI.occ q ?_, hqi, hp_fin hqi g⟩
    by_contra hc
    obtain ⟨z, hz, a, b, ga, gb, hcl, -⟩ := hI.merged q (by simp only [List.take_succ_cons, List.take_zero]; exact (hdone q).2 hq) hc
    have heq := tooClose_eq h.sep (List.mem_of_getElem? gb) (List.mem_of_getElem? ga) hcl
    have hzd := hI.sub _ hz
    simp only [List.take_succ_cons, List.take_zero] at hzd
    have hzf := (hdone z).1 hzd
    -- four corners, four ids: equal positions mean equal ids
    have hqz : q ≠ z := fun e => hc (e ▸ hz)
    rw [g] at ga; simp at ga; subst ga
    have gz : (normalizeVerts vs)[z]? = some (crn x y w t i j) := by rw [gb, heq]
    obtain ⟨q1, m1, g1⟩ := hA (!i) j
    obtain ⟨q2, m2, g2⟩ := hA i (!j)
    obtain ⟨q3, m3, g3⟩ := hA (!i) (!j)
    have ne : ∀ {u v : Nat} {i j k l : Bool}, (normalizeVerts vs)[u]? = some (crn x y w t i j) → (normalizeVerts vs)[v]? = some (crn x y w t k l) →
        u = v → i = k ∧ j = l := by
      rintro u v i j k l h1 h2 rfl
      rw [h1] at h2; simp only [Option.some.injEq] at h2
      exact crn_inj hw ht h2
    have n1 : q ≠ q1 := fun e => by have := ne g g1 e; simp at this
    have n2 : q ≠ q2 := fun e => by have := ne g g2 e; simp at this
    have n3 : q ≠ q3 := fun e => by have := ne g g3 e; simp at this
    have n4 : z ≠ q1 := fun e => by have := ne gz g1 e; simp at this
    have n5 : z ≠ q2 := fun e => by have := ne gz g2 e; simp at this
    have n6 : z ≠ q3 := fun e => by have := ne gz g3 e; simp at this
    have n7 : q1 ≠ q2 := fun e => by have := ne g1 g2 e; simp at this
    have n8 : q1 ≠ q3 := fun e => by have := ne g1 g3 e; simp at this
    have n9 : q2 ≠ q3 := fun e => by have := ne g2 g3 e; simp at this
    have hn5 : [q, z, q1, q2, q3].Nodup := by
      simp only [List.nodup_cons, List.mem_cons, List.not_mem_nil, or_false, not_or, List.nodup_nil, and_true, not_false_iff]
      exact ⟨⟨hqz, n1, n2, n3⟩, ⟨n4, n5, n6⟩, ⟨n7, n8⟩, n9⟩
    have hsub : [q, z, q1, q2, q3] ⊆ [f0, f1, f2, f3] := by
      intro a ha
      simp only [List.mem_cons, List.not_mem_nil, or_false] at ha
      rcases ha with rfl | rfl | rfl | rfl | rfl <;> assumption
    have := (hn5.subperm hsub).length_le
    simp at this

/-- The mesh of a run whose first four vertices are the corners of an axis-parallel rectangle around the others. -/
theorem Good.framed {fuel : Nat} {bins : Nat → Nat} {vs : List (Vtx K)} (h : Good fuel bins vs) {f0 f1 f2 f3 : Nat} {rest : List Nat}
    (hb : binSort (bins vs.length) (normalizeVerts vs) = .ok (f0 :: f1 :: f2 :: f3 :: rest)) {x y w t : K} (hw : 0 < w) (ht : 0 < t)
    (hF : ∀ q ∈ [f0, f1, f2, f3], ∃ i j, (normalizeVerts vs)[q]? = some (crn x y w t i j))
    (hA : ∀ i j, ∃ q ∈ [f0, f1, f2, f3], (normalizeVerts vs)[q]? = some (crn x y w t i j))
    (hin : ∀ v ∈ rest, ∃ P, (normalizeVerts vs)[v]? = some P ∧ x < P.x ∧ P.x < x + w ∧ y < P.y ∧ P.y < y + t)
    {m : Option (List Nat)} (hm : MergeInit vs.length m) {s : DT}
    (hs : wrapAndTriangulate fuel (bins vs.length) (normalizeVerts vs) m = .ok s) :
    Emp (normalizeVerts vs) s.ts ∧ Tiled (normalizeVerts vs) s.ts ∧
      (∀ P : Vtx K, x < P.x → P.x < x + w → y < P.y → P.y < y + t → Inner (normalizeVerts vs) s.ts (HP.ofVtx P)) ∧
      ∃ done ins, DInv (normalizeVerts vs) done ins s ∧ done.Perm (List.range vs.length) := by
  have hl : (normalizeVerts vs).length = vs.length := by rw [normalizeVerts_eq]; simp
  have hni := h.ids_inf
  obtain ⟨first, rest', hb', hs'⟩ := wrapAndTriangulate_ok hs
  rw [hb] at hb'
  simp only [Res.ok.injEq, List.cons.injEq] at hb'
  obtain ⟨rfl, rfl⟩ := hb'
  have hperm := binSort_perm (by rw [hl]; have := h.ids; unfold NONE at this; omega) hb
  have hnd : (f0 :: f1 :: f2 :: f3 :: rest).Nodup := hperm.nodup_iff.2 List.nodup_range
  have hlt : ∀ v ∈ f0 :: f1 :: f2 :: f3 :: rest, v < (normalizeVerts vs).length := fun v hv => by simpa using hperm.subset hv
  have hlen := hperm.length_eq
  simp only [List.length_cons, List.length_range] at hlen
  obtain ⟨insF, hIF, -, -, hstF⟩ := h.prefix_run hb hm (rest.length + 3) (by rw [List.take_of_length_le (by simp)]; exact hs')
  have e : f1 :: f2 :: f3 :: rest = [f1, f2, f3] ++ rest := rfl
  rw [e, insertAll_append, Res.bind_eq_ok] at hs'
  obtain ⟨s0, hs0, hs1⟩ := hs'
  obtain ⟨hR, hT, ins, hI⟩ := h.frame_mesh hb hw ht hF hA hm hs0
  have hf' : f0 < (normalizeVerts vs).length := hlt _ (by simp)
  have hTF := tiled_steps hstF (initial_valid hf' hni) (tiled_initial hf' hni)
  have hok : VertsIn (VOk (normalizeVerts vs).length) s0.ts := hI.ok
  have hE := hR.emp hI.valid hT hok hni
  have hinn := fun P h1 h2 h3 h4 => hR.inner hI.valid hT hok hni P h1 h2 h3 h4
  obtain ⟨e1, e2⟩ := insertAll_emp (fuel := fuel) h.sep (by rw [hl]; exact h.ids) (by rw [hl]; exact h.fuel) rest _ ins s0 s hI
    (by simp only [List.nodup_cons] at hnd; exact hnd.2.2.2.2)
    (by
      intro v hv hc
      simp only [List.nodup_cons, List.mem_cons, not_or] at hnd
      simp only [List.mem_cons, List.not_mem_nil, or_false] at hc
      rcases hc with rfl | rfl | rfl | rfl
      · exact hnd.2.2.2.1 hv
      · exact hnd.2.2.1.2 hv
      · exact hnd.2.1.2.2 hv
      · exact hnd.1.2.2.2 hv)
    (fun v hv => hlt v (by simp [hv]))
    (by simp; omega) hE hT
    (fun v hv => by
      obtain ⟨P, g, h1, h2, h3, h4⟩ := hin v hv
      rw [hp_fin (by have := lt_of_getElem? g; omega) g]
      exact hinn P h1 h2 h3 h4) hs1
  refine ⟨e1, hTF, fun P h1 h2 h3 h4 => (hinn P h1 h2 h3 h4).mono e2, _, _, hIF, ?_⟩
  rw [List.take_of_length_le (by simp)]
  refine List.Perm.trans ?_ (hl ▸ hperm)
  refine (List.perm_append_comm).trans ?_
  simp only [List.singleton_append, List.perm_cons]
  exact List.reverse_perm _

/-- Framed runs succeed as soon as the four corners can be inserted. -/
theorem Good.framed_ok {fuel : Nat} {bins : Nat → Nat} {vs : List (Vtx K)} (h : Good fuel bins vs) {f0 f1 f2 f3 : Nat} {rest : List Nat}
    (hb : binSort (bins vs.length) (normalizeVerts vs) = .ok (f0 :: f1 :: f2 :: f3 :: rest)) {x y w t : K} (hw : 0 < w) (ht : 0 < t)
    (hF : ∀ q ∈ [f0, f1, f2, f3], ∃ i j, (normalizeVerts vs)[q]? = some (crn x y w t i j))
    (hA : ∀ i j, ∃ q ∈ [f0, f1, f2, f3], (normalizeVerts vs)[q]? = some (crn x y w t i j))
    (hin : ∀ v ∈ rest, ∃ P, (normalizeVerts vs)[v]? = some P ∧ x < P.x ∧ P.x < x + w ∧ y < P.y ∧ P.y < y + t)
    {m : Option (List Nat)} (hm : MergeInit vs.length m) {s0 : DT}
    (hs0 : insertAll (normalizeVerts vs) fuel [f1, f2, f3] ⟨initialTriangles f0, 3, m⟩ = .ok s0) :
    ∃ s, wrapAndTriangulate fuel (bins vs.length) (normalizeVerts vs) m = .ok s := by
  have hl : (normalizeVerts vs).length = vs.length := by rw [normalizeVerts_eq]; simp
  have hni := h.ids_inf
  have hperm := binSort_perm (by rw [hl]; have := h.ids; unfold NONE at this; omega) hb
  have hnd : (f0 :: f1 :: f2 :: f3 :: rest).Nodup := hperm.nodup_iff.2 List.nodup_range
  have hlt : ∀ v ∈ f0 :: f1 :: f2 :: f3 :: rest, v < (normalizeVerts vs).length := fun v hv => by simpa using hperm.subset hv
  have hlen := hperm.length_eq
  simp only [List.length_cons, List.length_range] at hlen
  obtain ⟨hR, hT, ins, hI⟩ := h.frame_mesh hb hw ht hF hA hm hs0
  have hok : VertsIn (VOk (normalizeVerts vs).length) s0.ts := hI.ok
  obtain ⟨s, hs⟩ := insertAll_inner (fuel := fuel) h.sep (by rw [hl]; exact h.ids) (by rw [hl]; exact h.fuel) rest _ ins s0 hI
    (by simp only [List.nodup_cons] at hnd; exact hnd.2.2.2.2)
    (by
      intro v hv hc
      simp only [List.nodup_cons, List.mem_cons, not_or] at hnd
      simp only [List.mem_cons, List.not_mem_nil, or_false] at hc
      rcases hc with rfl | rfl | rfl | rfl
      · exact hnd.2.2.2.1 hv
      · exact hnd.2.2.1.2 hv
      · exact hnd.2.1.2.2 hv
      · exact hnd.1.2.2.2 hv)
    (fun v hv => hlt v (by simp [hv]))
    (by simp; omega) (hR.emp hI.valid hT hok hni) hT
    (fun v hv => by
      obtain ⟨P, g, h1, h2, h3, h4⟩ := hin v hv
      rw [hp_fin (by have := lt_of_getElem? g; omega) g]
      exact hR.inner hI.valid hT hok hni P h1 h2 h3 h4)
    (.inl fun v hv p gp => by
      obtain ⟨P, g, h1, h2, h3, h4⟩ := hin v hv
      rw [g] at gp; simp only [Option.some.injEq] at gp; subst gp
      exact search_ok hni hI.valid hI.ok hI.tid fun l hl => hR.walk hI.valid hT hok hni h1 h2 h3 h4 hI.tid l hl)
  refine ⟨s, ?_⟩
  have e : lastId (initialTriangles f0) = .ok 3 := by
    have := IdCfg.big
    simpa [initialTriangles] using lastId_ok (ts := initialTriangles f0) (by simp [initialTriangles]) (by simp [initialTriangles, NONE]; omega)
  unfold wrapAndTriangulate
  simp only [hb, Res.ok_bind, e]
  rw [show f1 :: f2 :: f3 :: rest = [f1, f2, f3] ++ rest from rfl, insertAll_append, hs0]
  exact hs

/-! ## Specification -/

/-- The points `pts` inside an axis-parallel rectangle, followed by its corners in any order. -/
def Spec.Framed (vs : List (Vtx K)) (x0 x1 y0 y1 : K) : Prop :=
  x0 < x1 ∧ y0 < y1 ∧ ∃ pts corners, vs = pts ++ corners ∧
    corners.Perm [⟨x0, y0⟩, ⟨x0, y1⟩, ⟨x1, y0⟩, ⟨x1, y1⟩] ∧
    ∀ p ∈ pts, x0 < p.x ∧ p.x < x1 ∧ y0 < p.y ∧ p.y < y1

/-- The closed clockwise triangle. -/
def Spec.InClosed (a b c p : Vtx K) : Prop := area2 a b p ≤ 0 ∧ area2 b c p ≤ 0 ∧ area2 c a p ≤ 0

/-- No input point is strictly inside the circumcircle of an output triangle. -/
def Spec.Delaunay (vs : List (Vtx K)) (out : List Out) : Prop :=
  ∀ o ∈ out, ∃ A B C, vs[o.1]? = some A ∧ vs[o.2.1]? = some B ∧ vs[o.2.2]? = some C ∧ Clockwise A B C ∧
    ∀ q ∈ vs, ¬ InCircle A B C q

/-- Every point strictly inside the rectangle is in a triangle. -/
def Spec.Covers (vs : List (Vtx K)) (out : List Out) (x0 x1 y0 y1 : K) : Prop :=
  ∀ q : Vtx K, x0 < q.x → q.x < x1 → y0 < q.y → q.y < y1 →
    ∃ o ∈ out, ∃ A B C, vs[o.1]? = some A ∧ vs[o.2.1]? = some B ∧ vs[o.2.2]? = some C ∧ Spec.InClosed A B C q

theorem toNorm_crn (vs : List (Vtx K)) (x0 x1 y0 y1 : K) (hs : scaleFactor vs ≠ 0) (i j : Bool) :
    toNorm vs ⟨cond i x1 x0, cond j y1 y0⟩ =
      crn ((x0 - (bbox vs).1) / scaleFactor vs) ((y0 - (bbox vs).2.1) / scaleFactor vs) ((x1 - x0) / scaleFactor vs)
        ((y1 - y0) / scaleFactor vs) i j := by
  cases i <;> cases j <;> simp only [toNorm, crn, cond_true, cond_false, Vtx.mk.injEq] <;> constructor <;>
    first | rfl | trivial | (rw [← add_div]; congr 1; ring)

/-- With one bin the corners are inserted first. -/
theorem Good.frame_order {fuel : Nat} {bins : Nat → Nat} {vs : List (Vtx K)} (h : Good fuel bins vs) (h1 : bins vs.length = 1)
    {x0 x1 y0 y1 : K} (hf : Spec.Framed vs x0 x1 y0 y1) : ∃ f0 f1 f2 f3 rest,
    binSort (bins vs.length) (normalizeVerts vs) = .ok (f0 :: f1 :: f2 :: f3 :: rest) ∧
    (∀ q ∈ [f0, f1, f2, f3], ∃ i j, (normalizeVerts vs)[q]? = some (crn ((x0 - (bbox vs).1) / scaleFactor vs)
      ((y0 - (bbox vs).2.1) / scaleFactor vs) ((x1 - x0) / scaleFactor vs) ((y1 - y0) / scaleFactor vs) i j)) ∧
    (∀ i j, ∃ q ∈ [f0, f1, f2, f3], (normalizeVerts vs)[q]? = some (crn ((x0 - (bbox vs).1) / scaleFactor vs)
      ((y0 - (bbox vs).2.1) / scaleFactor vs) ((x1 - x0) / scaleFactor vs) ((y1 - y0) / scaleFactor vs) i j)) ∧
    (∀ v ∈ rest, ∃ P, (normalizeVerts vs)[v]? = some P ∧
      (x0 - (bbox vs).1) / scaleFactor vs < P.x ∧ P.x < (x0 - (bbox vs).1) / scaleFactor vs + (x1 - x0) / scaleFactor vs ∧
      (y0 - (bbox vs).2.1) / scaleFactor vs < P.y ∧ P.y < (y0 - (bbox vs).2.1) / scaleFactor vs + (y1 - y0) / scaleFactor vs) := by
  have hl : (normalizeVerts vs).length = vs.length := by rw [normalizeVerts_eq]; simp
  have hs := h.scale
  obtain ⟨hx, hy, pts, corners, hvs, hperm, hin⟩ := hf
  have gN : ∀ {k : Nat} {X : Vtx K}, vs[k]? = some X → (normalizeVerts vs)[k]? = some (toNorm vs X) := by
    intro k X hx; rw [normalizeVerts_eq, List.getElem?_map, hx]; rfl
  obtain ⟨r, hr⟩ := countBins_ok (bins := bins vs.length) (vs := normalizeVerts vs)
    (cnt := List.replicate (bins vs.length * bins vs.length) 0) (fun v hv => by simpa using binIndex_ok h.bins (h.unit v hv))
  have hnn : (normalizeVerts vs).length ≤ IdCfg.maxId + 1 := by rw [hl]; have := h.ids; unfold NONE at this; omega
  obtain ⟨out, ho, -⟩ := binSort_of_bins hnn hr
  have e := ho
  rw [h1] at e
  have e := binSort_one hnn e
  have hcl : corners.length = 4 := by simpa using hperm.length_eq
  have hvl : vs.length = pts.length + 4 := by rw [hvs]; simp [hcl]
  rw [hl, hvl] at e
  have hrev : (List.range (pts.length + 4)).reverse = (pts.length + 3) :: (pts.length + 2) :: (pts.length + 1) :: pts.length ::
      (List.range pts.length).reverse := by
    simp [List.range_succ]
  rw [hrev] at e
  have gc : ∀ k, vs[pts.length + k]? = corners[k]? := by
    intro k; rw [hvs, List.getElem?_append_right (by omega)]; congr 1; omega
  refine ⟨_, _, _, _, _, e ▸ ho, ?_, ?_, ?_⟩
  · intro q hq
    have : ∃ k, k < 4 ∧ q = pts.length + k := by
      simp only [List.mem_cons, List.not_mem_nil, or_false] at hq
      rcases hq with rfl | rfl | rfl | rfl
      · exact ⟨3, by omega, rfl⟩
      · exact ⟨2, by omega, rfl⟩
      · exact ⟨1, by omega, rfl⟩
      · exact ⟨0, by omega, rfl⟩
    obtain ⟨k, hk, rfl⟩ := this
    have g := gc k
    rw [List.getElem?_eq_getElem (by omega : k < corners.length)] at g
    have hm := hperm.subset (List.getElem_mem (by omega : k < corners.length))
    have : ∃ i j, corners[k] = ⟨cond i x1 x0, cond j y1 y0⟩ := by
      simp only [List.mem_cons, List.not_mem_nil, or_false] at hm
      rcases hm with e | e | e | e
      · exact ⟨false, false, e⟩
      · exact ⟨false, true, e⟩
      · exact ⟨true, false, e⟩
      · exact ⟨true, true, e⟩
    obtain ⟨i, j, e⟩ := this
    exact ⟨i, j, by rw [gN g, e, toNorm_crn _ _ _ _ _ hs.ne']⟩
  · intro i j
    have hm : (⟨cond i x1 x0, cond j y1 y0⟩ : Vtx K) ∈ corners := by
      apply hperm.symm.subset
      cases i <;> cases j <;> simp
    obtain ⟨k, hk⟩ := List.mem_iff_getElem?.1 hm
    have hk4 := lt_of_getElem? hk
    refine ⟨pts.length + k, ?_, ?_⟩
    · rw [hcl] at hk4
      have : k = 0 ∨ k = 1 ∨ k = 2 ∨ k = 3 := by omega
      rcases this with rfl | rfl | rfl | rfl <;> simp
    · rw [gN ((gc k).trans hk), toNorm_crn _ _ _ _ _ hs.ne']
  · intro v hv
    simp only [List.mem_reverse, List.mem_range] at hv
    have g : vs[v]? = some pts[v] := by
      rw [hvs, List.getElem?_append_left hv, List.getElem?_eq_getElem hv]
    obtain ⟨a, b, c, d⟩ := hin _ (List.getElem_mem hv)
    refine ⟨_, gN g, ?_, ?_, ?_, ?_⟩
    · exact (div_lt_div_iff_of_pos_right hs).2 (by linarith)
    · rw [← add_div]; exact (div_lt_div_iff_of_pos_right hs).2 (by linarith)
    · exact (div_lt_div_iff_of_pos_right hs).2 (by linarith)
    · rw [← add_div]; exact (div_lt_div_iff_of_pos_right hs).2 (by linarith)

theorem inCircle_norm {vs : List (Vtx K)} (hs : 0 < scaleFactor vs) {A B C P : Vtx K} (h : InCircle A B C P) :
    InCircle (toNorm vs A) (toNorm vs B) (toNorm vs C) (toNorm vs P) := by
  obtain ⟨m, ⟨e1, e2⟩, e3⟩ := h
  have hs2 : 0 < scaleFactor vs ^ 2 := by positivity
  refine ⟨toNorm vs m, ⟨?_, ?_⟩, ?_⟩ <;> unfold toNorm
  · rw [dist2_normalized _ _ _ _ _ hs.ne', dist2_normalized _ _ _ _ _ hs.ne', e1]
  · rw [dist2_normalized _ _ _ _ _ hs.ne', dist2_normalized _ _ _ _ _ hs.ne', e2]
  · rw [dist2_normalized _ _ _ _ _ hs.ne', dist2_normalized _ _ _ _ _ hs.ne']
    exact (div_lt_div_iff_of_pos_right hs2).2 e3

/-- From the mesh to the specification, in input coordinates. -/
theorem Emp.delaunay {vs : List (Vtx K)} {s : DT} {done ins : List Nat} (hs : 0 < scaleFactor vs) (hsep : Sep (normalizeVerts vs))
    (hni : (normalizeVerts vs).length ≤ INF0) (hE : Emp (normalizeVerts vs) s.ts) (hI : DInv (normalizeVerts vs) done ins s)
    (hperm : done.Perm (List.range vs.length)) : Spec.Delaunay vs (filterSeq s.ts) := by
  have hl : (normalizeVerts vs).length = vs.length := by rw [normalizeVerts_eq]; simp
  intro o ho
  obtain ⟨t, ht, hfin, rfl⟩ := mem_filterSeq ho
  obtain ⟨i, hi⟩ := List.mem_iff_getElem?.1 ht
  have hfl : t.v1 < (normalizeVerts vs).length ∧ t.v2 < (normalizeVerts vs).length ∧ t.v3 < (normalizeVerts vs).length := by
    have hok := fun k => hI.ok t ht k
    rw [forall_fin3] at hok
    simp only [Tri.v_0, Tri.v_1, Tri.v_2] at hok
    simp only [Tri.isFinite, Bool.and_eq_true, isFin_iff] at hfin
    obtain ⟨⟨a1, a2⟩, a3⟩ := hfin
    exact ⟨hok.1.resolve_right (by omega), hok.2.1.resolve_right (by omega), hok.2.2.resolve_right (by omega)⟩
  have get : ∀ {a}, a < (normalizeVerts vs).length → ∃ A, vs[a]? = some A := fun {a} ha =>
    ⟨_, List.getElem?_eq_getElem (hl ▸ ha)⟩
  obtain ⟨A, gA⟩ := get hfl.1
  obtain ⟨B, gB⟩ := get hfl.2.1
  obtain ⟨C, gC⟩ := get hfl.2.2
  have hT := triIn_get hi
  have pos := hT.pos hI.valid
  have o1 := o_norm_area hs hni gA gB gC
  have hcw : Clockwise A B C := by
    rw [o1] at pos
    have hs2 : 0 < scaleFactor vs ^ 2 := by positivity
    have : area2 A B C / scaleFactor vs ^ 2 < 0 := by linarith
    rcases div_neg_iff.1 this with h | h
    · linarith
    · exact h.1
  refine ⟨A, B, C, gA, gB, gC, hcw, ?_⟩
  intro q hq hc
  obtain ⟨k, gk⟩ := List.mem_iff_getElem?.1 hq
  have hk : k < vs.length := lt_of_getElem? gk
  obtain ⟨z, hz, gz⟩ : ∃ z ∈ ins, hp (normalizeVerts vs) z = HP.ofVtx (toNorm vs q) := by
    by_cases hki : k ∈ ins
    · exact ⟨k, hki, hp_norm_eq hni gk⟩
    · obtain ⟨z, hz, a, b, ga, gb, hcl, -⟩ := hI.merged k (hperm.symm.subset (by simpa using hk)) hki
      have heq := tooClose_eq hsep (List.mem_of_getElem? gb) (List.mem_of_getElem? ga) hcl
      refine ⟨z, hz, ?_⟩
      rw [hp_fin (by have := lt_of_getElem? gb; omega) gb, heq, ← hp_fin (by have := lt_of_getElem? ga; omega) ga, hp_norm_eq hni gk]
  have hzf : z < INF0 := by have := hI.dlt _ (hI.sub _ hz); omega
  have hic := hE.circ _ _ _ z hT (by omega) (by omega) (by omega) (hI.occ z hz) hzf
  rw [gz, hp_norm_eq hni gA, hp_norm_eq hni gB, hp_norm_eq hni gC, ic_crS] at hic
  have hc' := inCircle_norm hs hc
  have hpos : 0 < area2 (toNorm vs B) (toNorm vs A) (toNorm vs C) := by
    rw [hp_norm_eq hni gA, hp_norm_eq hni gB, hp_norm_eq hni gC, o_area2] at pos
    rw [area2_swap]; exact pos
  have : InCircle (toNorm vs B) (toNorm vs A) (toNorm vs C) (toNorm vs q) := by
    obtain ⟨m, ⟨e1, e2⟩, e3⟩ := hc'
    exact ⟨m, ⟨e1.symm, e1.symm.trans e2⟩, by rw [← e1]; exact e3⟩
  have := (crS_inCircle hpos).2 this
  linarith

/-- **C53**, the part about the result: the corners of the frame are the last four vertices, one bin. -/
theorem C53_framed_result (fuel : Nat) (bins : Nat → Nat) (vs : List (Vtx K)) (h : Good fuel bins vs) (h1 : bins vs.length = 1)
    (x0 x1 y0 y1 : K) (hf : Spec.Framed vs x0 x1 y0 y1) (out : List Out) (ho : triangulation2d fuel bins vs = .ok out) :
    Spec.Delaunay vs out ∧ Spec.Covers vs out x0 x1 y0 y1 := by
  have hni := h.ids_inf
  have hl : (normalizeVerts vs).length = vs.length := by rw [normalizeVerts_eq]; simp
  have hs := h.scale
  obtain ⟨f0, f1, f2, f3, rest, hb, hF, hA, hin⟩ := h.frame_order h1 hf
  obtain ⟨hx, hy, pts, corners, hvs, hperm, -⟩ := hf
  have hlen : ¬ vs.length < 3 := by
    rw [hvs, List.length_append, hperm.length_eq]; simp
  unfold triangulation2d at ho
  rw [if_neg hlen] at ho
  simp only [Res.bind_eq_ok, Res.ok.injEq] at ho
  obtain ⟨s, hr, rfl⟩ := ho
  obtain ⟨hE, hT, hinn, done, ins, hI, hperm⟩ := h.framed hb (div_pos (by linarith) hs) (div_pos (by linarith) hs) hF hA hin
    (mergeInit_none _) hr
  refine ⟨hE.delaunay hs h.sep hni hI hperm, ?_⟩
  intro q q1 q2 q3 q4
  have inn := hinn (toNorm vs q)
    ((div_lt_div_iff_of_pos_right hs).2 (by linarith))
    (by rw [← add_div]; exact (div_lt_div_iff_of_pos_right hs).2 (by linarith))
    ((div_lt_div_iff_of_pos_right hs).2 (by linarith))
    (by rw [← add_div]; exact (div_lt_div_iff_of_pos_right hs).2 (by linarith))
  obtain ⟨i, T, hT, c1, c2, c3⟩ := hT.closed (g := HP.ofVtx (toNorm vs q)) rfl
  have hTi := triIn_get hT
  have f1 : T.v1 < INF0 := by
    by_contra hc
    rcases inn.far _ _ _ hTi hc with h | h | h <;> linarith
  have f2 : T.v2 < INF0 := by
    by_contra hc
    rcases inn.far _ _ _ hTi.next hc with h | h | h <;> linarith
  have f3 : T.v3 < INF0 := by
    by_contra hc
    rcases inn.far _ _ _ hTi.next.next hc with h | h | h <;> linarith
  have hm := List.mem_of_getElem? hT
  have hfin : T.isFinite = true := by
    simp [Tri.isFinite, isFin_iff, f1, f2, f3]
  have hok := fun k => hI.ok T hm k
  rw [forall_fin3] at hok
  simp only [Tri.v_0, Tri.v_1, Tri.v_2] at hok
  have get : ∀ {a}, VOk (normalizeVerts vs).length a → a < INF0 → ∃ A, vs[a]? = some A := fun {a} ha hi =>
    ⟨_, List.getElem?_eq_getElem (hl ▸ ha.resolve_right (by omega))⟩
  obtain ⟨A, gA⟩ := get hok.1 f1
  obtain ⟨B, gB⟩ := get hok.2.1 f2
  obtain ⟨C, gC⟩ := get hok.2.2 f3
  have mem : T.verts ∈ filterSeq s.ts := by
    rw [filterSeq_eq_map, List.mem_map]
    exact ⟨T, List.mem_filter.2 ⟨hm, hfin⟩, rfl⟩
  refine ⟨T.verts, mem, A, B, C, gA, gB, gC, ?_⟩
  have key : ∀ {A B : Vtx K} {a b : Nat}, vs[a]? = some A → vs[b]? = some B →
      0 ≤ HP.o (hp (normalizeVerts vs) a) (hp (normalizeVerts vs) b) (HP.ofVtx (toNorm vs q)) → area2 A B q ≤ 0 := by
    intro A B a b gA gB h
    rw [hp_norm_eq hni gA, hp_norm_eq hni gB, o_area2] at h
    unfold toNorm at h
    rw [area2_normalized _ _ _ _ _ _ hs.ne'] at h
    have hs2 : 0 < scaleFactor vs ^ 2 := by positivity
    by_contra hc
    have := div_pos (not_le.1 hc) hs2
    linarith
  exact ⟨key gA gB c1, key gB gC c2, key gC gA c3⟩

/-- With one bin the corners are the first four vertices, in the reverse order of the input. -/
theorem Good.frame_corners {fuel : Nat} {bins : Nat → Nat} {vs : List (Vtx K)} (h : Good fuel bins vs)
    {x0 x1 y0 y1 : K} (hf : Spec.Framed vs x0 x1 y0 y1) : ∃ (n : Nat) (l : List (Bool × Bool)), n + 4 = vs.length ∧ l.Perm allCorners ∧
    ∀ (k : Nat) (c : Bool × Bool), l[k]? = some c → (normalizeVerts vs)[n + k]? = some (crn ((x0 - (bbox vs).1) / scaleFactor vs)
      ((y0 - (bbox vs).2.1) / scaleFactor vs) ((x1 - x0) / scaleFactor vs) ((y1 - y0) / scaleFactor vs) c.1 c.2) := by
  have hs := h.scale
  obtain ⟨hx, hy, pts, corners, hvs, hperm, hin⟩ := hf
  have hcl : corners.length = 4 := by simpa using hperm.length_eq
  refine ⟨pts.length, corners.map fun p => (decide (p.x = x1), decide (p.y = y1)), by rw [hvs]; simp [hcl], ?_, ?_⟩
  · have := hperm.map fun p => (decide (p.x = x1), decide (p.y = y1))
    simpa [hx.ne, hy.ne, allCorners] using this
  · intro k c hc
    rw [List.getElem?_map, Option.map_eq_some_iff] at hc
    obtain ⟨p, gp, rfl⟩ := hc
    have g : vs[pts.length + k]? = some p := by
      rw [hvs, List.getElem?_append_right (by omega), ← gp]; congr 1; omega
    rw [normalizeVerts_eq, List.getElem?_map, g]
    have hm := hperm.subset (List.mem_of_getElem? gp)
    have e : p = ⟨cond (decide (p.x = x1)) x1 x0, cond (decide (p.y = y1)) y1 y0⟩ := by
      simp only [List.mem_cons, List.not_mem_nil, or_false] at hm
      rcases hm with rfl | rfl | rfl | rfl <;> simp [hx.ne, hy.ne]
    rw [← toNorm_crn _ _ _ _ _ hs.ne', ← e]; rfl

/-- **C53**. Points strictly inside an axis-parallel rectangle followed by its corners, one bin: the triangulation
succeeds, every triangle has an empty circumcircle and the rectangle is covered. -/
theorem C53_framed (hcfg : RealCfg) (fuel : Nat) (bins : Nat → Nat) (vs : List (Vtx K)) (h : Good fuel bins vs) (h1 : bins vs.length = 1)
    (x0 x1 y0 y1 : K) (hf : Spec.Framed vs x0 x1 y0 y1) :
    ∃ out, triangulation2d fuel bins vs = .ok out ∧ Spec.Delaunay vs out ∧ Spec.Covers vs out x0 x1 y0 y1 := by
  have hl : (normalizeVerts vs).length = vs.length := by rw [normalizeVerts_eq]; simp
  have hs := h.scale
  obtain ⟨f0, f1, f2, f3, rest, hb, hF, hA, hin⟩ := h.frame_order h1 hf
  obtain ⟨n, l, hn, hperm, hv⟩ := h.frame_corners hf
  have hw : 0 < (x1 - x0) / scaleFactor vs := div_pos (by linarith [hf.1]) hs
  have ht : 0 < (y1 - y0) / scaleFactor vs := div_pos (by linarith [hf.2.1]) hs
  have hids := h.ids
  have hnn : (normalizeVerts vs).length ≤ IdCfg.maxId + 1 := by rw [hl]; unfold NONE at hids; omega
  have hni := h.ids_inf
  have e := hb
  rw [h1] at e
  have e := binSort_one hnn e
  have hrev : (List.range (n + 4)).reverse = (n + 3) :: (n + 2) :: (n + 1) :: n :: (List.range n).reverse := by
    simp [List.range_succ]
  rw [hl, ← hn, hrev] at e
  simp only [List.cons.injEq] at e
  obtain ⟨rfl, rfl, rfl, rfl, rfl⟩ := e
  have hW := h.sep.wide hw ht fun i j => by
    obtain ⟨q, -, g⟩ := hA i j
    exact List.mem_of_getElem? g
  obtain ⟨s0, hs0⟩ := corners_ok hcfg hW hperm (by rw [hn, ← hl]; exact hni) hv (fuel := fuel)
    (by have := h.fuel; omega) none
  obtain ⟨s, hs⟩ := h.framed_ok hb hw ht hF hA hin (mergeInit_none _) hs0
  have ho : triangulation2d fuel bins vs = .ok (filterSeq s.ts) := by
    unfold triangulation2d
    simp only [if_neg (show ¬ vs.length < 3 by omega), hs, Res.ok_bind]
  exact ⟨_, ho, C53_framed_result fuel bins vs h h1 x0 x1 y0 y1 hf _ ho⟩

/-- **C53** in rounded arithmetic (`f32`, `f64`) on robust inputs and on grids: the circles and the rectangle are those of
the exact values of the input coordinates. -/
theorem C53_framed_rounded {F : Type} [FloatOps F] [Rounded F] (hcfg : RealCfg) (fuel : Nat) (bins : Nat → Nat) (vs : List (Vtx F))
    (V : List (Vtx ℚ)) (W : ℚ) (h : Rounded.RGood fuel bins vs V W) (h1 : bins vs.length = 1) (x0 x1 y0 y1 : ℚ)
    (hf : Spec.Framed V x0 x1 y0 y1) :
    ∃ out, triangulation2d fuel bins vs = .ok out ∧ Spec.Delaunay V out ∧ Spec.Covers V out x0 x1 y0 y1 := by
  let P := Rounded.params F (bins vs.length) W (Rounded.scaleVal vs)
  rw [h.run]
  exact C53_framed hcfg fuel bins V h.good (by rw [h.len]; exact h1) x0 x1 y0 y1 hf

end CDT

namespace CDT
section Example
local instance frameCfg : IdCfg := u32Cfg

/-- Five points, two of them equal and four of them on a circle, and the corners of a rectangle around them. -/
def framePts : List (Vtx ℚ) := Witness.pts [(3,2),(5,2),(3,4),(5,4),(3,2),(9,7),(0,0),(0,7),(9,0)]

theorem frame_good : Good 100 (fun _ => 1) framePts := by
  refine good_of_int ?_ ?_ ⟨⟨0, 0⟩, by decide +kernel, ⟨9, 0⟩, by decide +kernel, by decide +kernel⟩
    (by decide +kernel) (by decide +kernel) (by decide +kernel) (by decide +kernel)
  · intro v hv
    simp only [framePts, Witness.pts, List.mem_map] at hv
    obtain ⟨q, _, rfl⟩ := hv
    exact ⟨q.1, q.2, rfl, rfl⟩
  · unfold InRange
    decide +kernel

theorem frame_framed : Spec.Framed framePts 0 9 0 7 :=
  ⟨by norm_num, by norm_num, Witness.pts [(3,2),(5,2),(3,4),(5,4),(3,2)], Witness.pts [(9,7),(0,0),(0,7),(9,0)], rfl,
    by decide +kernel, by decide +kernel⟩

/-- The hypotheses of `C53_framed` hold, and the output has ten triangles. -/
example : RealCfg ∧ Good 100 (fun _ => 1) framePts ∧ Spec.Framed framePts 0 9 0 7 ∧
    (do let out ← triangulation2d 100 (fun _ => 1) framePts; Res.ok out.length) = .ok 10 :=
  ⟨.inl rfl, frame_good, frame_framed, by decide +kernel⟩

open Rounded

/-- The sample in `f64`, in a frame of width 16. -/
def frameGrid : List (Int × Int) := [(3,2),(5,2),(3,4),(5,4),(3,2),(16,7),(0,0),(0,7),(16,0)]

/-- The hypotheses of `C53_framed_rounded` hold. -/
example : RGood (F := F64) 100 (fun _ => 1) (flPts binary64 frameGrid) (intPts frameGrid) (2 ^ 4) ∧
    Spec.Framed (intPts frameGrid) 0 16 0 7 :=
  ⟨C44_grid frameGrid 4 (by decide) (by decide) (by decide) ⟨by norm_num, by decide +kernel, by decide +kernel⟩
      (by decide +kernel) (by decide +kernel) (by decide +kernel) (by decide),
    by norm_num, by norm_num, intPts [(3,2),(5,2),(3,4),(5,4),(3,2)], intPts [(16,7),(0,0),(0,7),(16,0)], rfl,
    by decide +kernel, by decide +kernel⟩

end Example

end CDT

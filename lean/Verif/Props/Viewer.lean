import Verif.Proofs.Draw
import Verif.Props.Snapshots
import Verif.Model.Exact
import Verif.Witness.Upstream
import Mathlib.Tactic.Linarith
import Mathlib.Tactic.Ring

/-!
# C86, C87: the visual debugger

Nothing is assumed about the arithmetic, except in the last section.
-/

set_option linter.unusedSectionVars false
set_option linter.unusedVariables false
set_option linter.unusedSimpArgs false

namespace CDT
open FloatOps

section
variable {F : Type} [FloatOps F] [IdCfg]

/-! ## The cursor -/

theorem Viewer.back_zero {v : Viewer F} (h : v.cursor = 0) : v.back = if v.snaps.length < 1 then .panic else .ok { v with cursor := v.snaps.length - 1 } := by
  rw [Viewer.back, if_pos h, subI]
  split <;> rfl

/-- **C87**: with at least one snapshot and the cursor on one of them, no key fails, the cursor stays on a snapshot, and the
snapshots, the vertices and the constraints stay. -/
theorem C87_press (v : Viewer F) (h : v.cursor < v.snaps.length) (k : Key) :
    ∃ w, v.press k = .ok w ∧ w.cursor < w.snaps.length ∧ w.snaps = v.snaps ∧ w.vertices = v.vertices ∧ w.constraints = v.constraints := by
  cases k with
  | right =>
    refine ⟨v.advance, rfl, ?_⟩
    unfold Viewer.advance
    rw [if_pos (by omega)]
    exact ⟨Nat.mod_lt _ (by omega), rfl, rfl, rfl⟩
  | left =>
    by_cases h0 : v.cursor = 0
    · refine ⟨{ v with cursor := v.snaps.length - 1 }, ?_, ?_, rfl, rfl, rfl⟩
      · rw [Viewer.press, Viewer.back_zero h0, if_neg (by omega)]
      · show v.snaps.length - 1 < v.snaps.length
        omega
    · refine ⟨{ v with cursor := v.cursor - 1 }, ?_, ?_, rfl, rfl, rfl⟩
      · rw [Viewer.press, Viewer.back, if_neg h0]
      · show v.cursor - 1 < v.snaps.length
        omega
  | drawMode => exact ⟨_, rfl, h, rfl, rfl, rfl⟩
  | labelMode => exact ⟨_, rfl, h, rfl, rfl, rfl⟩
  | vertexLabelMode => exact ⟨_, rfl, h, rfl, rfl, rfl⟩

/-- **C87**: forward and back undo each other. -/
theorem C87_inverse (v : Viewer F) (h : v.cursor < v.snaps.length) :
    v.advance.back = .ok v ∧ ∀ w, v.back = .ok w → w.advance = v := by
  constructor
  · unfold Viewer.advance
    rw [if_pos (by omega)]
    by_cases hl : v.cursor + 1 = v.snaps.length
    · rw [hl, Nat.mod_self, Viewer.back_zero rfl]
      simp only
      rw [if_neg (by omega)]
      have : v.snaps.length - 1 = v.cursor := by omega
      rw [this]
    · rw [Nat.mod_eq_of_lt (by omega), Viewer.back]
      simp
  · intro w hw
    by_cases h0 : v.cursor = 0
    · rw [Viewer.back_zero h0, if_neg (by omega)] at hw
      cases hw
      unfold Viewer.advance
      simp only
      rw [if_pos (by omega), Nat.sub_add_cancel (by omega), Nat.mod_self, ← h0]
    · rw [Viewer.back, if_neg h0] at hw
      cases hw
      unfold Viewer.advance
      simp only
      rw [if_pos (by omega), Nat.sub_add_cancel (by omega), Nat.mod_eq_of_lt h]

/-- **C87**: pressing the right arrow shows the snapshots one after the other. -/
theorem C87_visits (v : Viewer F) (h : v.cursor = 0) (hs : v.snaps ≠ []) (j : Nat) :
    ∃ w, v.presses (List.replicate j .right) = .ok w ∧ w.cursor = j % v.snaps.length ∧ w.snaps = v.snaps := by
  have gen : ∀ (j : Nat) (v : Viewer F), 0 < v.snaps.length → v.cursor < v.snaps.length →
      ∃ w, v.presses (List.replicate j .right) = .ok w ∧ w.cursor = (v.cursor + j) % v.snaps.length ∧ w.snaps = v.snaps := by
    intro j
    induction j with
    | zero => intro v h hc; exact ⟨v, rfl, (Nat.mod_eq_of_lt hc).symm, rfl⟩
    | succ j ih =>
      intro v h hc
      have ha : v.advance = { v with cursor := (v.cursor + 1) % v.snaps.length } := by
        unfold Viewer.advance; rw [if_pos h]
      obtain ⟨w, e, hw, hs⟩ := ih v.advance (by rw [ha]; exact h) (by rw [ha]; exact Nat.mod_lt _ h)
      refine ⟨w, ?_, ?_, ?_⟩
      · rw [List.replicate_succ, Viewer.presses]
        exact e
      · rw [hw, ha]
        simp only
        rw [Nat.mod_add_mod]
        congr 1
        omega
      · rw [hs, ha]
  have hl : 0 < v.snaps.length := List.length_pos_iff.2 hs
  have := gen j v hl (by omega)
  rw [h, Nat.zero_add] at this
  exact this

/-- **C87**: started on the first snapshot, the viewer fails exactly when the left arrow is pressed although there is no snapshot. -/
theorem C87_keys (v : Viewer F) (h : v.cursor = 0) (ks : List Key) :
    v.presses ks = .panic ↔ v.snaps = [] ∧ .left ∈ ks := by
  by_cases hs : v.snaps = []
  · simp only [hs, true_and]
    induction ks generalizing v with
    | nil => simp [Viewer.presses]
    | cons k ks ih =>
      rw [Viewer.presses]
      cases k with
      | right =>
        have : v.press .right = .ok v := by simp [Viewer.press, Viewer.advance, hs]
        rw [this]
        simp only [Res.ok_bind]
        rw [ih v h hs]
        simp
      | left =>
        have : v.press .left = .panic := by rw [Viewer.press, Viewer.back_zero h]; simp [hs]
        rw [this]
        simp
      | drawMode => exact (ih { v with cfg := { v.cfg with draw := v.cfg.draw.next } } h hs).trans (by simp)
      | labelMode => exact (ih { v with cfg := { v.cfg with label := v.cfg.label.next } } h hs).trans (by simp)
      | vertexLabelMode => exact (ih { v with cfg := { v.cfg with vertexLabel := v.cfg.vertexLabel.next } } h hs).trans (by simp)
  · have hl : v.cursor < v.snaps.length := by
      have := List.length_pos_iff.2 hs
      omega
    have : ∀ v : Viewer F, v.cursor < v.snaps.length → ∃ w, v.presses ks = .ok w := by
      clear * -
      induction ks with
      | nil => intro v _; exact ⟨v, rfl⟩
      | cons k ks ih =>
        intro v h
        obtain ⟨w, e, hw, -⟩ := C87_press v h k
        obtain ⟨x, hx⟩ := ih w hw
        exact ⟨x, by rw [Viewer.presses, e]; exact hx⟩
    obtain ⟨w, hw⟩ := this v hl
    rw [hw]
    simp [hs]

/-- **C87**: the last snapshot can be asked for exactly when there is one, and it is the one shown. -/
theorem C87_last (v : Viewer F) : (v.last = .panic ↔ v.snaps = []) ∧ ∀ w, v.last = .ok w → w.current = .ok v.snaps.getLast? := by
  unfold Viewer.last subI
  by_cases h : v.snaps = []
  · simp [h]
  · have hl : 0 < v.snaps.length := List.length_pos_iff.2 h
    rw [if_neg (by omega)]
    refine ⟨iff_of_false (by simp) h, fun w hw => ?_⟩
    have e : w = { v with cursor := v.snaps.length - 1 } := by
      simp only [Res.ok_bind, Res.ok.injEq] at hw
      exact hw.symm
    subst e
    unfold Viewer.current getI
    simp only
    rw [if_pos (by omega), List.getLast?_eq_getElem?, List.getElem?_eq_getElem (by omega)]
    rfl

/-- **C87**: the snapshot under the cursor is shown, and nothing when the cursor is on no snapshot; after `j` presses of the right arrow it
is the one with number `j`, counted around the end. -/
theorem C87_current (v : Viewer F) : v.current = .ok v.snaps[v.cursor]? ∧
    (v.cursor = 0 → v.snaps ≠ [] → ∀ j, ∃ w, v.presses (List.replicate j .right) = .ok w ∧ w.current = .ok v.snaps[j % v.snaps.length]?) := by
  have gen : ∀ v : Viewer F, v.current = .ok v.snaps[v.cursor]? := by
    intro v
    unfold Viewer.current getI
    by_cases h : v.cursor < v.snaps.length
    · rw [if_pos h, List.getElem?_eq_getElem h]
      rfl
    · rw [if_neg h, List.getElem?_eq_none (by omega)]
  refine ⟨gen v, fun h hs j => ?_⟩
  obtain ⟨w, e, hc, hw⟩ := C87_visits v h hs j
  exact ⟨w, e, by rw [gen w, hc, hw]⟩

/-- **C87**: asking for the first snapshot shows it if there is one, and nothing else changes. -/
theorem C87_first (v : Viewer F) : v.first.current = .ok v.snaps.head? ∧ { v.first with cursor := v.cursor } = v := by
  refine ⟨?_, rfl⟩
  rw [(C87_current v.first).1, List.head?_eq_getElem?]
  rfl

/-- The keys lead to every display mode and back. -/
theorem C87_modes (d : DrawMode) (l : LabelMode) (x : VertexLabelMode) :
    (∀ s, d = .allAsMeshBatches s → s = 15) → d.next.next.next.next = d ∧ l.next.next.next = l ∧ x.next.next = x := by
  intro h
  refine ⟨?_, by cases l <;> rfl, by cases x <;> rfl⟩
  cases d with
  | allAsMeshBatches s => rw [h s rfl]; rfl
  | _ => rfl

theorem Viewer.presses_append (v : Viewer F) (ks ls : List Key) : v.presses (ks ++ ls) = (v.presses ks >>= fun w => w.presses ls) := by
  induction ks generalizing v with
  | nil => rfl
  | cons k ks ih =>
    rw [List.cons_append, Viewer.presses, Viewer.presses]
    cases v.press k with
    | ok w => simp only [Res.ok_bind]; exact ih w
    | _ => rfl

/-- **C87**: from any state the keys lead to every combination of display modes; cursor and snapshots stay as they are. -/
theorem C87_reach (v : Viewer F) (d : DrawMode) (l : LabelMode) (x : VertexLabelMode) (hd : ∀ s, d = .allAsMeshBatches s → s = 15) :
    ∃ ks w, v.presses ks = .ok w ∧ w.cfg.draw = d ∧ w.cfg.label = l ∧ w.cfg.vertexLabel = x ∧ w.cursor = v.cursor ∧ w.snaps = v.snaps := by
  have h1 : ∀ v : Viewer F, ∃ ks, v.presses ks = .ok { v with cfg := { v.cfg with draw := d } } := by
    rintro ⟨c, vs, cs, sn, cu, ⟨draw, la, vl⟩⟩
    have he : d = .allAsGizmos ∨ d = .changedAsGizmos ∨ d = .allAsMeshBatches 15 ∨ d = .contoursAndInterior := by
      cases d with
      | allAsMeshBatches s => rw [hd s rfl]; simp
      | _ => simp
    rcases he with rfl | rfl | rfl | rfl <;> cases draw <;>
      first
      | exact ⟨List.replicate 0 .drawMode, rfl⟩
      | exact ⟨List.replicate 1 .drawMode, rfl⟩
      | exact ⟨List.replicate 2 .drawMode, rfl⟩
      | exact ⟨List.replicate 3 .drawMode, rfl⟩
      | exact ⟨List.replicate 4 .drawMode, rfl⟩
  have h2 : ∀ v : Viewer F, ∃ ks, v.presses ks = .ok { v with cfg := { v.cfg with label := l } } := by
    rintro ⟨c, vs, cs, sn, cu, ⟨draw, la, vl⟩⟩
    cases l <;> cases la <;>
      first
      | exact ⟨List.replicate 0 .labelMode, rfl⟩
      | exact ⟨List.replicate 1 .labelMode, rfl⟩
      | exact ⟨List.replicate 2 .labelMode, rfl⟩
  have h3 : ∀ v : Viewer F, ∃ ks, v.presses ks = .ok { v with cfg := { v.cfg with vertexLabel := x } } := by
    rintro ⟨c, vs, cs, sn, cu, ⟨draw, la, vl⟩⟩
    cases x <;> cases vl <;>
      first
      | exact ⟨List.replicate 0 .vertexLabelMode, rfl⟩
      | exact ⟨List.replicate 1 .vertexLabelMode, rfl⟩
  obtain ⟨k1, e1⟩ := h1 v
  obtain ⟨k2, e2⟩ := h2 { v with cfg := { v.cfg with draw := d } }
  obtain ⟨k3, e3⟩ := h3 { v with cfg := { v.cfg with draw := d, label := l } }
  refine ⟨k1 ++ (k2 ++ k3), { v with cfg := { v.cfg with draw := d, label := l, vertexLabel := x } }, ?_, rfl, rfl, rfl, rfl, rfl⟩
  rw [Viewer.presses_append, e1, Res.ok_bind, Viewer.presses_append, e2, Res.ok_bind]
  exact e3

/-! ## One frame -/

theorem Spec.SnapOk.drawable {n : Nat} {s : Snap} (h : Spec.SnapOk n s) : ∀ t ∈ s.ts, Spec.Drawable n t :=
  fun t ht => ⟨h.vert t ht, h.real t ht⟩

/-- What a frame has to show of the snapshot `s`. -/
structure Spec.Shows (v : Viewer F) (s : Snap) (f : Frame F) : Prop where
  /-- As gizmos: a strip for every triangle, or for every changed triangle. -/
  strips : List.Forall₂ (fun t l => triStrip v.canvas v.vertices t = .ok l)
    (match v.cfg.draw with | .allAsGizmos => s.ts | .changedAsGizmos => s.changed.filterMap (s.ts[·]?) | _ => []) f.strips
  /-- As meshes: the lines of all triangles, in batches. -/
  batches : ∃ ls, List.Forall₂ (fun t l => triLines v.canvas v.vertices t = .ok l) s.ts ls ∧
    f.batches = (match v.cfg.draw with | .allAsMeshBatches size => Spec.batches size ls | _ => [])
  /-- Contours: the sides of triangles between input vertices that are constraints. -/
  contour : f.contour = (match v.cfg.draw with
    | .contoursAndInterior => ((Spec.finSides v.vertices.length s.ts).filter (Spec.Fixed v.constraints)).filterMap (Spec.seg v.vertices)
    | _ => [])
  /-- Interior: the other sides. -/
  interior : f.interior = (match v.cfg.draw with
    | .contoursAndInterior => ((Spec.finSides v.vertices.length s.ts).filter fun e => !Spec.Fixed v.constraints e).filterMap (Spec.seg v.vertices)
    | _ => [])
  /-- Labels for every triangle, or for every changed triangle, with the number of the triangle. -/
  labels : List.Forall₂ (fun (i : Nat) l => ∃ t, s.ts[i]? = some t ∧ spawnLabel v.canvas v.cfg.vertexLabel v.vertices i t = .ok l)
    (match v.cfg.label with | .all => List.range s.ts.length | .changed => s.changed | .none => []) f.labels
  /-- A circle at the vertex of a split. -/
  circle : f.circle = (match s.event with | .split x => v.vertices[x]? | .snapshot => none)

theorem forEach_get {α β : Type} {ts : List α} {g : Nat → α → Res β} {l : List Nat} (h : ∀ i ∈ l, ∃ t, ts[i]? = some t ∧ ∃ b, g i t = .ok b) :
    ∃ bs, forEach (fun i => do g i (← getI ts i)) l = .ok bs ∧ List.Forall₂ (fun i b => ∃ t, ts[i]? = some t ∧ g i t = .ok b) l bs := by
  induction l with
  | nil => exact ⟨[], rfl, .nil⟩
  | cons i l ih =>
    obtain ⟨t, ht, b, hb⟩ := h i (by simp)
    obtain ⟨bs, e, hbs⟩ := ih fun a ha => h a (by simp [ha])
    have g1 : getI ts i = .ok t := by unfold getI; rw [ht]
    refine ⟨b :: bs, ?_, .cons ⟨t, ht, hb⟩ hbs⟩
    rw [forEach, e, g1]
    simp [hb]

theorem forall₂_filterMap {α β : Type} {ts : List α} {R : α → β → Prop} {l : List Nat} {bs : List β}
    (h : List.Forall₂ (fun i b => ∃ t, ts[i]? = some t ∧ R t b) l bs) : List.Forall₂ R (l.filterMap (ts[·]?)) bs := by
  induction h with
  | nil => exact .nil
  | cons h hl ih =>
    obtain ⟨t, ht, hr⟩ := h
    rw [List.filterMap_cons_some ht]
    exact .cons hr ih

theorem forall₂_zipIdx {α β : Type} {R : Nat → α → β → Prop} {us : List α} : ∀ (ts : List α) (k : Nat) (bs : List β),
    (∀ i t, ts[i]? = some t → us[k + i]? = some t) →
    List.Forall₂ (fun p b => R p.2 p.1 b) (ts.zipIdx k) bs → List.Forall₂ (fun i b => ∃ t, us[i]? = some t ∧ R i t b) (List.range' k ts.length) bs := by
  intro ts
  induction ts with
  | nil =>
    intro k bs _ h
    simp only [List.zipIdx_nil, List.forall₂_nil_left_iff] at h
    subst h
    exact .nil
  | cons t ts ih =>
    intro k bs hu h
    rw [List.zipIdx_cons] at h
    cases h with
    | cons hr h =>
      rw [List.length_cons, List.range'_succ]
      refine .cons ⟨t, ?_, hr⟩ (ih (k + 1) _ ?_ h)
      · simpa using hu 0 t (by simp)
      · intro i t' hi
        have := hu (i + 1) t' (by simpa using hi)
        rwa [show k + 1 + i = k + (i + 1) by omega]

theorem frame_ok (v : Viewer F) (hn : v.vertices.length ≤ INF0) (hb : v.cfg.draw ≠ .allAsMeshBatches 0) {s : Snap}
    (hs : v.snaps[v.cursor]? = some s) (ho : Spec.SnapOk v.vertices.length s) : ∃ f, v.frame = .ok (some f) ∧ Spec.Shows v s f ∧
      f.bounds = (Spec.changedPts v.vertices s).foldl boundStep (fmax, fmin, fmax, fmin) := by
  have hd := ho.drawable
  have hcur : v.current = .ok (some s) := by
    unfold Viewer.current getI
    rw [if_pos (List.getElem?_eq_some_iff.1 hs).1, hs]
    rfl
  have hget : ∀ i ∈ s.changed, ∃ t, s.ts[i]? = some t ∧ t ∈ s.ts := fun i hi =>
    ⟨_, List.getElem?_eq_getElem (ho.changed i hi), List.getElem_mem _⟩
  obtain ⟨ls, hls, -⟩ := meshBatches_spec v.canvas (size := 1) (by omega) hn hd
  have h1 : ∃ b, v.batches s = .ok b ∧ ∃ ls, List.Forall₂ (fun t l => triLines v.canvas v.vertices t = .ok l) s.ts ls ∧
        b = (match v.cfg.draw with | .allAsMeshBatches size => Spec.batches size ls | _ => []) := by
    unfold Viewer.batches
    cases hm : v.cfg.draw with
    | allAsMeshBatches size =>
      have : size ≠ 0 := by rintro rfl; exact hb hm
      obtain ⟨ls, h, e⟩ := meshBatches_spec v.canvas (size := size) (by omega) hn hd
      exact ⟨_, e, ls, h, rfl⟩
    | _ => exact ⟨_, rfl, ls, hls, rfl⟩
  have h2 : ∃ a b, v.contours s = .ok (a, b) ∧ a = (match v.cfg.draw with
        | .contoursAndInterior => ((Spec.finSides v.vertices.length s.ts).filter (Spec.Fixed v.constraints)).filterMap (Spec.seg v.vertices)
        | _ => []) ∧ b = (match v.cfg.draw with
        | .contoursAndInterior => ((Spec.finSides v.vertices.length s.ts).filter fun e => !Spec.Fixed v.constraints e).filterMap (Spec.seg v.vertices)
        | _ => []) := by
    unfold Viewer.contours
    cases hm : v.cfg.draw with
    | contoursAndInterior =>
      have := contourLoop_spec v.constraints hn s.ts hd [] []
      exact ⟨_, _, this, by simp, by simp⟩
    | _ => exact ⟨_, _, rfl, rfl, rfl⟩
  have h3 : ∃ l, v.labels s = .ok l ∧ List.Forall₂ (fun (i : Nat) l => ∃ t, s.ts[i]? = some t ∧ spawnLabel v.canvas v.cfg.vertexLabel v.vertices i t = .ok l)
      (match v.cfg.label with | .all => List.range s.ts.length | .changed => s.changed | .none => []) l := by
    unfold Viewer.labels
    cases hm : v.cfg.label with
    | all =>
      obtain ⟨l, e, hl⟩ := forEach_ok (f := fun p : Tri × Nat => spawnLabel v.canvas v.cfg.vertexLabel v.vertices p.2 p.1) (l := s.ts.zipIdx)
        fun p hp => by
          obtain ⟨P, T, -, -, e⟩ := spawnLabel_spec v.canvas v.cfg.vertexLabel (t := p.1) p.2 hn (hd _ (List.fst_mem_of_mem_zipIdx hp))
          exact ⟨_, e⟩
      refine ⟨l, e, ?_⟩
      have := forall₂_zipIdx (us := s.ts) (R := fun i t l => spawnLabel v.canvas v.cfg.vertexLabel v.vertices i t = .ok l) s.ts 0 l
        (by intro i t h; simpa using h) hl
      rwa [← List.range_eq_range'] at this
    | changed =>
      exact forEach_get fun i hi => by
        obtain ⟨t, ht, hm⟩ := hget i hi
        obtain ⟨P, T, -, -, e⟩ := spawnLabel_spec v.canvas v.cfg.vertexLabel (t := t) i hn (hd _ hm)
        exact ⟨t, ht, _, e⟩
    | none => exact ⟨[], rfl, .nil⟩
  have h4 := changeBounds_eq v.vertices ho.changed
  have h5 : ∃ l, v.strips s = .ok l ∧ List.Forall₂ (fun t l => triStrip v.canvas v.vertices t = .ok l)
      (match v.cfg.draw with | .allAsGizmos => s.ts | .changedAsGizmos => s.changed.filterMap (s.ts[·]?) | _ => []) l := by
    unfold Viewer.strips
    cases hm : v.cfg.draw with
    | allAsGizmos =>
      exact forEach_ok fun t ht => by
        obtain ⟨-, st, -, e, -⟩ := triLines_spec v.canvas hn (hd t ht)
        exact ⟨st, e⟩
    | changedAsGizmos =>
      obtain ⟨l, e, hl⟩ := forEach_get (ts := s.ts) (g := fun _ t => triStrip v.canvas v.vertices t) (l := s.changed) fun i hi => by
        obtain ⟨t, ht, hm⟩ := hget i hi
        obtain ⟨-, st, -, e, -⟩ := triLines_spec v.canvas hn (hd t hm)
        exact ⟨t, ht, st, e⟩
      exact ⟨l, e, forall₂_filterMap hl⟩
    | _ => exact ⟨[], rfl, .nil⟩
  have h6 : ∃ c, v.circle s = .ok c ∧ c = (match s.event with | .split x => v.vertices[x]? | .snapshot => none) := by
    unfold Viewer.circle
    cases he : s.event with
    | split x =>
      have hx := ho.split x he
      refine ⟨_, ?_, rfl⟩
      simp only [getI, List.getElem?_eq_getElem hx]
      rfl
    | snapshot => exact ⟨_, rfl, rfl⟩
  obtain ⟨b, e1, hb⟩ := h1
  obtain ⟨ca, cb, e2, ha, hbb⟩ := h2
  obtain ⟨l, e3, hl⟩ := h3
  obtain ⟨st, e5, hst⟩ := h5
  obtain ⟨ci, e6, hci⟩ := h6
  refine ⟨⟨st, b, ca, cb, l, _, ci⟩, ?_, ⟨hst, hb, ha, hbb, hl, hci⟩, rfl⟩
  unfold Viewer.frame
  rw [hcur]
  simp only [Res.ok_bind, e1, e2, e3, h4, e5, e6]

/-- **C86**: whatever snapshots a run has recorded, the viewer draws each of them without failing, in every mode, and shows what it
has to show. The arithmetic `G` of the viewer may differ from that of the run. -/
theorem C86_frame {G : Type} [FloatOps G] (fuel : Nat) (bins : Nat → Nat) (vs : List (Vtx F)) (es : List Edge) (cfg : DebugCfg)
    (hn : 2 * vs.length + 2 ≤ NONE) (v : Viewer G) (hv : v.vertices.length = vs.length)
    (hs : v.snaps = (triangulation2dD fuel bins vs cfg).2.snaps ∨ v.snaps = (constrained2dD fuel bins vs es cfg).2.snaps)
    (hb : v.cfg.draw ≠ .allAsMeshBatches 0) :
    (v.snaps.length ≤ v.cursor ∧ v.frame = .ok none) ∨
    ∃ s f, v.snaps[v.cursor]? = some s ∧ v.frame = .ok (some f) ∧ Spec.Shows v s f := by
  by_cases hc : v.cursor < v.snaps.length
  · right
    have hg := List.getElem?_eq_getElem hc
    have ho : Spec.SnapOk v.vertices.length v.snaps[v.cursor] := by
      obtain ⟨h1, h2⟩ := C84_snapshots fuel bins vs es cfg hn
      have hm := List.getElem_mem hc
      rw [hv]
      rcases hs with hs | hs
      · exact h1 _ (by rw [← hs]; exact hm)
      · exact h2 _ (by rw [← hs]; exact hm)
    have hi : v.vertices.length ≤ INF0 := by
      have := IdCfg.big
      unfold NONE at hn
      unfold INF0
      omega
    obtain ⟨f, e, hf, -⟩ := frame_ok v hi hb hg ho
    exact ⟨_, f, hg, e, hf⟩
  · left
    refine ⟨by omega, ?_⟩
    unfold Viewer.frame Viewer.current
    rw [if_neg hc]
    rfl

/-- **C86**: with a batch size of zero the viewer fails on every recorded snapshot that has a triangle. -/
theorem C86_batch_zero {G : Type} [FloatOps G] (fuel : Nat) (bins : Nat → Nat) (vs : List (Vtx F)) (es : List Edge) (cfg : DebugCfg)
    (hn : 2 * vs.length + 2 ≤ NONE) (v : Viewer G) (hv : v.vertices.length = vs.length)
    (hs : v.snaps = (triangulation2dD fuel bins vs cfg).2.snaps ∨ v.snaps = (constrained2dD fuel bins vs es cfg).2.snaps)
    (hb : v.cfg.draw = .allAsMeshBatches 0) (s : Snap) (hg : v.snaps[v.cursor]? = some s) (ht : s.ts ≠ []) : v.frame = .panic := by
  have ho : Spec.SnapOk v.vertices.length s := by
    obtain ⟨h1, h2⟩ := C84_snapshots fuel bins vs es cfg hn
    have hm := List.mem_of_getElem? hg
    rw [hv]
    rcases hs with hs | hs
    · exact h1 _ (by rw [← hs]; exact hm)
    · exact h2 _ (by rw [← hs]; exact hm)
  have hi : v.vertices.length ≤ INF0 := by
    have := IdCfg.big
    unfold NONE at hn
    unfold INF0
    omega
  obtain ⟨ls, hls, -⟩ := meshBatches_spec v.canvas (size := 1) (by omega) hi ho.drawable
  have hbat : v.batches s = .panic := by
    unfold Viewer.batches
    rw [hb]
    simp only
    unfold meshBatches
    cases hc : s.ts with
    | nil => exact absurd hc ht
    | cons t ts =>
      rw [hc] at hls
      cases hls with
      | cons h1 h2 =>
        rw [meshLoop, h1]
        simp [remI]
  unfold Viewer.frame
  rw [(C87_current v).1, hg]
  simp [hbat]

/-- **C86**: the lines drawn for a triangle of a recorded snapshot are those that stand for its sides; gizmos and meshes draw the
same lines. -/
theorem C86_lines (c : Canvas F) {n : Nat} {s : Snap} (ho : Spec.SnapOk n s) (hn : n ≤ INF0) {vs : List (Vtx3 F)} (hv : vs.length = n)
    (t : Tri) (ht : t ∈ s.ts) :
    ∃ l st, triLines c vs t = .ok l ∧ triStrip c vs t = .ok st ∧ l = st.zip st.tail ∧
      ∀ p q, ((p, q) ∈ l ∨ (q, p) ∈ l) ↔ ∃ e ∈ Spec.rim t, Spec.Shown c vs e (p, q) ∨ Spec.Shown c vs e (q, p) := by
  subst hv
  obtain ⟨l, st, h1, h2, h3, -, h4⟩ := triLines_spec c hn (ho.drawable t ht)
  exact ⟨l, st, h1, h2, h3, h4⟩

/-- **C86**: the labels of a triangle of a recorded snapshot name its corners and stand next to them. -/
theorem C86_labels (c : Canvas F) (m : VertexLabelMode) {n : Nat} {s : Snap} (ho : Spec.SnapOk n s) (hn : n ≤ INF0) {vs : List (Vtx3 F)}
    (hv : vs.length = n) (tid : Nat) (t : Tri) (ht : t ∈ s.ts) :
    ∃ P : Fin 3 → Vtx3 F, ∃ T : Fin 3 → LabelText, (∀ k, Spec.Spot c vs t k (P k)) ∧ (∀ k, Spec.Text m vs.length t k (T k)) ∧
      let center := (((P 0).add' (P 1)).add' (P 2)).sdiv' c.three
      spawnLabel c m vs tid t = .ok ((.tri tid, center) ::
        [0, 1, 2].map fun k => (T k, (P k).add' (Vtx3.smul' c.inset (center.sub' (P k))))) := by
  subst hv
  exact spawnLabel_spec c m tid hn (ho.drawable t ht)

/-- The batches hold all the lines, in order. -/
theorem C86_batches {α : Type} {size : Nat} (hs : 0 < size) (ls : List (List α)) :
    ((Spec.batches size ls).map Prod.snd).flatten = ls.flatten ∧ (Spec.batches size ls).map Prod.fst = List.range (Spec.batches size ls).length := by
  constructor
  · have gen : ∀ k, (((List.range k).map fun j => ((ls.drop (j * size)).take size).flatten)).flatten = (ls.take (k * size)).flatten := by
      intro k
      induction k with
      | zero => simp
      | succ k ih =>
        rw [List.range_succ, List.map_append, List.flatten_append, ih, Nat.add_mul, Nat.one_mul, List.take_add, List.flatten_append]
        simp
    unfold Spec.batches
    rw [List.map_map]
    refine (gen _).trans ?_
    rw [List.take_of_length_le]
    have := Nat.div_add_mod (ls.length + size - 1) size
    have hlt := Nat.mod_lt (ls.length + size - 1) hs
    rw [Nat.mul_comm]
    omega
  · unfold Spec.batches
    rw [List.map_map, List.length_map, List.length_range]
    exact List.map_id _

end

/-! ## Exact arithmetic -/

section
variable {K : Type} [Field K] [LinearOrder K] [IsStrictOrderedRing K] [ExactParams K] [IdCfg]

/-- **C86**: the tips lie in the directions of the artificial vertices: left, up, right and down. -/
theorem C86_tip (c : Canvas K) (p : Vtx3 K) (k : Fin 4) :
    tipOf c p k =
      match k with
      | 0 => ⟨p.x - c.len * (142 / 100) * c.e1.x, p.y - c.len * (142 / 100) * c.e1.y, p.z - c.len * (142 / 100) * c.e1.z⟩
      | 1 => ⟨p.x + c.len * (142 / 100) * c.e2.x, p.y + c.len * (142 / 100) * c.e2.y, p.z + c.len * (142 / 100) * c.e2.z⟩
      | 2 => ⟨p.x + c.len * (142 / 100) * c.e1.x, p.y + c.len * (142 / 100) * c.e1.y, p.z + c.len * (142 / 100) * c.e1.z⟩
      | 3 => ⟨p.x - c.len * (142 / 100) * c.e2.x, p.y - c.len * (142 / 100) * c.e2.y, p.z - c.len * (142 / 100) * c.e2.z⟩ := by
  match k with
  | 0 => simp [tipOf, Vtx3.add', Vtx3.smul', xDelta, yDelta, FloatOps.add, FloatOps.mul, FloatOps.neg, FloatOps.delta, FloatOps.zero]; refine ⟨?_, ?_, ?_⟩ <;> ring
  | 1 => simp [tipOf, Vtx3.add', Vtx3.smul', xDelta, yDelta, FloatOps.add, FloatOps.mul, FloatOps.neg, FloatOps.delta, FloatOps.zero]
  | 2 => simp [tipOf, Vtx3.add', Vtx3.smul', xDelta, yDelta, FloatOps.add, FloatOps.mul, FloatOps.neg, FloatOps.delta, FloatOps.zero]
  | 3 => simp [tipOf, Vtx3.add', Vtx3.smul', xDelta, yDelta, FloatOps.add, FloatOps.mul, FloatOps.neg, FloatOps.delta, FloatOps.zero]; refine ⟨?_, ?_, ?_⟩ <;> ring

theorem boundFold (l : List (Vtx3 K)) : ∀ b : K × K × K × K,
    let r := l.foldl boundStep b
    (r.1 ≤ b.1 ∧ b.2.1 ≤ r.2.1 ∧ r.2.2.1 ≤ b.2.2.1 ∧ b.2.2.2 ≤ r.2.2.2) ∧
    (∀ p ∈ l, r.1 ≤ p.x ∧ p.x ≤ r.2.1 ∧ r.2.2.1 ≤ p.y ∧ p.y ≤ r.2.2.2) ∧
    (r.1 = b.1 ∨ ∃ p ∈ l, r.1 = p.x) ∧ (r.2.1 = b.2.1 ∨ ∃ p ∈ l, r.2.1 = p.x) ∧
    (r.2.2.1 = b.2.2.1 ∨ ∃ p ∈ l, r.2.2.1 = p.y) ∧ (r.2.2.2 = b.2.2.2 ∨ ∃ p ∈ l, r.2.2.2 = p.y) := by
  induction l with
  | nil => intro b; simp
  | cons p l ih =>
    intro b
    obtain ⟨⟨a1, a2, a3, a4⟩, h2, h3, h4, h5, h6⟩ := ih (boundStep b p)
    simp only [List.foldl_cons]
    generalize List.foldl boundStep (boundStep b p) l = r at *
    have s1 : (boundStep b p).1 ≤ b.1 ∧ (boundStep b p).1 ≤ p.x ∧ ((boundStep b p).1 = b.1 ∨ (boundStep b p).1 = p.x) := by
      simp only [boundStep, FloatOps.lt, decide_eq_true_eq]
      split <;> constructor <;> grind
    have s2 : b.2.1 ≤ (boundStep b p).2.1 ∧ p.x ≤ (boundStep b p).2.1 ∧ ((boundStep b p).2.1 = b.2.1 ∨ (boundStep b p).2.1 = p.x) := by
      simp only [boundStep, FloatOps.lt, decide_eq_true_eq]
      split <;> constructor <;> grind
    have s3 : (boundStep b p).2.2.1 ≤ b.2.2.1 ∧ (boundStep b p).2.2.1 ≤ p.y ∧ ((boundStep b p).2.2.1 = b.2.2.1 ∨ (boundStep b p).2.2.1 = p.y) := by
      simp only [boundStep, FloatOps.lt, decide_eq_true_eq]
      split <;> constructor <;> grind
    have s4 : b.2.2.2 ≤ (boundStep b p).2.2.2 ∧ p.y ≤ (boundStep b p).2.2.2 ∧ ((boundStep b p).2.2.2 = b.2.2.2 ∨ (boundStep b p).2.2.2 = p.y) := by
      simp only [boundStep, FloatOps.lt, decide_eq_true_eq]
      split <;> constructor <;> grind
    generalize boundStep b p = b' at *
    refine ⟨⟨by grind, by grind, by grind, by grind⟩, ?_, ?_, ?_, ?_, ?_⟩
    · intro q hq
      rcases List.mem_cons.1 hq with rfl | hq
      · exact ⟨by grind, by grind, by grind, by grind⟩
      · exact h2 q hq
    · simp only [List.mem_cons, exists_eq_or_imp]
      grind
    · simp only [List.mem_cons, exists_eq_or_imp]
      grind
    · simp only [List.mem_cons, exists_eq_or_imp]
      grind
    · simp only [List.mem_cons, exists_eq_or_imp]
      grind

/-- **C86**: the rectangle around the changes is the smallest one around the input vertices of the changed triangles. -/
theorem C86_bounds {n : Nat} {s : Snap} (ho : Spec.SnapOk n s) {vs : List (Vtx3 K)} (hv : vs.length = n) (hc : s.changed ≠ [])
    (hm : ∀ p ∈ vs, -ExactParams.fmax ≤ p.x ∧ p.x ≤ ExactParams.fmax ∧ -ExactParams.fmax ≤ p.y ∧ p.y ≤ ExactParams.fmax) :
    ∃ x0 x1 y0 y1, changeBounds vs s = .ok (x0, x1, y0, y1) ∧
      (∀ p ∈ Spec.changedPts vs s, x0 ≤ p.x ∧ p.x ≤ x1 ∧ y0 ≤ p.y ∧ p.y ≤ y1) ∧
      (∃ p ∈ Spec.changedPts vs s, p.x = x0) ∧ (∃ p ∈ Spec.changedPts vs s, p.x = x1) ∧
      (∃ p ∈ Spec.changedPts vs s, p.y = y0) ∧ ∃ p ∈ Spec.changedPts vs s, p.y = y1 := by
  subst hv
  have hin : ∀ p ∈ Spec.changedPts vs s, p ∈ vs := by
    intro p hp
    simp only [Spec.changedPts, List.mem_flatMap, List.mem_filterMap] at hp
    obtain ⟨i, -, t, -, v, -, e⟩ := hp
    exact List.mem_of_getElem? e
  have hne : ∃ p, p ∈ Spec.changedPts vs s := by
    obtain ⟨i, l, hl⟩ := List.exists_cons_of_ne_nil hc
    have hi : i ∈ s.changed := by rw [hl]; simp
    have hlt := ho.changed i hi
    obtain ⟨k, hk⟩ := ho.real _ (List.getElem_mem hlt)
    refine ⟨vs[s.ts[i].v k], ?_⟩
    simp only [Spec.changedPts, List.mem_flatMap, List.mem_filterMap]
    refine ⟨i, hi, s.ts[i], by simp [List.getElem?_eq_getElem hlt], s.ts[i].v k, ?_, List.getElem?_eq_getElem hk⟩
    match k with
    | 0 => simp [Tri.v]
    | 1 => simp [Tri.v]
    | 2 => simp [Tri.v]
  obtain ⟨p0, hp0⟩ := hne
  have hb := changeBounds_eq vs ho.changed
  obtain ⟨-, h2, h3, h4, h5, h6⟩ := boundFold (Spec.changedPts vs s) (fmax, fmin, fmax, fmin)
  generalize List.foldl boundStep (fmax, fmin, fmax, fmin) (Spec.changedPts vs s) = r at *
  have e1 : (fmax : K) = ExactParams.fmax := rfl
  have e2 : (fmin : K) = -ExactParams.fmax := rfl
  have m0 := hm _ (hin _ hp0)
  have q0 := h2 _ hp0
  refine ⟨r.1, r.2.1, r.2.2.1, r.2.2.2, hb, h2, ?_, ?_, ?_, ?_⟩
  · rcases h3 with h | ⟨p, hp, h⟩
    · exact ⟨p0, hp0, le_antisymm (h ▸ m0.2.1) q0.1⟩
    · exact ⟨p, hp, h.symm⟩
  · rcases h4 with h | ⟨p, hp, h⟩
    · exact ⟨p0, hp0, le_antisymm q0.2.1 (h ▸ m0.1)⟩
    · exact ⟨p, hp, h.symm⟩
  · rcases h5 with h | ⟨p, hp, h⟩
    · exact ⟨p0, hp0, le_antisymm (h ▸ m0.2.2.2) q0.2.2.1⟩
    · exact ⟨p, hp, h.symm⟩
  · rcases h6 with h | ⟨p, hp, h⟩
    · exact ⟨p0, hp0, le_antisymm q0.2.2.2 (h ▸ m0.2.2.1)⟩
    · exact ⟨p, hp, h.symm⟩

end

/-! ## Concrete cases -/

section
open Witness
local instance viewerCfg : IdCfg := u32Cfg

/-- The viewer of a constrained run on a square with an interior point, in mode `d`, on snapshot `cur`. -/
def sampleViewer (d : DrawMode) (cur : Nat) : Viewer F64 :=
  let vs := fpts [(0,0),(0,4),(4,4),(4,0),(1,1)]
  let es : List Edge := [⟨0,1⟩,⟨1,2⟩,⟨2,3⟩,⟨0,3⟩]
  { vertices := vs.map fun p => ⟨p.x, p.y, zero⟩, constraints := es, snaps := (constrained2dD 200 defaultBins vs es {}).2.snaps,
    canvas := ⟨⟨one, zero, zero⟩, ⟨zero, one, zero⟩, two, two, c099⟩, cursor := cur, cfg := ⟨d, .all, .globalIndex⟩ }

/-- How many strips, batches, contour lines, interior lines, labelled triangles and circles a frame has. -/
def frameCounts {F : Type} : Res (Option (Frame F)) → Res (Option (List Nat))
  | .ok (some f) => .ok (some [f.strips.length, f.batches.length, f.contour.length, f.interior.length, f.labels.length, f.circle.toList.length])
  | .ok none => .ok none
  | .err e => .err e
  | .panic => .panic
  | .diverge => .diverge

/-- Twelve snapshots; the second one shows the first split with six triangles, all with artificial vertices. -/
example : (sampleViewer .allAsGizmos 1).snaps.length = 12 ∧
    frameCounts (sampleViewer .allAsGizmos 1).frame = .ok (some [6, 0, 0, 0, 6, 1]) := by decide +kernel

/-- Ten triangles in batches of three. -/
example : frameCounts (sampleViewer (.allAsMeshBatches 3) 5).frame = .ok (some [0, 4, 0, 0, 10, 0]) := by decide +kernel

/-- The last snapshot has the four constraints as contour and eight interior lines. -/
example : frameCounts (sampleViewer .contoursAndInterior 11).frame = .ok (some [0, 0, 4, 8, 4, 0]) := by decide +kernel

/-- Batches of no triangles are a division by zero. -/
theorem C86_batch_zero_refuted : frameCounts (sampleViewer (.allAsMeshBatches 0) 0).frame = .panic := by decide +kernel

end

end CDT

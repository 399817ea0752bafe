import Verif.Model.Player
import Verif.Props.Viewer
import Verif.Props.Story

/-!
# C90: the video player
-/

set_option linter.unusedSectionVars false
set_option linter.unusedSimpArgs false
set_option linter.unusedVariables false

namespace CDT

section
variable [IdCfg] {F G : Type} [FloatOps F] [FloatOps G]

/-! ## The index of the frame -/

theorem remI_pos {a b : Nat} (h : 0 < b) : remI a b = .ok (a % b) := by unfold remI; rw [if_neg (by omega)]
theorem subI_le {a b : Nat} (h : b ≤ a) : subI a b = .ok (a - b) := by unfold subI; rw [if_neg (by omega)]

theorem arrowKeys_ok {len i : Nat} (h : i < len) (k : PlayerKeys) : ∃ s, arrowKeys len i k = .ok s ∧ s.1 < len ∧ (s.2 = false → s.1 = i) := by
  unfold arrowKeys
  split
  · split
    · rw [subI_le (by omega)]
      exact ⟨_, rfl, by simp only; omega, by simp⟩
    · exact ⟨_, rfl, by simp only; omega, by simp⟩
  · split
    · rw [remI_pos (by omega)]
      exact ⟨_, rfl, Nat.mod_lt _ (by omega), by simp⟩
    · exact ⟨_, rfl, h, by simp⟩

theorem keyPlus_ok {len i : Nat} {s : Nat × Bool} (b : Bool) (d : Nat) (h : s.1 < len ∧ (s.2 = false → s.1 = i)) :
    ∃ r, keyPlus b d len s = .ok r ∧ r.1 < len ∧ (r.2 = false → r.1 = i) := by
  unfold keyPlus
  split
  · rw [remI_pos (by omega)]
    exact ⟨_, rfl, Nat.mod_lt _ (by omega), by simp⟩
  · exact ⟨_, rfl, h⟩

theorem keyMinus_ok {len i : Nat} {s : Nat × Bool} (b : Bool) (d : Nat) (h : s.1 < len ∧ (s.2 = false → s.1 = i)) :
    (keyMinus b d s).1 < len ∧ ((keyMinus b d s).2 = false → (keyMinus b d s).1 = i) := by
  unfold keyMinus
  split
  · exact ⟨by simp only; omega, by simp⟩
  · exact h

theorem nextIndex_ok {len i : Nat} (h : i < len) (auto finished : Bool) (k : PlayerKeys) :
    ∃ s, nextIndex len i auto finished k = .ok s ∧ s.1 < len ∧ (s.2 = false → s.1 = i) := by
  unfold nextIndex
  split
  · split
    · rw [remI_pos (by omega)]
      exact ⟨_, rfl, Nat.mod_lt _ (by omega), by simp⟩
    · exact ⟨_, rfl, h, by simp⟩
  · obtain ⟨s, e, hs⟩ := arrowKeys_ok h k
    obtain ⟨s', e', hs'⟩ := keyPlus_ok k.num8 1000 hs
    obtain ⟨s'', e'', hs''⟩ := keyPlus_ok k.num5 100 (keyMinus_ok k.num7 1000 hs')
    exact ⟨_, by rw [e]; simp only [Res.ok_bind]; rw [e']; simp only [Res.ok_bind]; rw [e'']; rfl, keyMinus_ok k.num4 100 hs''⟩

/-! ## The player -/

namespace Spec

/-- The player shows its current frame: the index is that of a frame, the viewer holds the vertices, constraints and snapshots of
this frame, and its cursor is on a snapshot when there is one. -/
structure Playing (p : Player G) : Prop where
  frame : ∃ f, p.frames[p.index]? = some f ∧ p.viewer.vertices = f.vertices ∧ p.viewer.constraints = f.edges ∧ p.viewer.snaps = f.snaps
  cursor : p.viewer.cursor < p.viewer.snaps.length ∨ p.viewer.snaps = [] ∧ p.viewer.cursor = 0
  batch : p.viewer.cfg.draw ≠ .allAsMeshBatches 0

end Spec

theorem drawMode_next (d : DrawMode) : d.next ≠ .allAsMeshBatches 0 := by cases d <;> simp [DrawMode.next]

theorem press_keeps (v : Viewer G) (h : v.cursor < v.snaps.length ∨ v.snaps = [] ∧ v.cursor = 0) (hb : v.cfg.draw ≠ .allAsMeshBatches 0) (k : Key)
    (hk : ¬(k = .left ∧ v.snaps = [])) :
    ∃ w, v.press k = .ok w ∧ (w.cursor < w.snaps.length ∨ w.snaps = [] ∧ w.cursor = 0) ∧ w.snaps = v.snaps ∧ w.vertices = v.vertices ∧
      w.constraints = v.constraints ∧ w.canvas = v.canvas ∧ w.cfg.draw ≠ .allAsMeshBatches 0 := by
  cases k with
  | right =>
    refine ⟨v.advance, rfl, ?_⟩
    unfold Viewer.advance
    split
    · exact ⟨.inl (Nat.mod_lt _ (by omega)), rfl, rfl, rfl, rfl, hb⟩
    · exact ⟨h, rfl, rfl, rfl, rfl, hb⟩
  | left =>
    have hs : v.snaps ≠ [] := fun e => hk ⟨rfl, e⟩
    have hl : 0 < v.snaps.length := List.length_pos_iff.2 hs
    have h : v.cursor < v.snaps.length := h.resolve_right fun e => hs e.1
    rw [Viewer.press, Viewer.back]
    split
    · rw [subI_le (by omega)]
      exact ⟨_, rfl, .inl (by simp only; omega), rfl, rfl, rfl, rfl, hb⟩
    · exact ⟨_, rfl, .inl (by simp only; omega), rfl, rfl, rfl, rfl, hb⟩
  | drawMode => exact ⟨_, rfl, h, rfl, rfl, rfl, rfl, drawMode_next _⟩
  | labelMode => exact ⟨_, rfl, h, rfl, rfl, rfl, rfl, hb⟩
  | vertexLabelMode => exact ⟨_, rfl, h, rfl, rfl, rfl, rfl, hb⟩

theorem viewerOf_playing (c : Canvas G) (cfg : ViewCfg) (f : ReadyFrame G) :
    (viewerOf c cfg f).cursor < (viewerOf c cfg f).snaps.length ∨ (viewerOf c cfg f).snaps = [] ∧ (viewerOf c cfg f).cursor = 0 := by
  by_cases h : f.snaps = []
  · exact .inr ⟨h, rfl⟩
  · exact .inl (List.length_pos_iff.2 h)

theorem step_ok {p : Player G} (hp : Spec.Playing p) (e : PlayerEvent) (he : ¬(e = .viewer .left ∧ p.viewer.snaps = [])) :
    ∃ q, p.step e = .ok q ∧ Spec.Playing q ∧ q.frames = p.frames := by
  obtain ⟨⟨f, hf, h1, h2, h3⟩, hc, hb⟩ := hp
  cases e with
  | next fin k =>
    have hi : p.index < p.frames.length := (List.getElem?_eq_some_iff.1 hf).1
    obtain ⟨s, e, hs, hs'⟩ := nextIndex_ok hi p.auto fin k
    rw [Player.step, Player.nextFrame, e]
    simp only [Res.ok_bind]
    split
    · have hg : getI p.frames s.1 = .ok p.frames[s.1] := by
        unfold getI
        rw [List.getElem?_eq_getElem hs]
      rw [hg]
      refine ⟨_, rfl, ⟨⟨p.frames[s.1], List.getElem?_eq_getElem hs, rfl, rfl, rfl⟩, viewerOf_playing _ _ _, hb⟩, rfl⟩
    · rename_i hn
      have := hs' (by simpa using hn)
      refine ⟨_, rfl, ⟨⟨f, ?_, h1, h2, h3⟩, hc, hb⟩, rfl⟩
      simp only
      rw [this]
      exact hf
  | space => exact ⟨_, rfl, ⟨⟨f, hf, h1, h2, h3⟩, hc, hb⟩, rfl⟩
  | viewer k =>
    obtain ⟨w, e, g1, g2, g3, g4, g5, g6⟩ := press_keeps p.viewer hc hb k (fun h => he ⟨by rw [h.1], h.2⟩)
    rw [Player.step, e]
    refine ⟨_, rfl, ⟨⟨f, hf, ?_, ?_, ?_⟩, g1, g6⟩, rfl⟩
    · simp only; rw [g3, h1]
    · simp only; rw [g4, h2]
    · simp only; rw [g2, h3]

/-- **C90**: the player, while it shows its current frame, crashes on an event exactly if the event is the left arrow of the viewer
and nothing was recorded for the frame; otherwise it goes on showing its current frame. -/
theorem C90_step (p : Player G) (hp : Spec.Playing p) (e : PlayerEvent) :
    (p.step e = .panic ↔ e = .viewer .left ∧ p.viewer.snaps = []) ∧
    (p.step e = .panic ∨ ∃ q, p.step e = .ok q ∧ Spec.Playing q ∧ q.frames = p.frames) := by
  by_cases he : e = .viewer .left ∧ p.viewer.snaps = []
  · have hc : p.viewer.cursor = 0 := by
      rcases hp.cursor with h | h
      · rw [he.2] at h; simp at h
      · exact h.2
    have : p.step e = .panic := by
      rw [he.1, Player.step, Viewer.press, Viewer.back, if_pos hc, he.2]
      simp [subI]
    exact ⟨iff_of_true this he, .inl this⟩
  · obtain ⟨q, e', h⟩ := step_ok hp e he
    exact ⟨iff_of_false (by rw [e']; simp) he, .inr ⟨q, e', h⟩⟩

/-- What an event does to the mode: only the space key changes it, to the other mode. The keys of the viewer and the space key
leave the index alone. -/
theorem step_mode {p q : Player G} (e : PlayerEvent) (h : p.step e = .ok q) :
    (q.auto = if e = .space then !p.auto else p.auto) ∧ ((∀ b k, e ≠ .next b k) → q.index = p.index) := by
  cases e with
  | next b k =>
    rw [Player.step, Player.nextFrame, Res.bind_eq_ok] at h
    obtain ⟨s, -, h⟩ := h
    split at h
    · rw [Res.bind_eq_ok] at h
      obtain ⟨f, -, h⟩ := h
      rw [Res.ok.injEq] at h
      subst h
      exact ⟨by simp, fun hn => absurd rfl (hn b k)⟩
    · rw [Res.ok.injEq] at h
      subst h
      exact ⟨by simp, fun hn => absurd rfl (hn b k)⟩
  | space =>
    rw [Player.step, Res.ok.injEq] at h
    subst h
    exact ⟨by simp, fun _ => rfl⟩
  | viewer k =>
    rw [Player.step, Res.bind_eq_ok] at h
    obtain ⟨w, -, h⟩ := h
    rw [Res.ok.injEq] at h
    subst h
    exact ⟨by simp, fun _ => rfl⟩

/-- **C90**, the mode: after any sequence of events the mode is the first one or the other one, as the space key was pressed an
even or an odd number of times; a sequence without a pass of `next_frame` stays at its frame. -/
theorem C90_mode {p q : Player G} (es : List PlayerEvent) (h : p.run es = .ok q) :
    (q.auto = p.auto ↔ es.count .space % 2 = 0) ∧ ((∀ e ∈ es, ∀ b k, e ≠ .next b k) → q.index = p.index) := by
  induction es generalizing p with
  | nil =>
    rw [Player.run, Res.ok.injEq] at h
    subst h
    simp
  | cons e es ih =>
    rw [Player.run, Res.bind_eq_ok] at h
    obtain ⟨r, h1, h2⟩ := h
    obtain ⟨a, b⟩ := step_mode e h1
    obtain ⟨c, d⟩ := ih h2
    refine ⟨?_, fun hn => (d fun x hx => hn x (List.mem_cons_of_mem _ hx)).trans (b (hn e List.mem_cons_self))⟩
    rw [List.count_cons]
    by_cases he : e = .space
    · rw [if_pos he] at a
      rw [if_pos (by simp [he])]
      rw [a] at c
      constructor
      · intro hq
        have : ¬ q.auto = !p.auto := by rw [hq]; simp
        have : ¬ es.count .space % 2 = 0 := fun h => this (c.2 h)
        omega
      · intro hm
        have : ¬ q.auto = !p.auto := fun h => by have := c.1 h; omega
        revert this
        cases q.auto <;> cases p.auto <;> simp
    · rw [if_neg he] at a
      rw [if_neg (by simp [he]), a] at *
      exact c

/-- **C90**: after any sequence of events the player has crashed or shows a frame of the video. -/
theorem C90_run (p : Player G) (hp : Spec.Playing p) (es : List PlayerEvent) :
    p.run es = .panic ∨ ∃ q, p.run es = .ok q ∧ Spec.Playing q ∧ q.frames = p.frames := by
  induction es generalizing p with
  | nil => exact .inr ⟨p, rfl, hp, rfl⟩
  | cons e es ih =>
    rw [Player.run]
    rcases (C90_step p hp e).2 with h | ⟨q, h, hq, hf⟩
    · rw [h]; exact .inl rfl
    · rw [h]
      simp only [Res.ok_bind]
      rcases ih q hq with h' | ⟨r, h', hr, hf'⟩
      · exact .inl h'
      · exact .inr ⟨r, h', hr, hf'.trans hf⟩

/-! ## Preparing the frames -/

/-- What a frame is prepared to: its triangulation, which succeeded, with its snapshots. -/
def Spec.Prepared (p : PlayerParams F G) (f : VideoFrame) (r : ReadyFrame G) : Prop :=
  (constrained2dD p.fuel p.bins (f.points p.conv) f.constraints playerCfg).1 = .ok r.tris ∧
  r.snaps = (constrained2dD p.fuel p.bins (f.points p.conv) f.constraints playerCfg).2.snaps ∧
  r.edges = f.constraints ∧ r.vertices = f.displayed p.disp

theorem readyFrame_iff (p : PlayerParams F G) (f : VideoFrame) (r : ReadyFrame G) : readyFrame p f = .ok r ↔ Spec.Prepared p f r := by
  unfold readyFrame unwrapD Spec.Prepared
  obtain ⟨t, s, e, v⟩ := r
  rcases hx : constrained2dD p.fuel p.bins (f.points p.conv) f.constraints playerCfg with ⟨o, c⟩
  cases o with
  | ok a => simp only [Res.ok_bind, Res.ok.injEq, ReadyFrame.mk.injEq]; constructor <;> rintro ⟨rfl, rfl, rfl, rfl⟩ <;> simp
  | err e => simp
  | panic => simp
  | diverge => simp

theorem forEach_ok_iff {α β : Type} (f : α → Res β) (l : List α) (bs : List β) :
    forEach f l = .ok bs ↔ List.Forall₂ (fun a b => f a = .ok b) l bs := by
  induction l generalizing bs with
  | nil => simp [forEach, eq_comm]
  | cons a l ih =>
    rw [forEach]
    simp only [Res.bind_eq_ok, Res.ok.injEq]
    constructor
    · rintro ⟨b, hb, c, hc, rfl⟩
      exact .cons hb ((ih c).1 hc)
    · rintro (_ | ⟨hb, hc⟩)
      exact ⟨_, hb, _, (ih _).2 hc, rfl⟩

/-- **C90**: the player starts exactly if there is a frame and every frame has a triangulation; then it shows the first frame. -/
theorem C90_setup (p : PlayerParams F G) (fs : List VideoFrame) :
    ((∃ q, playerSetup p fs = .ok q) ↔
      fs ≠ [] ∧ ∀ f ∈ fs, ∃ out, (constrained2dD p.fuel p.bins (f.points p.conv) f.constraints playerCfg).1 = .ok out) ∧
    ∀ q, playerSetup p fs = .ok q → Spec.Playing q ∧ q.index = 0 ∧ q.auto = true ∧ List.Forall₂ (Spec.Prepared p) fs q.frames := by
  have key : ∀ q, playerSetup p fs = .ok q ↔ ∃ rs r, forEach (readyFrame p) fs = .ok rs ∧ rs[0]? = some r ∧
      q = ⟨0, rs, true, viewerOf p.canvas ⟨.contoursAndInterior, .none, .globalIndex⟩ r⟩ := by
    intro q
    unfold playerSetup
    simp only [Res.bind_eq_ok, Res.ok.injEq]
    constructor
    · rintro ⟨rs, h, r, hr, rfl⟩
      refine ⟨rs, r, h, ?_, rfl⟩
      unfold getI at hr
      cases h0 : rs[0]? with
      | none => rw [h0] at hr; simp at hr
      | some x => rw [h0] at hr; simpa using hr
    · rintro ⟨rs, r, h, hr, rfl⟩
      exact ⟨rs, h, r, by unfold getI; rw [hr], rfl⟩
  have prep : ∀ rs, forEach (readyFrame p) fs = .ok rs ↔ List.Forall₂ (Spec.Prepared p) fs rs := by
    intro rs
    rw [forEach_ok_iff]
    simp only [readyFrame_iff]
  constructor
  · constructor
    · rintro ⟨q, hq⟩
      obtain ⟨rs, r, h, hr, rfl⟩ := (key q).1 hq
      have h' := (prep rs).1 h
      refine ⟨?_, fun f hf => ?_⟩
      · rintro rfl
        cases h'
        simp at hr
      · obtain ⟨i, hi, rfl⟩ := List.mem_iff_getElem.1 hf
        have hl := h'.length_eq
        exact ⟨_, (h'.get hi (by omega)).1⟩
    · rintro ⟨hne, h⟩
      have : ∃ rs, List.Forall₂ (Spec.Prepared p) fs rs := by
        clear hne key prep
        induction fs with
        | nil => exact ⟨[], .nil⟩
        | cons f fs ih =>
          obtain ⟨rs, hrs⟩ := ih fun g hg => h g (by simp [hg])
          obtain ⟨out, ho⟩ := h f (by simp)
          exact ⟨⟨out, _, _, _⟩ :: rs, .cons ⟨ho, rfl, rfl, rfl⟩ hrs⟩
      obtain ⟨rs, hrs⟩ := this
      cases hrs with
      | nil => exact absurd rfl hne
      | cons h1 h2 => exact ⟨_, (key _).2 ⟨_, _, (prep _).2 (.cons h1 h2), rfl, rfl⟩⟩
  · intro q hq
    obtain ⟨rs, r, h, hr, rfl⟩ := (key q).1 hq
    exact ⟨⟨⟨r, hr, rfl, rfl, rfl⟩, viewerOf_playing _ _ _, by simp [viewerOf]⟩, rfl, rfl, (prep rs).1 h⟩

/-! ## What is on the screen -/

/-- **C90**: the video is shown as it is triangulated. At any time, for the current frame `f`: with fewer than three vertices nothing
is drawn; otherwise the drawing shows a snapshot whose triangles are the triangulation of `f`. -/
theorem C90_screen (pp : PlayerParams F G) (fs : List VideoFrame) (hn : ∀ f ∈ fs, 2 * f.vertices.length + 2 ≤ NONE) (p q : Player G)
    (hs : playerSetup pp fs = .ok p) (es : List PlayerEvent) (hr : p.run es = .ok q) :
    ∃ f r, fs[q.index]? = some f ∧ q.frames[q.index]? = some r ∧ Spec.Prepared pp f r ∧
      q.viewer.vertices = f.displayed pp.disp ∧ q.viewer.constraints = f.constraints ∧
      ((f.vertices.length < 3 ∧ q.viewer.frame = .ok none) ∨
       3 ≤ f.vertices.length ∧ ∃ s d, q.viewer.snaps = [s] ∧ q.viewer.cursor = 0 ∧ s.ts.map Tri.verts = r.tris ∧
         q.viewer.frame = .ok (some d) ∧ Spec.Shows q.viewer s d) := by
  obtain ⟨hp, -, -, hf⟩ := (C90_setup pp fs).2 p hs
  have hq : Spec.Playing q ∧ q.frames = p.frames := by
    rcases C90_run p hp es with h | ⟨q', h, h'⟩
    · rw [h] at hr; simp at hr
    · rw [h] at hr
      simp only [Res.ok.injEq] at hr
      exact hr ▸ h'
  obtain ⟨⟨⟨r, h0, h1, h2, h3⟩, hc, hb⟩, hfr⟩ := hq
  rw [← hfr] at hf
  obtain ⟨hi, e⟩ := List.getElem?_eq_some_iff.1 h0
  have hl := hf.length_eq
  have hi' : q.index < fs.length := by omega
  have hprep : Spec.Prepared pp fs[q.index] r := by
    have := hf.get hi' hi
    simp only [List.get_eq_getElem] at this
    rw [e] at this
    exact this
  have hmem : fs[q.index] ∈ fs := List.getElem_mem hi'
  refine ⟨fs[q.index], r, List.getElem?_eq_getElem hi', h0, hprep, by rw [h1, hprep.2.2.2], by rw [h2, hprep.2.2.1], ?_⟩
  have hpl : (fs[q.index].points pp.conv).length = fs[q.index].vertices.length := by simp [VideoFrame.points]
  have hlen : 2 * (fs[q.index].points pp.conv).length + 2 ≤ NONE := by rw [hpl]; exact hn _ hmem
  have hvl : q.viewer.vertices.length = (fs[q.index].points pp.conv).length := by
    rw [h1, hprep.2.2.2, hpl]
    simp [VideoFrame.displayed]
  have hfrm := C86_frame pp.fuel pp.bins (fs[q.index].points pp.conv) fs[q.index].constraints playerCfg hlen q.viewer hvl
    (.inr (h3.trans hprep.2.1)) hb
  by_cases h : fs[q.index].vertices.length < 3
  · left
    refine ⟨h, ?_⟩
    have hnil : q.viewer.snaps = [] := by
      rw [h3, hprep.2.1]
      exact (C89_few _ _ _ _ _ (by rw [hpl]; exact h)).2
    rcases hfrm with h | ⟨s, d, h, -⟩
    · exact h.2
    · rw [hnil] at h; simp at h
  · right
    refine ⟨by omega, ?_⟩
    obtain ⟨s, hs1, -, hs2⟩ := (C89_configurations pp.fuel pp.bins _ fs[q.index].constraints (by rw [hpl]; omega) hlen r.tris).1 hprep.1
    have hsn : q.viewer.snaps = [s] := by rw [h3, hprep.2.1]; exact hs1
    have hc0 : q.viewer.cursor = 0 := by
      rw [hsn] at hc
      simpa using hc
    rcases hfrm with ⟨h, -⟩ | ⟨s', d, hs', hd, hsh⟩
    · rw [hsn, hc0] at h; simp at h
    · rw [hsn, hc0] at hs'
      simp only [List.getElem?_cons_zero, Option.some.injEq] at hs'
      subst hs'
      exact ⟨s, d, hsn, hc0, hs2, hd, hsh⟩

/-- **C90**: the vertices on the screen, those that are triangulated and the constraints are those of the file, in the same order, with the
first coordinate to the right and the second one upwards. -/
theorem C90_positions (pp : PlayerParams F G) (fs : List VideoFrame) (hn : ∀ f ∈ fs, 2 * f.vertices.length + 2 ≤ NONE) (p q : Player G)
    (hs : playerSetup pp fs = .ok p) (es : List PlayerEvent) (hr : p.run es = .ok q) :
    ∃ f r pts, fs[q.index]? = some f ∧ q.frames[q.index]? = some r ∧
      (∀ i : Nat, q.viewer.vertices[i]? = (f.vertices[i]?).map fun v => ⟨pp.disp v.1, pp.disp v.2, FloatOps.zero⟩) ∧
      (∀ i : Nat, q.viewer.constraints[i]? = (f.edges[i]?).map fun e => ⟨toId e.1, toId e.2⟩) ∧
      (∀ i : Nat, pts[i]? = (f.vertices[i]?).map fun v => (⟨pp.conv v.1, pp.conv v.2⟩ : Vtx F)) ∧
      (constrained2dD pp.fuel pp.bins pts q.viewer.constraints playerCfg).1 = .ok r.tris := by
  obtain ⟨f, r, h1, h2, h3, h4, h5, -⟩ := C90_screen pp fs hn p q hs es hr
  refine ⟨f, r, f.points pp.conv, h1, h2, fun i => ?_, fun i => ?_, fun i => ?_, by rw [h5]; exact h3.1⟩
  · rw [h4, VideoFrame.displayed, List.getElem?_map]
  · rw [h5, VideoFrame.constraints, List.getElem?_map]
  · rw [VideoFrame.points, List.getElem?_map]

/-- **C90**: the player crashes exactly if the left arrow of the viewer is pressed while a frame of fewer than three vertices is
shown. -/
theorem C90_crash (pp : PlayerParams F G) (fs : List VideoFrame) (hn : ∀ f ∈ fs, 2 * f.vertices.length + 2 ≤ NONE) (p q : Player G)
    (hs : playerSetup pp fs = .ok p) (es : List PlayerEvent) (hr : p.run es = .ok q) (e : PlayerEvent) :
    q.step e = .panic ↔ e = .viewer .left ∧ ∃ f, fs[q.index]? = some f ∧ f.vertices.length < 3 := by
  obtain ⟨hp, -, -, -⟩ := (C90_setup pp fs).2 p hs
  have hq : Spec.Playing q := by
    rcases C90_run p hp es with h | ⟨q', h, h', -⟩
    · rw [h] at hr; simp at hr
    · rw [h] at hr
      simp only [Res.ok.injEq] at hr
      exact hr ▸ h'
  rw [(C90_step q hq e).1]
  obtain ⟨f, r, h1, h2, h3, -, -, h4⟩ := C90_screen pp fs hn p q hs es hr
  obtain ⟨⟨r', g1, -, -, g2⟩, -, -⟩ := hq
  rw [h2, Option.some.injEq] at g1
  subst g1
  refine and_congr_right fun _ => ?_
  constructor
  · intro hnil
    refine ⟨f, h1, ?_⟩
    rcases h4 with h | ⟨-, s, d, hsn, -⟩
    · exact h.1
    · rw [hsn] at hnil; simp at hnil
  · rintro ⟨f', hf', h⟩
    rw [h1, Option.some.injEq] at hf'
    subst hf'
    rw [g2, h3.2.1]
    exact (C89_few _ _ _ _ _ (by simpa [VideoFrame.points] using h)).2

/-! ## Moving through the video -/

/-- **C90**: playing shows the frames one after the other and starts again after the last one. -/
theorem C90_plays (p : Player G) (hp : Spec.Playing p) (ha : p.auto = true) (j : Nat) :
    ∃ q, p.run (List.replicate j (.next true {})) = .ok q ∧ q.index = (p.index + j) % p.frames.length ∧ q.auto = true := by
  induction j generalizing p with
  | zero =>
    obtain ⟨⟨f, hf, -⟩, -⟩ := hp
    have hi : p.index < p.frames.length := (List.getElem?_eq_some_iff.1 hf).1
    exact ⟨p, rfl, (Nat.mod_eq_of_lt hi).symm, ha⟩
  | succ j ih =>
    rw [List.replicate_succ, Player.run]
    obtain ⟨q, e, hq, hf⟩ := step_ok hp (.next true {}) (by simp)
    have hi : p.index < p.frames.length := by
      obtain ⟨⟨f, hf, -⟩, -⟩ := hp
      exact (List.getElem?_eq_some_iff.1 hf).1
    have hx : q.index = (p.index + 1) % p.frames.length ∧ q.auto = true := by
      rw [Player.step, Player.nextFrame, nextIndex, ha, remI_pos (by omega)] at e
      simp only [if_true, Res.ok_bind, Res.bind_eq_ok, Res.ok.injEq] at e
      obtain ⟨f, -, rfl⟩ := e
      exact ⟨rfl, rfl⟩
    rw [e]
    simp only [Res.ok_bind]
    obtain ⟨r, h1, h2, h3⟩ := ih q hq hx.2
    refine ⟨r, h1, ?_, h3⟩
    rw [h2, hf, hx.1, Nat.mod_add_mod]
    congr 1
    omega

/-- **C90**: in manual mode one key goes forward and the other one back, each undoing the other. -/
theorem C90_manual (len i : Nat) (h : i < len) (fin : Bool) :
    nextIndex len i false fin { forward := true } = .ok ((i + 1) % len, true) ∧
    nextIndex len i false fin { back := true } = .ok ((i + (len - 1)) % len, true) ∧
    ((i + 1) % len + (len - 1)) % len = i ∧ ((i + (len - 1)) % len + 1) % len = i ∧
    nextIndex len i false fin { num8 := true } = .ok ((i + 1000) % len, true) ∧
    nextIndex len i false fin { num5 := true } = .ok ((i + 100) % len, true) ∧
    nextIndex len i false fin { num7 := true } = .ok (i - 1000, true) ∧
    nextIndex len i false fin { num4 := true } = .ok (i - 100, true) ∧
    nextIndex len i false fin {} = .ok (i, false) := by
  have hl : 0 < len := by omega
  have e1 : (i + (len - 1)) % len = if i = 0 then len - 1 else i - 1 := by
    split
    · rename_i h0
      rw [h0, Nat.zero_add, Nat.mod_eq_of_lt (by omega)]
    · rw [show i + (len - 1) = (i - 1) + len by omega, Nat.add_mod_right, Nat.mod_eq_of_lt (by omega)]
  refine ⟨?_, ?_, ?_, ?_, ?_, ?_, ?_, ?_, ?_⟩
  · simp [nextIndex, arrowKeys, keyPlus, keyMinus, remI_pos hl]
  · rw [e1]
    by_cases h0 : i = 0 <;> simp [nextIndex, arrowKeys, keyPlus, keyMinus, h0, subI_le (show 1 ≤ len by omega)]
  · rw [Nat.mod_add_mod, show i + 1 + (len - 1) = i + len by omega, Nat.add_mod_right, Nat.mod_eq_of_lt h]
  · rw [Nat.mod_add_mod, show i + (len - 1) + 1 = i + len by omega, Nat.add_mod_right, Nat.mod_eq_of_lt h]
  · simp [nextIndex, arrowKeys, keyPlus, keyMinus, remI_pos hl]
  · simp [nextIndex, arrowKeys, keyPlus, keyMinus, remI_pos hl]
  · simp [nextIndex, arrowKeys, keyPlus, keyMinus]
  · simp [nextIndex, arrowKeys, keyPlus, keyMinus]
  · simp [nextIndex, arrowKeys, keyPlus, keyMinus]

end

/-! ## Concrete cases -/

section
open Witness
local instance playerIdCfg : IdCfg := u32Cfg

/-- The numbers of a run in `f64`. -/
def samplePlayer : PlayerParams F64 F64 :=
  ⟨fun n => .mk _ n, fun n => .mk _ n, 200, defaultBins,
    ⟨⟨FloatOps.one, FloatOps.zero, FloatOps.zero⟩, ⟨FloatOps.zero, FloatOps.one, FloatOps.zero⟩, FloatOps.two, FloatOps.two, FloatOps.c099⟩⟩

/-- A video of a square, an empty frame and a triangle. -/
def sampleVideo : List VideoFrame :=
  [⟨[(0,0),(0,4),(4,4),(4,0)], [(0,1),(1,2),(2,3),(3,0)]⟩, ⟨[], []⟩, ⟨[(0,0),(3,5),(6,1)], [(0,1),(1,2),(2,0)]⟩]

/-- The index of the frame and what is drawn after some events. -/
def playerCounts (es : List PlayerEvent) (fs : List VideoFrame) : Res (Nat × Option (List Nat)) := do
  let p ← playerSetup samplePlayer fs
  let q ← p.run es
  let c ← frameCounts q.viewer.frame
  .ok (q.index, c)

/-- The square has four contour lines; its diagonal is drawn for both of its triangles. -/
example : playerCounts [] sampleVideo = .ok (0, some [0, 0, 4, 2, 0, 0]) := by decide +kernel

/-- The video starts again after the last frame; the second frame shows nothing. -/
example : playerCounts [.next true {}] sampleVideo = .ok (1, none) ∧
    playerCounts [.next true {}, .next false {}, .next true {}] sampleVideo = .ok (2, some [0, 0, 3, 0, 0, 0]) ∧
    playerCounts [.next true {}, .next true {}, .next true {}] sampleVideo = .ok (0, some [0, 0, 4, 2, 0, 0]) ∧
    playerCounts [.space, .next true { back := true }, .viewer .left] sampleVideo = .ok (2, some [0, 0, 3, 0, 0, 0]) := by decide +kernel

/-- The left arrow on the empty frame is an underflow. -/
theorem C90_crash_refuted : playerCounts [.next true {}, .viewer .left] sampleVideo = .panic := by decide +kernel

/-- A video without frames, or with a constraint to a vertex that does not exist, is not played. -/
example : playerCounts [] [] = .panic ∧ playerCounts [] [⟨[(0,0),(0,4),(4,4)], [(0,3)]⟩] = .panic := by decide +kernel

/-- The contour is drawn from the constraints as they are in the file: when a vertex occurs twice, the sides at the copy that is
merged are not drawn as contour, although they are constraints of the triangulation (one of the four sides here). -/
theorem C90_duplicates_refuted :
    playerCounts [] [⟨[(0,0),(0,4),(4,4),(4,0),(0,4)], [(0,1),(4,2),(2,3),(3,0)]⟩] = .ok (0, some [0, 0, 3, 3, 0, 0]) := by decide +kernel

end

end CDT

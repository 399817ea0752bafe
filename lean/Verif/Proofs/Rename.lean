import Verif.Model.Triangulation

/-!
# Renaming the vertices

The insertion phase commutes with an injective renaming of the vertex indexes, in every arithmetic; and the arithmetic
only matters through the values of its predicates. `Ren ρ ws vs`: vertex `i` of `ws` is called `ρ i` in `vs`, and every
predicate on positions of `vs` has the value it has on the positions of `ws`.
-/

set_option linter.unusedSectionVars false

namespace CDT
open FloatOps

/-- The second computation follows the first one unless that panics. -/
def RSim {α β : Type} (R : α → β → Prop) : Res α → Res β → Prop
  | .panic, _ => True
  | .ok a, .ok b => R a b
  | .err e, .err e' => e = e'
  | .diverge, .diverge => True
  | _, _ => False

theorem RSim.bind {α β α' β' : Type} {R : α → α' → Prop} {S : β → β' → Prop} {x : Res α} {y : Res α'} {k : α → Res β} {k' : α' → Res β'}
    (h : RSim R x y) (hk : ∀ a b, R a b → RSim S (k a) (k' b)) : RSim S (x >>= k) (y >>= k') := by
  cases x <;> cases y <;> simp_all [RSim]

theorem RSim.ok_of {α β : Type} {R : α → β → Prop} {y : Res β} {a : α} (h : RSim R (.ok a) y) : ∃ b, y = .ok b ∧ R a b := by
  cases y <;> simp_all [RSim]

theorem RSim.refl {α : Type} (x : Res α) : RSim Eq x x := by cases x <;> simp [RSim]

theorem RSim.of_eq {α : Type} {x y : Res α} (h : x = y) : RSim Eq x y := h ▸ .refl x

variable {F : Type} [FloatOps F] {G : Type} [FloatOps G] [IdCfg]

/-- Renamed triangle. -/
def Tri.ren (ρ : Nat → Nat) (t : Tri) : Tri := ⟨ρ t.v1, ρ t.v2, ρ t.v3, t.n12, t.n23, t.n31⟩
/-- Renamed edge. -/
def Edge.ren (ρ : Nat → Nat) (e : Edge) : Edge := ⟨ρ e.src, ρ e.dst⟩
/-- Renamed quad. -/
def Quad.ren (ρ : Nat → Nat) (q : Quad) : Quad := ⟨ρ q.q1, ρ q.q2, ρ q.q3, ρ q.q4⟩
/-- Renamed placement. -/
def Placement.ren (ρ : Nat → Nat) : Placement → Placement
  | .inside t => .inside t
  | .onEdge t ei e => .onEdge t ei (e.ren ρ)
  | .notFound => .notFound
/-- Renamed walk. -/
def Walk.ren (ρ : Nat → Nat) : Walk → Walk
  | .found p => .found (p.ren ρ)
  | .go a b => .go a b

/-- Two positions with the same name. -/
def RPair (ρ : Nat → Nat) (ws : List (Vtx G)) (vs : List (Vtx F)) (a : Vtx G) (a' : Vtx F) : Prop :=
  ∃ i : Nat, ws[i]? = some a ∧ vs[ρ i]? = some a'

/-- `vs` is `ws` renamed by `ρ`, up to the values of the predicates. -/
structure Ren (ρ : Nat → Nat) (ws : List (Vtx G)) (vs : List (Vtx F)) : Prop where
  inj : ∀ i j, ρ i = ρ j → i = j
  inf : ∀ i, INF0 ≤ i → ρ i = i
  fin : ∀ i, i < INF0 → ρ i < INF0
  get : ∀ (i : Nat) (a : Vtx G), ws[i]? = some a → ∃ a', vs[ρ i]? = some a'
  left : ∀ a a' b b' p p', RPair ρ ws vs a a' → RPair ρ ws vs b b' → RPair ρ ws vs p p' →
    onLeft (edgeSide (a, b) p) = onLeft (edgeSide (a', b') p')
  near : ∀ a a' b b' p p', RPair ρ ws vs a a' → RPair ρ ws vs b b' → RPair ρ ws vs p p' →
    nearEdge (edgeSide (a, b) p) = nearEdge (edgeSide (a', b') p')
  right : ∀ a a' b b' p p', RPair ρ ws vs a a' → RPair ρ ws vs b b' → RPair ρ ws vs p p' →
    strictlyRightOfEdge (a, b) p = strictlyRightOfEdge (a', b') p'
  semiLeft : ∀ a a' p p' k, RPair ρ ws vs a a' → RPair ρ ws vs p p' →
    onLeft (edgeSide (semiInf a k) p) = onLeft (edgeSide (semiInf a' k) p')
  semiRight : ∀ a a' p p' k, RPair ρ ws vs a a' → RPair ρ ws vs p p' →
    onRight (edgeSide (semiInf a k) p) = onRight (edgeSide (semiInf a' k) p')
  semiNear : ∀ a a' p p' k, RPair ρ ws vs a a' → RPair ρ ws vs p p' →
    nearEdge (edgeSide (semiInf a k) p) = nearEdge (edgeSide (semiInf a' k) p')
  close : ∀ a a' b b', RPair ρ ws vs a a' → RPair ρ ws vs b b' → tooClose a b = tooClose a' b'
  circ : ∀ a a' b b' c c' p p', RPair ρ ws vs a a' → RPair ρ ws vs b b' → RPair ρ ws vs c c' → RPair ρ ws vs p p' →
    inCircumcircle a b c p = inCircumcircle a' b' c' p'

section
variable {ρ : Nat → Nat}

@[simp] theorem Tri.ren_v1 (t : Tri) : (t.ren ρ).v1 = ρ t.v1 := rfl
@[simp] theorem Tri.ren_v2 (t : Tri) : (t.ren ρ).v2 = ρ t.v2 := rfl
@[simp] theorem Tri.ren_v3 (t : Tri) : (t.ren ρ).v3 = ρ t.v3 := rfl
@[simp] theorem Tri.ren_n12 (t : Tri) : (t.ren ρ).n12 = t.n12 := rfl
@[simp] theorem Tri.ren_n23 (t : Tri) : (t.ren ρ).n23 = t.n23 := rfl
@[simp] theorem Tri.ren_n31 (t : Tri) : (t.ren ρ).n31 = t.n31 := rfl
@[simp] theorem Tri.ren_v (t : Tri) (k : Fin 3) : (t.ren ρ).v k = ρ (t.v k) := by
  match k with | 0 => rfl | 1 => rfl | 2 => rfl
@[simp] theorem Tri.ren_n (t : Tri) (k : Fin 3) : (t.ren ρ).n k = t.n k := by
  match k with | 0 => rfl | 1 => rfl | 2 => rfl
@[simp] theorem Tri.ren_edge (t : Tri) (k : Fin 3) : (t.ren ρ).edge k = (t.edge k).ren ρ := by
  simp [Tri.edge, Edge.ren]
@[simp] theorem Quad.ren_v (q : Quad) (k : Fin 4) : (q.ren ρ).v k = ρ (q.v k) := by
  match k with | 0 => rfl | 1 => rfl | 2 => rfl | 3 => rfl

theorem Tri.ren_updN (t : Tri) (a b : Nat) : (t.ren ρ).updN a b = (t.updN a b).ren ρ := by
  unfold Tri.updN
  by_cases h1 : t.n12 = a
  · simp [h1, Tri.ren]
  by_cases h2 : t.n23 = a
  · simp [h1, h2, Tri.ren]
  by_cases h3 : t.n31 = a
  · simp [h1, h2, h3, Tri.ren]
  · simp [h1, h2, h3]

theorem getI_map {α β : Type} (f : α → β) (l : List α) (i : Nat) : RSim (fun a b => b = f a) (getI l i) (getI (l.map f) i) := by
  unfold getI
  rw [List.getElem?_map]
  cases l[i]? <;> simp [RSim]

theorem set_map {α β : Type} (f : α → β) (l : List α) (i : Nat) (a : α) : (l.map f).set i (f a) = (l.set i a).map f := by
  rw [List.map_set]

theorem updNb_ren (ts : List Tri) (n a b : Nat) : RSim (fun l l' => l' = l.map (Tri.ren ρ)) (updNb ts n a b) (updNb (ts.map (Tri.ren ρ)) n a b) := by
  unfold updNb
  split
  · simp [RSim]
  · refine (getI_map _ ts n).bind ?_
    rintro t _ rfl
    simp only [RSim, Tri.ren_updN, set_map]

end

variable {ρ : Nat → Nat} {ws : List (Vtx G)} {vs : List (Vtx F)}

namespace Ren

theorem isInf (h : Ren ρ ws vs) (i : Nat) : CDT.isInf (ρ i) = CDT.isInf i := by
  unfold CDT.isInf
  by_cases hi : INF0 ≤ i
  · rw [h.inf i hi]
  · have := h.fin i (by omega)
    simp only [hi, decide_false, decide_eq_false_iff_not]; omega

theorem isFin (h : Ren ρ ws vs) (i : Nat) : CDT.isFin (ρ i) = CDT.isFin i := by
  have := h.isInf i
  unfold CDT.isInf at this; unfold CDT.isFin
  rw [decide_eq_decide] at this ⊢; omega

theorem infLocal (h : Ren ρ ws vs) (i : Nat) : CDT.infLocal (ρ i) = CDT.infLocal i := by
  by_cases hi : INF0 ≤ i
  · rw [h.inf i hi]
  · have := h.fin i (by omega)
    unfold CDT.infLocal
    rw [if_pos this, if_pos (by omega)]

theorem eq_iff (h : Ren ρ ws vs) (i j : Nat) : ρ i = ρ j ↔ i = j := ⟨h.inj i j, fun e => e ▸ rfl⟩

theorem collectInfTri (h : Ren ρ ws vs) (t : Tri) : CDT.collectInfTri (t.ren ρ) = CDT.collectInfTri t := by
  unfold CDT.collectInfTri
  simp only [Tri.ren_v1, Tri.ren_v2, Tri.ren_v3, h.isInf]

theorem vertexIndex (h : Ren ρ ws vs) (t : Tri) (x : Nat) : (t.ren ρ).vertexIndex (ρ x) = t.vertexIndex x := by
  unfold Tri.vertexIndex
  simp only [Tri.ren_v1, Tri.ren_v2, h.eq_iff]

theorem oppVertexId (h : Ren ρ ws vs) (t : Tri) (e : Edge) : (t.ren ρ).oppVertexId (e.ren ρ) = ρ (t.oppVertexId e) := by
  unfold Tri.oppVertexId Edge.contains Edge.ren
  simp only [Tri.ren_v1, Tri.ren_v2, Tri.ren_v3, h.eq_iff]
  split
  · rfl
  split <;> rfl

theorem getV (h : Ren ρ ws vs) (i : Nat) : RSim (RPair ρ ws vs) (getI ws i) (getI vs (ρ i)) := by
  unfold getI
  cases e : ws[i]? with
  | none => simp [RSim]
  | some a =>
    obtain ⟨a', ha⟩ := h.get i a e
    rw [ha]
    exact ⟨i, e, ha⟩

theorem placement1 (h : Ren ρ ws vs) {p : Vtx G} {p' : Vtx F} (hp : RPair ρ ws vs p p') (t : Tri) (tid : Nat)
    (i : Fin 3) (prev cur : Nat) :
    RSim (fun w w' => w' = w.ren ρ) (CDT.placement1 ws p t tid i prev cur) (CDT.placement1 vs p' (t.ren ρ) tid i prev cur) := by
  unfold CDT.placement1
  simp only [Tri.ren_v, Tri.ren_n]
  refine (h.getV _).bind fun a a' ha => ?_
  refine (h.getV _).bind fun b b' hb => ?_
  rw [← h.left _ _ _ _ _ _ ha hb hp, ← h.near _ _ _ _ _ _ ha hb hp, h.infLocal]
  split
  · simp [RSim, Walk.ren]
  refine (RSim.refl _).bind ?_
  rintro k _ rfl
  rw [← h.semiRight _ _ _ _ _ ha hp, ← h.semiLeft _ _ _ _ _ hb hp, ← h.semiNear _ _ _ _ _ ha hp, ← h.semiNear _ _ _ _ _ hb hp]
  split
  · simp [RSim, Walk.ren]
  split
  · simp [RSim, Walk.ren]
  split
  · simp [RSim, Walk.ren, Placement.ren, Edge.ren]
  split
  · simp [RSim, Walk.ren, Placement.ren, Edge.ren]
  split
  · simp [RSim, Walk.ren, Placement.ren, Edge.ren]
  · simp [RSim, Walk.ren, Placement.ren, Edge.ren]

theorem placement2 (h : Ren ρ ws vs) {p : Vtx G} {p' : Vtx F} (hp : RPair ρ ws vs p p') (t : Tri) (tid : Nat)
    (i j : Fin 3) (prev cur : Nat) :
    RSim (fun w w' => w' = w.ren ρ) (CDT.placement2 ws p t tid i j prev cur) (CDT.placement2 vs p' (t.ren ρ) tid i j prev cur) := by
  unfold CDT.placement2
  simp only [Tri.ren_v, Tri.ren_n]
  refine (RSim.refl _).bind ?_
  rintro f _ rfl
  refine (h.getV _).bind fun a a' ha => ?_
  rw [h.infLocal]
  refine (RSim.refl _).bind ?_
  rintro ka _ rfl
  rw [← h.semiLeft _ _ _ _ _ ha hp, ← h.semiNear _ _ _ _ _ ha hp]
  split
  · simp [RSim, Walk.ren]
  rw [h.infLocal]
  refine (RSim.refl _).bind ?_
  rintro kb _ rfl
  rw [← h.semiRight _ _ _ _ _ ha hp, ← h.semiNear _ _ _ _ _ ha hp]
  split
  · simp [RSim, Walk.ren]
  split
  · simp [RSim, Walk.ren, Placement.ren, Edge.ren]
  split
  · simp [RSim, Walk.ren, Placement.ren, Edge.ren]
  · simp [RSim, Walk.ren, Placement.ren, Edge.ren]

theorem findStep (h : Ren ρ ws vs) {p : Vtx G} {p' : Vtx F} (hp : RPair ρ ws vs p p') (ts : List Tri) (prev cur : Nat) :
    RSim (fun w w' => w' = w.ren ρ) (CDT.findStep ws p ts prev cur) (CDT.findStep vs p' (ts.map (Tri.ren ρ)) prev cur) := by
  unfold CDT.findStep
  refine (getI_map _ _ _).bind ?_
  rintro t _ rfl
  rw [h.collectInfTri]
  refine (RSim.refl _).bind ?_
  rintro l _ rfl
  match l with
  | [] =>
    refine (h.getV _).bind fun a a' ha => ?_
    refine (h.getV _).bind fun b b' hb => ?_
    refine (h.getV _).bind fun c c' hc => ?_
    rw [Tri.ren_n12, Tri.ren_n23, Tri.ren_n31, Tri.ren_edge, Tri.ren_edge, Tri.ren_edge, ← h.left _ _ _ _ _ _ ha hb hp, ← h.left _ _ _ _ _ _ hb hc hp, ← h.left _ _ _ _ _ _ hc ha hp,
      ← h.near _ _ _ _ _ _ ha hb hp, ← h.near _ _ _ _ _ _ hb hc hp, ← h.near _ _ _ _ _ _ hc ha hp]
    split
    · simp [RSim, Walk.ren]
    split
    · simp [RSim, Walk.ren]
    split
    · simp [RSim, Walk.ren]
    split
    · simp [RSim, Walk.ren, Placement.ren]
    split
    · simp [RSim, Walk.ren, Placement.ren]
    split
    · simp [RSim, Walk.ren, Placement.ren]
    · simp [RSim, Walk.ren, Placement.ren]
  | [i] => exact h.placement1 hp t cur i prev cur
  | i :: j :: _ => exact h.placement2 hp t cur i j prev cur

theorem findLoop (h : Ren ρ ws vs) {p : Vtx G} {p' : Vtx F} (hp : RPair ρ ws vs p p') (ts : List Tri) (n prev cur : Nat) :
    RSim (fun w w' => w' = w.ren ρ) (CDT.findLoop ws p ts n prev cur) (CDT.findLoop vs p' (ts.map (Tri.ren ρ)) n prev cur) := by
  induction n generalizing prev cur with
  | zero => simp [CDT.findLoop, RSim, Placement.ren]
  | succ n ih =>
    unfold CDT.findLoop
    split
    · simp [RSim, Placement.ren]
    refine (h.findStep hp ts prev cur).bind ?_
    rintro w _ rfl
    cases w with
    | found pl => simp [RSim, Walk.ren]
    | go a b => exact ih a b

theorem findPlacement (h : Ren ρ ws vs) {p : Vtx G} {p' : Vtx F} (hp : RPair ρ ws vs p p') (ts : List Tri) (start : Nat) :
    RSim (fun w w' => w' = w.ren ρ) (CDT.findPlacement ws p start ts) (CDT.findPlacement vs p' start (ts.map (Tri.ren ρ))) := by
  unfold CDT.findPlacement
  rw [List.length_map]
  exact h.findLoop hp ts _ _ _

/-- Renamed mesh, same stack. -/
def RMesh (ρ : Nat → Nat) (r r' : List Tri × List (Nat × Nat)) : Prop := r' = (r.1.map (Tri.ren ρ), r.2)

theorem nextId_map (ts : List Tri) : nextId (ts.map (Tri.ren ρ)) = nextId ts := by simp [nextId]
theorem lastId_map (ts : List Tri) : lastId (ts.map (Tri.ren ρ)) = lastId ts := by simp [lastId]

theorem split3 (h : Ren ρ ws vs) (ts : List Tri) (t1 p : Nat) :
    RSim (RMesh ρ) (CDT.split3 ts t1 p) (CDT.split3 (ts.map (Tri.ren ρ)) t1 (ρ p)) := by
  unfold CDT.split3
  simp only [nextId_map]
  refine (RSim.refl _).bind ?_
  rintro t3 _ rfl
  refine (getI_map _ _ _).bind ?_
  rintro t _ rfl
  have e : ((ts.map (Tri.ren ρ)) ++ [(⟨ρ p, (t.ren ρ).v2, (t.ren ρ).v3, t3, (t.ren ρ).n23, t1⟩ : Tri),
      (⟨ρ p, (t.ren ρ).v1, (t.ren ρ).v2, t1, (t.ren ρ).n12, nextId ts⟩ : Tri)]).set t1 (⟨ρ p, (t.ren ρ).v3, (t.ren ρ).v1, nextId ts, (t.ren ρ).n31, t3⟩ : Tri) =
      ((ts ++ [(⟨p, t.v2, t.v3, t3, t.n23, t1⟩ : Tri), (⟨p, t.v1, t.v2, t1, t.n12, nextId ts⟩ : Tri)]).set t1
        (⟨p, t.v3, t.v1, nextId ts, t.n31, t3⟩ : Tri)).map (Tri.ren ρ) := by
    rw [List.map_set, List.map_append]; rfl
  rw [e]
  refine (updNb_ren _ _ _ _).bind ?_
  rintro l _ rfl
  refine (updNb_ren _ _ _ _).bind ?_
  rintro l' _ rfl
  simp [RSim, RMesh]

theorem split4 (h : Ren ρ ws vs) (ts : List Tri) (t1 : Nat) (ei : Fin 3) (e : Edge) (p : Nat) :
    RSim (RMesh ρ) (CDT.split4 ts t1 ei e p) (CDT.split4 (ts.map (Tri.ren ρ)) t1 ei (e.ren ρ) (ρ p)) := by
  unfold CDT.split4
  simp only [nextId_map]
  refine (getI_map _ _ _).bind ?_
  rintro a _ rfl
  refine (RSim.refl _).bind ?_
  rintro t4 _ rfl
  simp only [Tri.ren_n]
  refine (getI_map _ _ _).bind ?_
  rintro b _ rfl
  simp only [h.oppVertexId, h.vertexIndex, Tri.ren_v, Tri.ren_n]
  have e1 : (((ts.map (Tri.ren ρ)) ++ [(⟨ρ p, (e.ren ρ).dst, ρ (a.v (oppVertIdx ei)), t4, a.n (nextCwEdge ei), t1⟩ : Tri),
      (⟨ρ p, ρ (b.oppVertexId e), (e.ren ρ).dst, a.n ei, b.n (vertNextCwEdge (b.vertexIndex (b.oppVertexId e))), nextId ts⟩ : Tri)]).set t1
      (⟨ρ p, ρ (a.v (oppVertIdx ei)), (e.ren ρ).src, nextId ts, a.n (nextCcwEdge ei), a.n ei⟩ : Tri)).set (a.n ei)
      (⟨ρ p, (e.ren ρ).src, ρ (b.oppVertexId e), t1, b.n (vertNextCcwEdge (b.vertexIndex (b.oppVertexId e))), t4⟩ : Tri) =
      (((ts ++ [(⟨p, e.dst, a.v (oppVertIdx ei), t4, a.n (nextCwEdge ei), t1⟩ : Tri),
      (⟨p, b.oppVertexId e, e.dst, a.n ei, b.n (vertNextCwEdge (b.vertexIndex (b.oppVertexId e))), nextId ts⟩ : Tri)]).set t1
      (⟨p, a.v (oppVertIdx ei), e.src, nextId ts, a.n (nextCcwEdge ei), a.n ei⟩ : Tri)).set (a.n ei)
      (⟨p, e.src, b.oppVertexId e, t1, b.n (vertNextCcwEdge (b.vertexIndex (b.oppVertexId e))), t4⟩ : Tri)).map (Tri.ren ρ) := by
    rw [List.map_set, List.map_set, List.map_append]; rfl
  rw [e1]
  refine (updNb_ren _ _ _ _).bind ?_
  rintro l _ rfl
  refine (updNb_ren _ _ _ _).bind ?_
  rintro l' _ rfl
  simp [RSim, RMesh]

theorem inHalfPlane1 (h : Ren ρ ws vs) (q : Quad) (i : Fin 3) :
    RSim Eq (CDT.inHalfPlane1 ws q i) (CDT.inHalfPlane1 vs (q.ren ρ) i) := by
  unfold CDT.inHalfPlane1
  simp only [Quad.ren_v]
  refine (h.getV _).bind fun a a' ha => ?_
  refine (h.getV _).bind fun b b' hb => ?_
  refine (h.getV _).bind fun p p' hp => ?_
  simp only [RSim]
  exact h.right _ _ _ _ _ _ ha hb hp

theorem shouldSwap (h : Ren ρ ws vs) (q : Quad) : RSim Eq (CDT.shouldSwap ws q) (CDT.shouldSwap vs (q.ren ρ)) := by
  unfold CDT.shouldSwap
  have e1 : CDT.isInf (q.ren ρ).q3 = CDT.isInf q.q3 := h.isInf _
  have e2 : CDT.isFin (q.ren ρ).q1 = CDT.isFin q.q1 := h.isFin _
  have e3 : CDT.isFin (q.ren ρ).q2 = CDT.isFin q.q2 := h.isFin _
  rw [e1, e2, e3]
  split
  · simp [RSim]
  split
  · refine (h.getV _).bind fun a a' ha => ?_
    refine (h.getV _).bind fun b b' hb => ?_
    refine (h.getV _).bind fun c c' hc => ?_
    refine (h.getV _).bind fun p p' hp => ?_
    exact h.circ _ _ _ _ _ _ _ _ ha hb hc hp
  split
  · simp [RSim]
  split
  · exact h.inHalfPlane1 _ _
  · exact h.inHalfPlane1 _ _

theorem quadOf (t : Tri) (s p : Nat) : CDT.quadOf (t.ren ρ) s (ρ p) = ((CDT.quadOf t s p).1.ren ρ, (CDT.quadOf t s p).2) := by
  unfold CDT.quadOf
  by_cases h1 : t.n12 = s
  · simp [h1, Tri.ren, Quad.ren]
  by_cases h2 : t.n23 = s
  · simp [h1, h2, Tri.ren, Quad.ren]
  · simp [h1, h2, Tri.ren, Quad.ren]

theorem checkAndSwap (h : Ren ρ ws vs) (p : Nat) (ts : List Tri) (s o : Nat) (st : List (Nat × Nat)) :
    RSim (RMesh ρ) (CDT.checkAndSwap ws p ts s o st) (CDT.checkAndSwap vs (ρ p) (ts.map (Tri.ren ρ)) s o st) := by
  unfold CDT.checkAndSwap
  refine (getI_map _ _ _).bind ?_
  rintro t2 _ rfl
  rw [quadOf]
  refine (h.shouldSwap _).bind ?_
  rintro b _ rfl
  cases b
  · simp [RSim, RMesh]
  simp only [if_true]
  refine (getI_map _ _ _).bind ?_
  rintro t1 _ rfl
  simp only [Tri.ren_n31, Tri.ren_n12]
  generalize CDT.quadOf t2 s p = Q
  have e1 : (((ts.map (Tri.ren ρ)).set s ⟨(Q.1.ren ρ).q4, (Q.1.ren ρ).q1, (Q.1.ren ρ).q3, t1.n12, Q.2.1, o⟩).set o
      ⟨(Q.1.ren ρ).q4, (Q.1.ren ρ).q3, (Q.1.ren ρ).q2, s, Q.2.2, t1.n31⟩) =
      ((ts.set s ⟨Q.1.q4, Q.1.q1, Q.1.q3, t1.n12, Q.2.1, o⟩).set o ⟨Q.1.q4, Q.1.q3, Q.1.q2, s, Q.2.2, t1.n31⟩).map (Tri.ren ρ) := by
    rw [List.map_set, List.map_set]; rfl
  rw [e1]
  refine (updNb_ren _ _ _ _).bind ?_
  rintro l _ rfl
  refine (updNb_ren _ _ _ _).bind ?_
  rintro l' _ rfl
  simp [RSim, RMesh]

theorem restore (h : Ren ρ ws vs) (p fuel : Nat) (ts : List Tri) (st : List (Nat × Nat)) :
    RSim (fun l l' => l' = l.map (Tri.ren ρ)) (CDT.restore ws p fuel ts st) (CDT.restore vs (ρ p) fuel (ts.map (Tri.ren ρ)) st) := by
  induction fuel generalizing ts st with
  | zero => cases st <;> simp [CDT.restore, RSim]
  | succ n ih =>
    cases st with
    | nil => simp [CDT.restore, RSim]
    | cons e st =>
      obtain ⟨a, b⟩ := e
      unfold CDT.restore
      refine (h.checkAndSwap p ts a b st).bind ?_
      rintro r _ rfl
      exact ih _ _

/-- Renamed state; nothing is said about the merge mapping. -/
def RState (ρ : Nat → Nat) (s s' : DT) : Prop := s'.ts = s.ts.map (Tri.ren ρ) ∧ s'.tid = s.tid

theorem finishInsert (h : Ren ρ ws vs) (fuel vid : Nat) (m m' : Option (List Nat)) (r : List Tri × List (Nat × Nat)) :
    RSim (RState ρ) (CDT.finishInsert ws fuel vid m r) (CDT.finishInsert vs fuel (ρ vid) m' (r.1.map (Tri.ren ρ), r.2)) := by
  unfold CDT.finishInsert
  refine (h.restore _ _ _ _).bind ?_
  rintro l _ rfl
  rw [lastId_map]
  refine (RSim.refl _).bind ?_
  rintro t _ rfl
  exact ⟨rfl, rfl⟩

theorem insertVertex (h : Ren ρ ws vs) (fuel : Nat) {s s' : DT} (hs : RState ρ s s') (vid : Nat) :
    RSim (RState ρ) (CDT.insertVertex ws fuel s vid) (CDT.insertVertex vs fuel s' (ρ vid)) := by
  obtain ⟨h1, h2⟩ := hs
  unfold CDT.insertVertex
  refine (h.getV _).bind fun p p' hp => ?_
  rw [h1, h2]
  refine (h.findPlacement hp _ _).bind ?_
  rintro pl _ rfl
  cases pl with
  | notFound => simp [RSim, Placement.ren]
  | inside t =>
    refine (h.split3 _ _ _).bind ?_
    rintro r _ rfl
    exact h.finishInsert _ _ _ _ _
  | onEdge t ei e =>
    have key : RSim (RState ρ) (CDT.insertOnEdge ws fuel s vid p t ei e) (CDT.insertOnEdge vs fuel s' (ρ vid) p' t ei (e.ren ρ)) := by
      unfold insertOnEdge
      have go : RSim (RState ρ) (do
          let r ← CDT.split4 s.ts t ei e vid
          CDT.finishInsert ws fuel vid s.merge r) (do
          let r ← CDT.split4 s'.ts t ei (e.ren ρ) (ρ vid)
          CDT.finishInsert vs fuel (ρ vid) s'.merge r) := by
        rw [h1]
        refine (h.split4 _ _ _ _ _).bind ?_
        rintro r _ rfl
        exact h.finishInsert _ _ _ _ _
      have e1 : CDT.isFin (e.ren ρ).dst = CDT.isFin e.dst := h.isFin _
      rw [e1]
      by_cases hf : CDT.isFin e.dst = true
      · simp only [hf, if_true]
        refine ((h.getV e.dst).bind fun a a' ha => ?_)
        simp only [Res.pure_eq, Res.ok_bind, h.close _ _ _ _ ha hp]
        split
        · exact ⟨h1, h2⟩
        · exact go
      · simpa [hf] using go
    have e1 : CDT.isFin (e.ren ρ).src = CDT.isFin e.src := h.isFin _
    simp only [Placement.ren, e1]
    by_cases hf : CDT.isFin e.src = true
    · simp only [hf, if_true]
      refine ((h.getV e.src).bind fun a a' ha => ?_)
      simp only [Res.pure_eq, Res.ok_bind, h.close _ _ _ _ ha hp]
      split
      · exact ⟨rfl, rfl⟩
      · exact key
    · simpa [hf] using key

theorem insertAll (h : Ren ρ ws vs) (fuel : Nat) (l : List Nat) : ∀ {s s' : DT}, RState ρ s s' →
    RSim (RState ρ) (CDT.insertAll ws fuel l s) (CDT.insertAll vs fuel (l.map ρ) s') := by
  induction l with
  | nil => intro s s' hs; exact hs
  | cons v l ih =>
    intro s s' hs
    unfold CDT.insertAll
    simp only [List.map_cons]
    refine (h.insertVertex fuel hs v).bind ?_
    intro a b hab
    exact ih hab

theorem initial (h : Ren ρ ws vs) (first tid : Nat) (m m' : Option (List Nat)) :
    RState ρ ⟨initialTriangles first, tid, m⟩ ⟨initialTriangles (ρ first), tid, m'⟩ := by
  have hB := IdCfg.big
  have e0 := h.inf INF0 (by omega)
  have e1 := h.inf INF1 (by unfold INF0 INF1; omega)
  have e2 := h.inf INF2 (by unfold INF0 INF2; omega)
  have e3 := h.inf INF3 (by unfold INF0 INF3; omega)
  refine ⟨?_, rfl⟩
  simp [initialTriangles, Tri.ren, e0, e1, e2, e3]

end Ren

end CDT

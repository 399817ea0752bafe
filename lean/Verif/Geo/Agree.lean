import Verif.Geo.Run

/-!
# Runs in an arithmetic whose predicates agree with exact arithmetic

`Agree vf vk`: every predicate evaluated by the unconstrained triangulation on the vertices `vf`, in the arithmetic `F`, has
the value it has in exact arithmetic on the vertices `vk`. Then both runs are equal, step by step.
-/

namespace CDT
open FloatOps

variable {F : Type} [FloatOps F]
variable {K : Type} [Field K] [LinearOrder K] [ExactParams K]

/-- The same position of two lists of vertices. -/
def Pair (vf : List (Vtx F)) (vk : List (Vtx K)) (a : Vtx F) (a' : Vtx K) : Prop :=
  ∃ i : Nat, vf[i]? = some a ∧ vk[i]? = some a'

/-- The predicates on `vf` agree with the exact predicates on `vk`. -/
structure Agree (vf : List (Vtx F)) (vk : List (Vtx K)) : Prop where
  len : vf.length = vk.length
  left : ∀ a a' b b' p p', Pair vf vk a a' → Pair vf vk b b' → Pair vf vk p p' →
    onLeft (edgeSide (a, b) p) = onLeft (edgeSide (a', b') p')
  near : ∀ a a' b b' p p', Pair vf vk a a' → Pair vf vk b b' → Pair vf vk p p' →
    nearEdge (edgeSide (a, b) p) = nearEdge (edgeSide (a', b') p')
  right : ∀ a a' b b' p p', Pair vf vk a a' → Pair vf vk b b' → Pair vf vk p p' →
    strictlyRightOfEdge (a, b) p = strictlyRightOfEdge (a', b') p'
  semiLeft : ∀ a a' p p' k, Pair vf vk a a' → Pair vf vk p p' →
    onLeft (edgeSide (semiInf a k) p) = onLeft (edgeSide (semiInf a' k) p')
  semiRight : ∀ a a' p p' k, Pair vf vk a a' → Pair vf vk p p' →
    onRight (edgeSide (semiInf a k) p) = onRight (edgeSide (semiInf a' k) p')
  semiNear : ∀ a a' p p' k, Pair vf vk a a' → Pair vf vk p p' →
    nearEdge (edgeSide (semiInf a k) p) = nearEdge (edgeSide (semiInf a' k) p')
  close : ∀ a a' b b', Pair vf vk a a' → Pair vf vk b b' → tooClose a b = tooClose a' b'
  circ : ∀ a a' b b' c c' p p', Pair vf vk a a' → Pair vf vk b b' → Pair vf vk c c' → Pair vf vk p p' →
    0 < HP.o (HP.ofVtx b') (HP.ofVtx a') (HP.ofVtx c') → 0 < HP.o (HP.ofVtx p') (HP.ofVtx a') (HP.ofVtx b') →
    inCircumcircle a b c p = inCircumcircle a' b' c' p'

variable {vf : List (Vtx F)} {vk : List (Vtx K)}

theorem Agree.get (h : Agree vf vk) (i : Nat) :
    (getI vf i = .panic ∧ getI vk i = .panic) ∨
    ∃ a a', getI vf i = .ok a ∧ getI vk i = .ok a' ∧ vk[i]? = some a' ∧ Pair vf vk a a' := by
  by_cases hi : i < vf.length
  · obtain ⟨a, h1, h2⟩ := getI_lt hi
    obtain ⟨a', h3, h4⟩ := getI_lt (h.len ▸ hi)
    exact .inr ⟨a, a', h2, h4, h3, i, h1, h3⟩
  · left
    have h1 : vf[i]? = none := List.getElem?_eq_none (by omega)
    have h2 : vk[i]? = none := List.getElem?_eq_none (by have := h.len; omega)
    simp [getI, h1, h2]

variable [IdCfg]

theorem Agree.placement1 (h : Agree vf vk) {p : Vtx F} {p' : Vtx K} (hp : Pair vf vk p p') (t : Tri) (tid : Nat)
    (i : Fin 3) (prev cur : Nat) : CDT.placement1 vf p t tid i prev cur = CDT.placement1 vk p' t tid i prev cur := by
  unfold CDT.placement1
  rcases h.get (t.v (nextCwVert i)) with ⟨h1, h2⟩ | ⟨a, a', h1, h2, _, ha⟩
  · simp only [h1, h2, Res.panic_bind]
  rcases h.get (t.v (nextCcwVert i)) with ⟨h3, h4⟩ | ⟨b, b', h3, h4, _, hb⟩
  · simp only [h1, h2, h3, h4, Res.ok_bind, Res.panic_bind]
  simp only [h1, h2, h3, h4, Res.ok_bind, h.left _ _ _ _ _ _ ha hb hp, h.near _ _ _ _ _ _ ha hb hp,
    h.semiLeft _ _ _ _ _ hb hp, h.semiRight _ _ _ _ _ ha hp, h.semiNear _ _ _ _ _ ha hp, h.semiNear _ _ _ _ _ hb hp]

theorem Agree.placement2 (h : Agree vf vk) {p : Vtx F} {p' : Vtx K} (hp : Pair vf vk p p') (t : Tri) (tid : Nat)
    (i j : Fin 3) (prev cur : Nat) :
    CDT.placement2 vf p t tid i j prev cur = CDT.placement2 vk p' t tid i j prev cur := by
  unfold CDT.placement2
  cases oppVertFromEdge i j with
  | ok f =>
    simp only [Res.ok_bind]
    rcases h.get (t.v f) with ⟨h1, h2⟩ | ⟨a, a', h1, h2, _, ha⟩
    · simp only [h1, h2, Res.panic_bind]
    simp only [h1, h2, Res.ok_bind, h.semiLeft _ _ _ _ _ ha hp, h.semiRight _ _ _ _ _ ha hp, h.semiNear _ _ _ _ _ ha hp]
  | err e => rfl
  | panic => rfl
  | diverge => rfl

theorem Agree.findStep (h : Agree vf vk) {p : Vtx F} {p' : Vtx K} (hp : Pair vf vk p p') (ts : List Tri) (prev cur : Nat) :
    CDT.findStep vf p ts prev cur = CDT.findStep vk p' ts prev cur := by
  unfold CDT.findStep
  cases getI ts cur with
  | ok t =>
    simp only [Res.ok_bind]
    cases collectInfTri t with
    | ok l =>
      simp only [Res.ok_bind]
      match l with
      | [] =>
        rcases h.get t.v1 with ⟨h1, h2⟩ | ⟨a, a', h1, h2, _, ha⟩
        · simp only [h1, h2, Res.panic_bind]
        rcases h.get t.v2 with ⟨h3, h4⟩ | ⟨b, b', h3, h4, _, hb⟩
        · simp only [h1, h2, h3, h4, Res.ok_bind, Res.panic_bind]
        rcases h.get t.v3 with ⟨h5, h6⟩ | ⟨c, c', h5, h6, _, hc⟩
        · simp only [h1, h2, h3, h4, h5, h6, Res.ok_bind, Res.panic_bind]
        simp only [h1, h2, h3, h4, h5, h6, Res.ok_bind, h.left _ _ _ _ _ _ ha hb hp, h.left _ _ _ _ _ _ hb hc hp,
          h.left _ _ _ _ _ _ hc ha hp, h.near _ _ _ _ _ _ ha hb hp, h.near _ _ _ _ _ _ hb hc hp,
          h.near _ _ _ _ _ _ hc ha hp]
      | [i] => exact h.placement1 hp t cur i prev cur
      | i :: j :: _ => exact h.placement2 hp t cur i j prev cur
    | err e => rfl
    | panic => rfl
    | diverge => rfl
  | err e => rfl
  | panic => rfl
  | diverge => rfl

theorem Agree.findLoop (h : Agree vf vk) {p : Vtx F} {p' : Vtx K} (hp : Pair vf vk p p') (ts : List Tri) (n prev cur : Nat) :
    CDT.findLoop vf p ts n prev cur = CDT.findLoop vk p' ts n prev cur := by
  induction n generalizing prev cur with
  | zero => rfl
  | succ n ih => simp only [CDT.findLoop, h.findStep hp, ih]

theorem Agree.findPlacement (h : Agree vf vk) {p : Vtx F} {p' : Vtx K} (hp : Pair vf vk p p') (ts : List Tri)
    (start : Nat) : CDT.findPlacement vf p start ts = CDT.findPlacement vk p' start ts :=
  h.findLoop hp ts _ _ _

/-- The beginning of an iteration does not depend on the arithmetic. -/
theorem Agree.insertWith (h : Agree vf vk) (G : List Tri × List (Nat × Nat) → Res DT) (s : DT) (vid : Nat) :
    CDT.insertWith vf G s vid = CDT.insertWith vk G s vid := by
  unfold CDT.insertWith
  rcases h.get vid with ⟨h1, h2⟩ | ⟨p, p', h1, h2, _, hp⟩
  · simp only [h1, h2, Res.panic_bind]
  simp only [h1, h2, Res.ok_bind, h.findPlacement hp]
  cases CDT.findPlacement vk p' s.tid s.ts with
  | ok pl =>
    simp only [Res.ok_bind]
    cases pl with
    | notFound => rfl
    | inside t => rfl
    | onEdge t ei e =>
      simp only
      rcases h.get e.src with ⟨h3, h4⟩ | ⟨a, a', h3, h4, _, ha⟩ <;>
      rcases h.get e.dst with ⟨h5, h6⟩ | ⟨b, b', h5, h6, _, hb⟩ <;>
      simp only [h3, h4, h5, h6, Res.ok_bind, Res.panic_bind] <;>
      (try simp only [h.close _ _ _ _ ha hp]) <;> (try simp only [h.close _ _ _ _ hb hp])
  | err e => rfl
  | panic => rfl
  | diverge => rfl

theorem Agree.inHalfPlane1 (h : Agree vf vk) (q : Quad) (i : Fin 3) :
    CDT.inHalfPlane1 vf q i = CDT.inHalfPlane1 vk q i := by
  unfold CDT.inHalfPlane1
  rcases h.get (q.v (edgeToVert1 (oppEdgeIdx i)).castSucc) with ⟨h1, h2⟩ | ⟨a, a', h1, h2, _, ha⟩
  · simp only [h1, h2, Res.panic_bind]
  rcases h.get (q.v (edgeToVert0 (oppEdgeIdx i)).castSucc) with ⟨h3, h4⟩ | ⟨b, b', h3, h4, _, hb⟩
  · simp only [h1, h2, h3, h4, Res.ok_bind, Res.panic_bind]
  rcases h.get q.q4 with ⟨h5, h6⟩ | ⟨p, p', h5, h6, _, hp⟩
  · simp only [h1, h2, h3, h4, h5, h6, Res.ok_bind, Res.panic_bind]
  simp only [h1, h2, h3, h4, h5, h6, Res.ok_bind, h.right _ _ _ _ _ _ ha hb hp]

theorem Agree.shouldSwap [IsStrictOrderedRing K] (h : Agree vf vk) (q : Quad) (hpf : q.q4 < INF0)
    (h1 : 0 < HP.o (hp vk q.q2) (hp vk q.q1) (hp vk q.q3)) (h2 : 0 < HP.o (hp vk q.q4) (hp vk q.q1) (hp vk q.q2)) :
    CDT.shouldSwap vf q = CDT.shouldSwap vk q := by
  unfold CDT.shouldSwap
  split
  · rfl
  rename_i h3
  split
  · rename_i h4
    rw [Bool.and_eq_true, isFin_iff, isFin_iff] at h4
    have hq3 : q.q3 < INF0 := by rw [← isInf_false_iff]; simpa using h3
    rcases h.get q.q1 with ⟨e1, e2⟩ | ⟨a, a', e1, e2, ga, ha⟩
    · simp only [e1, e2, Res.panic_bind]
    rcases h.get q.q2 with ⟨e3, e4⟩ | ⟨b, b', e3, e4, gb, hb⟩
    · simp only [e1, e2, e3, e4, Res.ok_bind, Res.panic_bind]
    rcases h.get q.q3 with ⟨e5, e6⟩ | ⟨c, c', e5, e6, gc, hc⟩
    · simp only [e1, e2, e3, e4, e5, e6, Res.ok_bind, Res.panic_bind]
    rcases h.get q.q4 with ⟨e7, e8⟩ | ⟨p, p', e7, e8, gp, hp'⟩
    · simp only [e1, e2, e3, e4, e5, e6, e7, e8, Res.ok_bind, Res.panic_bind]
    rw [hp_fin h4.1 ga, hp_fin h4.2 gb, hp_fin hq3 gc] at h1
    rw [hp_fin hpf gp, hp_fin h4.1 ga, hp_fin h4.2 gb] at h2
    simp only [e1, e2, e3, e4, e5, e6, e7, e8, Res.ok_bind, h.circ _ _ _ _ _ _ _ _ ha hb hc hp' h1 h2]
  · simp only [h.inHalfPlane1]

variable [IsStrictOrderedRing K]

theorem Agree.checkAndSwap (h : Agree vf vk) {p s o : Nat} {ts : List Tri} {st : List (Nat × Nat)}
    (hI : RInv vk p ts ((s, o) :: st)) (hn : vk.length ≤ INF0) (hpl : p < vk.length) :
    CDT.checkAndSwap vf p ts s o st = CDT.checkAndSwap vk p ts s o st := by
  have hv := hI.valid
  have hlen := hv.len
  obtain ⟨T, hT, hT1, hT2, ho⟩ := hI.stack (s, o) (by simp)
  obtain ⟨v1, a, b, n2, n23, n1⟩ := T
  simp only at hT hT1 hT2 ho
  subst hT1 hT2
  have hR := rot_self (⟨v1, a, b, n2, n23, n1⟩ : Tri)
  simp only at hR
  obtain ⟨U, hU, hh⟩ := hv.ent_pos ⟨_, hT, hR.has2⟩ ho
  obtain ⟨c, n3, n4, hRU⟩ := hh.rot
  have hls := lt_of_getElem? hT
  have hq := quadOf_rot hv hU hRU (by omega) v1
  have pS := hR.pos_iff.1 (hv.pos _ _ hT)
  have pU := hRU.pos_iff.1 (hv.pos _ _ hU)
  unfold CDT.checkAndSwap
  simp only [getI_of hU, Res.ok_bind, hq]
  rw [h.shouldSwap ⟨a, b, c, v1⟩ (by simp only; omega) pU pS]

theorem Agree.restore (h : Agree vf vk) {p : Nat} (hn : vk.length ≤ INF0) (hpl : p < vk.length) (fuel : Nat)
    (ts : List Tri) (st : List (Nat × Nat)) (hI : RInv vk p ts st) :
    CDT.restore vf p fuel ts st = CDT.restore vk p fuel ts st := by
  induction fuel generalizing ts st with
  | zero => cases st <;> rfl
  | succ n ih =>
    cases st with
    | nil => rfl
    | cons e st =>
      obtain ⟨s, o⟩ := e
      obtain ⟨ts', st', h1, hI', _⟩ := hI.step hn hpl
      simp only [CDT.restore, h.checkAndSwap hI hn hpl, h1, Res.ok_bind, ih _ _ hI']

theorem Agree.insertVertex (h : Agree vf vk) {done ins : List Nat} {s : DT} {vid : Nat} (fuel : Nat)
    (hI : DInv vk done ins s) (hsep : Sep vk) (hn : vk.length ≤ INF0) (hvl : vid < vk.length) (hvd : vid ∉ done)
    (hlen : s.ts.length + 2 ≤ NONE) : CDT.insertVertex vf fuel s vid = CDT.insertVertex vk fuel s vid := by
  obtain ⟨sh, h1, h2⟩ := insertWith_shape hI hsep hn hvl hvd hlen
  rw [insertVertex_with, insertVertex_with, h.insertWith, h1, h1]
  cases sh with
  | fail => rfl
  | keep s' => rfl
  | go ts1 st => simp only [Shape.eval, finishInsert, h.restore hn hvl fuel _ _ h2.2.2.2.1]

theorem Agree.insertAll (h : Agree vf vk) {fuel : Nat} (hsep : Sep vk) (hn : 2 * vk.length + 2 ≤ NONE)
    (hfuel : 6 * vk.length + 10 ≤ fuel) (rest done ins : List Nat) (s : DT) (hI : DInv vk done ins s)
    (hnd : rest.Nodup) (hdis : ∀ v ∈ rest, v ∉ done) (hlt : ∀ v ∈ rest, v < vk.length)
    (hcard : done.length + rest.length ≤ vk.length) :
    CDT.insertAll vf fuel rest s = CDT.insertAll vk fuel rest s := by
  induction rest generalizing done ins s with
  | nil => rfl
  | cons v rest ih =>
    have hl := hI.len
    simp only [List.length_cons] at hcard
    have hni : vk.length ≤ INF0 := by unfold NONE at hn; unfold INF0; have := IdCfg.big; omega
    have hins := insertVertex_total (fuel := fuel) hI hsep hni
      (hlt v (by simp)) (hdis v (by simp)) (by omega) (by omega)
    rw [List.nodup_cons] at hnd
    have hd' : ∀ w ∈ rest, w ∉ v :: done := by
      intro w hw hc
      rcases List.mem_cons.1 hc with rfl | hc
      · exact hnd.1 hw
      · exact hdis w (by simp [hw]) hc
    have hl' : ∀ w ∈ rest, w < vk.length := fun w hw => hlt w (by simp [hw])
    simp only [CDT.insertAll, h.insertVertex fuel hI hsep hni (hlt v (by simp)) (hdis v (by simp)) (by omega)]
    generalize CDT.insertVertex vk fuel s v = r at hins
    cases hins with
    | notFound => rfl
    | merged h' ht => exact ih _ _ _ h' hnd.2 hd' hl' (by simp; omega)
    | inserted h' hs hr => exact ih _ _ _ h' hnd.2 hd' hl' (by simp; omega)

/-- The whole unconstrained phase, if the vertices are sorted in the same order. -/
theorem Agree.wrap (h : Agree vf vk) {fuel bins : Nat} {m : Option (List Nat)} (hne : vk ≠ []) (hsep : Sep vk)
    (hu : ∀ v ∈ vk, Plane.InUnit v) (hb : 1 ≤ bins) (hn : 2 * vk.length + 2 ≤ NONE)
    (hfuel : 6 * vk.length + 10 ≤ fuel) (hm : MergeInit vk.length m) (hsort : binSort bins vf = binSort bins vk) :
    wrapAndTriangulate fuel bins vf m = wrapAndTriangulate fuel bins vk m := by
  have hB := IdCfg.big
  have hnn : vk.length ≤ NONE := by omega
  have hni : vk.length ≤ INF0 := by unfold NONE at hn; unfold INF0; omega
  obtain ⟨r, hr⟩ := countBins_ok (bins := bins) (vs := vk) (cnt := List.replicate (bins * bins) 0)
    (fun v hv => by simpa using binIndex_ok hb (hu v hv))
  obtain ⟨out, ho, hperm⟩ := binSort_of_bins (by unfold NONE at hnn; omega) hr
  unfold wrapAndTriangulate
  rw [hsort, ho]
  simp only [Res.ok_bind]
  cases out with
  | nil => rfl
  | cons first rest =>
    have hnd : (first :: rest).Nodup := hperm.nodup_iff.2 List.nodup_range
    have hlt : ∀ v ∈ first :: rest, v < vk.length := fun v hv => by simpa using hperm.subset hv
    have hlen := hperm.length_eq
    simp at hlen
    rw [List.nodup_cons] at hnd
    simp only
    rw [lastId_ok (by simp [initialTriangles]) (by simp [initialTriangles]; unfold NONE; omega)]
    simp only [Res.ok_bind]
    exact h.insertAll hsep hn hfuel rest [first] [first] _ (initial_dinv (hlt first (by simp)) hni m hm) hnd.2
      (by intro v hv hc; simp at hc; subst hc; exact hnd.1 hv) (fun v hv => hlt v (by simp [hv])) (by simp; omega)

end CDT

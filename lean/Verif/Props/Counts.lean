import Mathlib.Data.Finset.Card
import Mathlib.Data.Finset.Range
import Verif.Proofs.GenericC
import Verif.Witness.Upstream

/-! # C02, C11 (any arithmetic), C39 -/

set_option linter.unusedSectionVars false
set_option linter.unusedSimpArgs false
set_option linter.unusedVariables false

namespace CDT
open FloatOps

variable {F : Type} [FloatOps F] [IdCfg]

/-! ## C02 -/

theorem isFinite_lt {n : Nat} {ts : List Tri} (hv : VertsIn (fun v => isInf v = true ∨ v < n) ts)
    {t : Tri} (ht : t ∈ ts) (hf : t.isFinite = true) : t.v1 < n ∧ t.v2 < n ∧ t.v3 < n := by
  have h0 := hv t ht 0
  have h1 := hv t ht 1
  have h2 := hv t ht 2
  simp only [Tri.isFinite, Bool.and_eq_true, isFin_iff] at hf
  simp only [isInf_iff, Tri.v_0, Tri.v_1, Tri.v_2] at h0 h1 h2
  refine ⟨?_, ?_, ?_⟩ <;> omega

/-- **C02**, unconstrained: for every arithmetic, configuration and input every output index is an
input index, and none is the id of an artificial vertex. -/
theorem C02_triangulation2d (fuel : Nat) (bins : Nat → Nat) (vs : List (Vtx F)) (out : List Out)
    (h : triangulation2d fuel bins vs = .ok out) :
    ∀ a b c, (a, b, c) ∈ out → (a < vs.length ∧ b < vs.length ∧ c < vs.length) ∧
      (a < INF0 ∧ b < INF0 ∧ c < INF0) := by
  intro a b c ho
  unfold triangulation2d at h
  split at h
  · simp at h; subst h; simp at ho
  · simp only [Res.bind_eq_ok] at h
    obtain ⟨s, hs, h⟩ := h
    simp at h; subst h
    obtain ⟨t, ht, hf, he⟩ := mem_filterSeq ho
    have hv := wrapAndTriangulate_verts hs
    rw [normalizeVerts_length] at hv
    have hlt := isFinite_lt hv ht hf
    simp only [Tri.verts, Prod.mk.injEq] at he
    obtain ⟨rfl, rfl, rfl⟩ := he
    refine ⟨hlt, ?_⟩
    simpa [Tri.isFinite, isFin, and_assoc] using hf

/-- **C02**, constrained. -/
theorem C02_constrained2d (fuel : Nat) (bins : Nat → Nat) (vs : List (Vtx F)) (es : List Edge)
    (out : List Out) (h : constrained2d fuel bins vs es = .ok out) :
    ∀ a b c, (a, b, c) ∈ out → (a < vs.length ∧ b < vs.length ∧ c < vs.length) ∧
      (a < INF0 ∧ b < INF0 ∧ c < INF0) := by
  intro a b c ho
  unfold constrained2d at h
  split at h
  · simp at h; subst h; simp at ho
  · simp only [Res.bind_eq_ok] at h
    obtain ⟨s, hs, h⟩ := h
    obtain ⟨t, ht, hf, he⟩ := cdtFilter_mem h ho
    have hlt := isFinite_lt (constrainedMesh_verts hs) ht hf
    simp only [Tri.verts, Prod.mk.injEq] at he
    obtain ⟨rfl, rfl, rfl⟩ := he
    refine ⟨hlt, ?_⟩
    simpa [Tri.isFinite, isFin, and_assoc] using hf

theorem transformTo2d_length {vs : List (Vtx3 F)} {n : Vtx3 F} {pv : List (Vtx F)}
    (h : transformTo2d vs n = .ok pv) : pv.length = vs.length := by
  simp only [transformTo2d, Res.bind_eq_ok] at h
  obtain ⟨a, _, b, _, h⟩ := h
  simp at h; subst h; simp

/-- **C02**, 3d entry points. -/
theorem C02_3d (fuel : Nat) (bins : Nat → Nat) (vs : List (Vtx3 F)) (normal : Vtx3 F) (es : List Edge)
    (out : List Out) (h : triangulation3d fuel bins vs normal = .ok out ∨
      constrained3d fuel bins vs normal es = .ok out) :
    ∀ a b c, (a, b, c) ∈ out → a < vs.length ∧ b < vs.length ∧ c < vs.length := by
  intro a b c ho
  rcases h with h | h
  · unfold triangulation3d at h
    split at h
    · simp at h; subst h; simp at ho
    · rw [Res.bind_eq_ok] at h
      obtain ⟨pv, hp, h⟩ := h
      rw [← transformTo2d_length hp]
      exact (C02_triangulation2d fuel bins pv out h a b c ho).1
  · unfold constrained3d at h
    split at h
    · simp at h; subst h; simp at ho
    · rw [Res.bind_eq_ok] at h
      obtain ⟨pv, hp, h⟩ := h
      rw [← transformTo2d_length hp]
      exact (C02_constrained2d fuel bins pv es out h a b c ho).1

/-- Non-vacuity: a run with output (here 4 vertices, 2 triangles, indices 0..3). -/
example : (letI := u32Cfg; constrained2d 100 Witness.defaultBins
    (Witness.pts [(0,0),(0,5),(5,5),(5,0)]) [⟨0,2⟩]) = .ok [(2,3,0),(2,0,1)] := by decide +kernel

/-! ## C11 -/

/-- The vertices that a merge mapping sends to another vertex. -/
def mergedSet (m : List Nat) : Finset Nat := (Finset.range m.length).filter fun i => m[i]? ≠ some i

/-- State of the merge mapping after the ids of `done` were processed. -/
structure MergeInv (n : Nat) (done : List Nat) (s : DT) : Prop where
  verts : VertsIn (fun v => isInf v = true ∨ v ∈ done) s.ts
  map : ∃ m, s.merge = some m ∧ m.length = n ∧ (∀ i < n, i ∉ done → m[i]? = some i) ∧
    (∀ i < n, ∃ j, m[i]? = some j ∧ (j = i ∨ j ∈ done)) ∧
    s.ts.length + 2 * (mergedSet m).card = 2 * done.length + 2

theorem mergedSet_set {m : List Nat} {i x : Nat} (hi : i < m.length) (h : m[i]? = some i)
    (hx : x ≠ i) : (mergedSet (m.set i x)).card = (mergedSet m).card + 1 := by
  have h1 : mergedSet (m.set i x) = insert i (mergedSet m) := by
    ext j
    simp only [mergedSet, List.length_set, Finset.mem_filter, Finset.mem_range, Finset.mem_insert]
    by_cases hj : j = i
    · subst hj
      simp [hi, hx]
    · rw [List.getElem?_set_ne (Ne.symm hj)]
      simp [hj]
  have h2 : i ∉ mergedSet m := by simp [mergedSet, h]
  rw [h1, Finset.card_insert_of_notMem h2]

theorem insertVertex_mergeInv {n : Nat} {done : List Nat} {vs : List (Vtx F)} {fuel : Nat}
    {s s' : DT} {vid : Nat} (hn : vid < n) (hv : vid ∉ done) (hs : MergeInv n done s)
    (h : insertVertex vs fuel s vid = .ok s') : MergeInv n (done ++ [vid]) s' := by
  have hverts : VertsIn (fun v => isInf v = true ∨ v ∈ done ++ [vid]) s'.ts := by
    refine insertVertex_verts h ?_ (.inr (by simp))
    intro t ht k
    rcases hs.verts t ht k with h | h
    · exact .inl h
    · exact .inr (by simp [h])
  obtain ⟨m, hm, hl, hu, hj, hc⟩ := hs.map
  refine ⟨hverts, ?_⟩
  obtain ⟨p, pl, _, hpl, ⟨t, r, rfl, hr, hts, _, hme⟩ | ⟨t, ei, e, r, rfl, hr, hts, _, hme, _⟩ |
    ⟨t, ei, e, x, a, rfl, hx, hxf, _, _, rfl⟩⟩ := insertVertex_ok h
  · refine ⟨m, by rw [hme, hm], hl, fun i hi hd => hu i hi (by simp at hd; tauto), ?_, ?_⟩
    · intro i hi; obtain ⟨j, h1, h2⟩ := hj i hi
      exact ⟨j, h1, h2.imp id (by simp; tauto)⟩
    · rw [restore_length hts, split3_length hr]; simp; omega
  · refine ⟨m, by rw [hme, hm], hl, fun i hi hd => hu i hi (by simp at hd; tauto), ?_, ?_⟩
    · intro i hi; obtain ⟨j, h1, h2⟩ := hj i hi
      exact ⟨j, h1, h2.imp id (by simp; tauto)⟩
    · rw [restore_length hts, split4_length hr]; simp; omega
  · obtain ⟨tt, htt, he⟩ := findLoop_from hpl
    have hxd : x ∈ done := by
      have : isInf x = true ∨ x ∈ done := by
        rcases hx with rfl | rfl <;> rw [he]
        · exact hs.verts.get htt _
        · exact hs.verts.get htt _
      rcases this with h | h
      · simp [isInf, isFin] at h hxf; omega
      · exact h
    have hne : x ≠ vid := by rintro rfl; exact hv hxd
    refine ⟨m.set vid x, by simp [setMerge, hm], by simpa using hl, ?_, ?_, ?_⟩
    · intro i hi hd
      simp at hd
      rw [List.getElem?_set_ne (by tauto)]
      exact hu i hi hd.1
    · intro i hi
      by_cases hiv : i = vid
      · subst hiv
        exact ⟨x, by simp [hl, hn], .inr (by simp [hxd])⟩
      · rw [List.getElem?_set_ne (Ne.symm hiv)]
        obtain ⟨j, h1, h2⟩ := hj i hi
        exact ⟨j, h1, h2.imp id (by simp; tauto)⟩
    · rw [mergedSet_set (by omega) (hu vid hn hv) hne]
      simp only [List.length_append, List.length_singleton]; omega

theorem insertAll_mergeInv {n : Nat} {done : List Nat} {vs : List (Vtx F)} {fuel : Nat} {l : List Nat}
    {s s' : DT} (hn : ∀ v ∈ l, v < n) (hd : (done ++ l).Nodup) (hs : MergeInv n done s)
    (h : insertAll vs fuel l s = .ok s') : MergeInv n (done ++ l) s' := by
  induction l generalizing s done with
  | nil => simp [insertAll] at h; subst h; simpa using hs
  | cons v l ih =>
    simp only [insertAll, Res.bind_eq_ok] at h
    obtain ⟨s1, h1, h⟩ := h
    have hv : v ∉ done := by
      rw [List.nodup_append] at hd
      intro hv
      exact hd.2.2 v hv v (by simp) rfl
    have := ih (done := done ++ [v]) (fun w hw => hn w (by simp [hw])) (by simpa using hd)
      (insertVertex_mergeInv (hn v (by simp)) hv hs h1) h
    simpa using this

theorem toId_range {n : Nat} (hn : n ≤ IdCfg.maxId + 1) :
    (List.range n).map toId = List.range n := by
  apply List.ext_getElem
  · simp
  · intro i h1 h2
    simp at h1
    simp only [List.getElem_map, List.getElem_range, toId]
    exact Nat.mod_eq_of_lt (by omega)

theorem initial_mergeInv {n first : Nat} (hf : first < n) (m : List Nat) (hm : m = List.range n) :
    MergeInv n [first] ⟨initialTriangles first, 3, some m⟩ := by
  subst hm
  refine ⟨initialTriangles_verts (.inr (by simp)) (.inl isInf_INF0) (.inl isInf_INF1)
    (.inl isInf_INF2) (.inl isInf_INF3), List.range n, rfl, by simp, ?_, ?_, ?_⟩
  · intro i hi _; simp [hi]
  · intro i hi; exact ⟨i, by simp [hi], .inl rfl⟩
  · have : mergedSet (List.range n) = ∅ := by
      ext j
      simp only [mergedSet, Finset.mem_filter, List.length_range, Finset.mem_range]
      constructor
      · rintro ⟨h1, h2⟩; exact absurd (by simp [h1]) h2
      · intro h; simp at h
    simp [this, initialTriangles]

/-- **C11**, every intermediate state: after the vertices of any prefix `first :: pre` of the insertion
order have been processed, of which `k` were merged, the mesh has `2 (|pre| + 1 - k) + 2` triangles.
Holds for every arithmetic. -/
theorem C11_state_count (fuel bins : Nat) (vs : List (Vtx F)) (hn : vs.length ≤ IdCfg.maxId + 1)
    (first : Nat) (pre suf : List Nat) (hs : binSort bins vs = .ok (first :: pre ++ suf)) (s : DT)
    (h : insertAll vs fuel pre ⟨initialTriangles first, 3, some (List.range vs.length)⟩ = .ok s) :
    ∃ m, s.merge = some m ∧ m.length = vs.length ∧
      s.ts.length + 2 * (mergedSet m).card = 2 * (pre.length + 1) + 2 := by
  have hp := binSort_perm hn hs
  have hnd : ([first] ++ pre).Nodup := by
    have : (first :: pre ++ suf).Nodup := hp.nodup_iff.2 List.nodup_range
    rw [List.nodup_append] at this
    simpa using this.1
  have hlt : ∀ v ∈ first :: pre ++ suf, v < vs.length := fun v hv => by
    simpa using hp.mem_iff.1 hv
  obtain ⟨_, m, h1, h2, _, _, h3⟩ := insertAll_mergeInv (done := [first])
    (fun v hv => hlt v (by simp [hv])) hnd
    (initial_mergeInv (hlt first (by simp)) _ rfl) h
  refine ⟨m, h1, h2, ?_⟩
  rw [h3]; simp

/-- **C11**, final state of the constrained run: `n` vertices of which `k` are merged give exactly
`2 (n - k) + 2` triangles, before and after the constraints are applied. -/
theorem C11_count (fuel : Nat) (bins : Nat → Nat) (vs : List (Vtx F))
    (hn : vs.length ≤ IdCfg.maxId + 1) (s : DT)
    (h : wrapAndTriangulate fuel (bins vs.length) (normalizeVerts vs)
      (some ((List.range vs.length).map toId)) = .ok s) :
    ∃ m, s.merge = some m ∧ m.length = vs.length ∧
      s.ts.length + 2 * (mergedSet m).card = 2 * vs.length + 2 := by
  rw [toId_range hn] at h
  obtain ⟨first, rest, hs, h⟩ := wrapAndTriangulate_ok h
  have hl := (binSort_lt hs).1
  rw [normalizeVerts_length] at hl
  obtain ⟨m, h1, h2, h3⟩ := C11_state_count fuel _ (normalizeVerts vs)
    (by rw [normalizeVerts_length]; exact hn) first rest [] (by simpa using hs) s
    (by rw [normalizeVerts_length]; exact h)
  rw [normalizeVerts_length] at h2
  refine ⟨m, h1, h2, ?_⟩
  rw [h3]; simp at hl; omega

theorem C11_count_constrained (fuel : Nat) (bins : Nat → Nat) (vs : List (Vtx F))
    (hn : vs.length ≤ IdCfg.maxId + 1) (es : List Edge) (r : AC)
    (h : constrainedMesh fuel bins vs es = .ok r) :
    ∃ m : List Nat, m.length = vs.length ∧ r.ts.length + 2 * (mergedSet m).card = 2 * vs.length + 2 := by
  obtain ⟨s, hs, h⟩ := constrainedMesh_ok h
  obtain ⟨v2t, _, h⟩ := applyConstraints_ok h
  obtain ⟨m, _, h2, h3⟩ := C11_count fuel bins vs hn s hs
  refine ⟨m, h2, ?_⟩
  rw [(applyLoop_in (Q := fun _ => True) h (fun _ _ _ => trivial)).2.1]
  exact h3

/-- Forget the merge mapping. -/
def DT.forget (s : DT) : DT := { s with merge := none }

theorem insertVertex_forget (vs : List (Vtx F)) (fuel : Nat) (s : DT) (vid : Nat) :
    insertVertex vs fuel s.forget vid = (insertVertex vs fuel s vid >>= fun s' => .ok s'.forget) := by
  unfold insertVertex
  rcases getI_cases vs vid with ⟨p, _, hp⟩ | ⟨_, hp⟩
  · rw [hp]
    simp only [Res.ok_bind, DT.forget]
    cases findPlacement vs p s.tid s.ts with
    | err e => rfl
    | panic => rfl
    | diverge => rfl
    | ok pl =>
      simp only [Res.ok_bind]
      cases pl with
      | notFound => rfl
      | inside t =>
        dsimp only
        cases split3 s.ts t vid with
        | err e => rfl
        | panic => rfl
        | diverge => rfl
        | ok r =>
          simp only [Res.ok_bind, finishInsert]
          cases restore vs vid fuel r.1 r.2 with
          | err e => rfl
          | panic => rfl
          | diverge => rfl
          | ok ts => simp only [Res.ok_bind]; cases lastId ts <;> rfl
      | onEdge t ei e =>
        have key : insertOnEdge vs fuel ⟨s.ts, s.tid, none⟩ vid p t ei e =
            (insertOnEdge vs fuel s vid p t ei e >>= fun s' => .ok ⟨s'.ts, s'.tid, none⟩) := by
          have key2 : (split4 s.ts t ei e vid >>= fun r => finishInsert vs fuel vid none r) =
              ((split4 s.ts t ei e vid >>= fun r => finishInsert vs fuel vid s.merge r) >>=
                fun s' => .ok ⟨s'.ts, s'.tid, none⟩) := by
            cases split4 s.ts t ei e vid with
            | err e => rfl
            | panic => rfl
            | diverge => rfl
            | ok r =>
              simp only [Res.ok_bind, finishInsert]
              cases restore vs vid fuel r.1 r.2 with
              | err e => rfl
              | panic => rfl
              | diverge => rfl
              | ok ts => simp only [Res.ok_bind]; cases lastId ts <;> rfl
          unfold insertOnEdge
          cases isFin e.dst with
          | false => simpa using key2
          | true =>
            simp only [if_true]
            rcases getI_cases vs e.dst with ⟨b, _, hb⟩ | ⟨_, hb⟩
            · rw [hb]
              simp only [Res.ok_bind, Res.pure_eq]
              cases tooClose b p with
              | true => rfl
              | false => simpa using key2
            · rw [hb]; rfl
        dsimp only
        cases isFin e.src with
        | false => simpa using key
        | true =>
          simp only [if_true]
          rcases getI_cases vs e.src with ⟨b, _, hb⟩ | ⟨_, hb⟩
          · rw [hb]
            simp only [Res.ok_bind, Res.pure_eq]
            cases tooClose b p with
            | true => rfl
            | false => simpa using key
          · rw [hb]; rfl
  · rw [hp]; rfl

theorem insertAll_forget (vs : List (Vtx F)) (fuel : Nat) (l : List Nat) (s : DT) :
    insertAll vs fuel l s.forget = (insertAll vs fuel l s >>= fun s' => .ok s'.forget) := by
  induction l generalizing s with
  | nil => rfl
  | cons v l ih =>
    simp only [insertAll]
    rw [insertVertex_forget]
    cases insertVertex vs fuel s v with
    | err e => rfl
    | panic => rfl
    | diverge => rfl
    | ok s' => simp only [Res.ok_bind]; exact ih s'

/-- The mesh built by the unconstrained entry point (which passes no merge mapping) is the mesh built by
the constrained one. -/
theorem wrapAndTriangulate_forget (fuel bins : Nat) (vs : List (Vtx F)) (m : Option (List Nat)) :
    wrapAndTriangulate fuel bins vs none =
      (wrapAndTriangulate fuel bins vs m >>= fun s => .ok s.forget) := by
  unfold wrapAndTriangulate
  cases binSort bins vs with
  | err e => rfl
  | panic => rfl
  | diverge => rfl
  | ok sorted =>
    simp only [Res.ok_bind]
    cases sorted with
    | nil => rfl
    | cons first rest =>
      dsimp only
      cases lastId (initialTriangles first) with
      | err e => rfl
      | panic => rfl
      | diverge => rfl
      | ok tid =>
        simp only [Res.ok_bind]
        exact insertAll_forget vs fuel rest ⟨initialTriangles first, tid, m⟩

/-- **C11**: at most `2n + 2` output triangles, for every arithmetic, unconstrained and constrained. -/
theorem C11_output_bound (fuel : Nat) (bins : Nat → Nat) (vs : List (Vtx F))
    (hn : vs.length ≤ IdCfg.maxId + 1) (out : List Out) (h : triangulation2d fuel bins vs = .ok out) :
    out.length ≤ 2 * vs.length + 2 := by
  unfold triangulation2d at h
  split at h
  · simp at h; subst h; simp
  · simp only [Res.bind_eq_ok] at h
    obtain ⟨s, hs, h⟩ := h
    simp at h; subst h
    rw [wrapAndTriangulate_forget _ _ _ (some ((List.range vs.length).map toId)), Res.bind_eq_ok] at hs
    obtain ⟨s1, h1, hs⟩ := hs
    simp at hs; subst hs
    obtain ⟨m, _, _, h3⟩ := C11_count fuel bins vs hn s1 h1
    have : (filterSeq s1.ts).length ≤ s1.ts.length := by
      generalize s1.ts = ts
      induction ts with
      | nil => simp [filterSeq]
      | cons t ts ih => unfold filterSeq; split <;> simp <;> omega
    simp only [DT.forget]; omega

/-- Non-vacuity of `C11`: 5 vertices of which one is a duplicate: `2 * 4 + 2` triangles. -/
example : (letI := u32Cfg; (wrapAndTriangulate 100 1
    (normalizeVerts (Witness.pts [(0,0),(0,5),(5,5),(5,0),(5,5)]))
    (some ((List.range 5).map toId)) >>= fun s => .ok (s.ts.length, s.merge)))
    = .ok (10, some [0,1,4,3,4]) := by decide +kernel

/-! ## C39 -/

/-- **C39**: up to `maxId - 3` vertices, no vertex id is taken for an infinite vertex … -/
theorem C39_vertex_ids (n i : Nat) (hn : n + 3 ≤ IdCfg.maxId) (hi : i < n) :
    toId i = i ∧ isInf (toId i) = false ∧ isFin (toId i) = true := by
  have h : toId i = i := Nat.mod_eq_of_lt (by omega)
  rw [h]
  simp only [isInf_false_iff, isFin_iff, INF0]
  refine ⟨trivial, ?_, ?_⟩ <;> omega

/-- … with one vertex more a real vertex is. -/
theorem C39_vertex_ids_tight : ∃ i, i < IdCfg.maxId - 2 ∧ isInf (toId i) = true := by
  have := IdCfg.big
  refine ⟨IdCfg.maxId - 3, by omega, ?_⟩
  have h : toId (IdCfg.maxId - 3) = IdCfg.maxId - 3 := Nat.mod_eq_of_lt (by omega)
  rw [h]; simp [isInf, INF0]

/-- **C39**: the five sentinels are distinct as vertices (four) and `NONE` is above every triangle id of
any run on `n` vertices with `2n + 2 ≤ maxId`, for every arithmetic; new triangle ids never wrap. -/
theorem C39_triangle_ids (fuel bins : Nat) (vs : List (Vtx F)) (hn : 2 * vs.length + 2 ≤ IdCfg.maxId)
    (first : Nat) (pre suf : List Nat) (hs : binSort bins vs = .ok (first :: pre ++ suf)) (s : DT)
    (h : insertAll vs fuel pre ⟨initialTriangles first, 3, some (List.range vs.length)⟩ = .ok s) :
    s.ts.length ≤ IdCfg.maxId ∧ (∀ i, i < s.ts.length → toId i = i ∧ i ≠ NONE) ∧
    (suf ≠ [] → s.ts.length + 2 ≤ IdCfg.maxId ∧ nextId s.ts = s.ts.length ∧
      addId (nextId s.ts) 1 = .ok (s.ts.length + 1)) := by
  obtain ⟨m, _, _, h3⟩ := C11_state_count fuel bins vs (by omega) first pre suf hs s h
  have hl := (binSort_lt hs).1
  simp at hl
  refine ⟨by omega, fun i hi => ⟨Nat.mod_eq_of_lt (by omega), by unfold NONE; omega⟩, ?_⟩
  intro hsuf
  have : 1 ≤ suf.length := List.length_pos_iff.2 hsuf
  have he : nextId s.ts = s.ts.length := Nat.mod_eq_of_lt (by omega)
  refine ⟨by omega, he, ?_⟩
  rw [he]; unfold addId; rw [if_pos (by omega)]

theorem C39_sentinels_distinct : INF0 < INF1 ∧ INF1 < INF2 ∧ INF2 < INF3 ∧ INF3 = IdCfg.maxId := by
  have := IdCfg.big
  simp only [INF0, INF1, INF2, INF3]
  refine ⟨?_, ?_, ?_, trivial⟩ <;> omega

/-- **C39**, capacity: when the triangle ids are exhausted, the next split panics instead of reusing
ids (debug profile). -/
theorem C39_capacity (ts : List Tri) (t p : Nat) (h : ts.length = IdCfg.maxId) :
    split3 ts t p = .panic := by
  have he : nextId ts = IdCfg.maxId := by
    unfold nextId toId; rw [h]; exact Nat.mod_eq_of_lt (by omega)
  unfold split3
  simp only [he]
  have : addId IdCfg.maxId 1 = .panic := by unfold addId; rw [if_neg (by omega)]
  rw [this]; rfl

example : (letI := u32Cfg; INF0) = 4294967292 ∧ (letI := u64Cfg; INF0) = 18446744073709551612 := by
  decide +kernel

end CDT

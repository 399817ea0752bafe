import Verif.Model.Viewer
import Verif.Props.PanicC
import Verif.Witness.Upstream

/-!
# C88: loading polylines
-/

set_option linter.unusedSectionVars false
set_option linter.unusedVariables false

namespace CDT

/-- `e` joins two consecutive points of a part, counted over all parts. -/
def Spec.Consecutive {P : Type} (parts : List (List P)) (e : Edge) : Prop :=
  ∃ pre part post i, parts = pre ++ part :: post ∧ i + 1 < part.length ∧ e = ⟨pre.flatten.length + i, pre.flatten.length + i + 1⟩

section
variable [IdCfg] {P : Type}

theorem loadParts_spec (all : List (List P)) (hn : all.flatten.length ≤ IdCfg.maxId + 1) :
    ∀ (parts pre : List (List P)) (es : List Edge), all = pre ++ parts → (pre = [] → parts.head? ≠ some []) → (pre ≠ [] → pre.flatten ≠ []) →
    (∀ e, e ∈ es ↔ Spec.Consecutive pre e) → es.Nodup →
    ∃ es', loadParts parts (pre.flatten, es) = .ok (all.flatten, es') ∧ (∀ e, e ∈ es' ↔ Spec.Consecutive all e) ∧ es'.Nodup := by
  intro parts
  induction parts with
  | nil =>
    intro pre es he _ _ hes hd
    rw [List.append_nil] at he
    subst he
    exact ⟨es, rfl, hes, hd⟩
  | cons part parts ih =>
    intro pre es he h1 h2 hes hd
    have hpos : 0 < (pre.flatten ++ part).length := by
      by_cases hp : pre = []
      · have := h1 hp
        simp only [List.head?_cons, ne_eq, Option.some.injEq] at this
        have := List.length_pos_iff.2 this
        simp; omega
      · have := List.length_pos_iff.2 (h2 hp)
        rw [List.length_append]; omega
    have hle : (pre.flatten ++ part).length ≤ IdCfg.maxId + 1 := by
      refine Nat.le_trans ?_ hn
      rw [he]
      simp
    have hmem : ∀ e, e ∈ (List.range' pre.flatten.length ((pre.flatten ++ part).length - 1 - pre.flatten.length)).map
        (fun i => (⟨toId i, toId (i + 1)⟩ : Edge)) ↔ ∃ i, i + 1 < part.length ∧ e = ⟨pre.flatten.length + i, pre.flatten.length + i + 1⟩ := by
      intro e
      simp only [List.mem_map, List.mem_range'_1]
      constructor
      · rintro ⟨i, ⟨ha, hb⟩, rfl⟩
        rw [List.length_append] at hb hle
        refine ⟨i - pre.flatten.length, by omega, ?_⟩
        unfold toId
        rw [Nat.mod_eq_of_lt (by omega), Nat.mod_eq_of_lt (by omega)]
        congr 1 <;> omega
      · rintro ⟨i, hi, rfl⟩
        rw [List.length_append] at *
        refine ⟨pre.flatten.length + i, ⟨by omega, by omega⟩, ?_⟩
        unfold toId
        rw [Nat.mod_eq_of_lt (by omega), Nat.mod_eq_of_lt (by omega)]
    have hsplit : ∀ e, Spec.Consecutive (pre ++ [part]) e ↔ Spec.Consecutive pre e ∨
        ∃ i, i + 1 < part.length ∧ e = ⟨pre.flatten.length + i, pre.flatten.length + i + 1⟩ := by
      intro e
      constructor
      · rintro ⟨a, b, c, i, h, hi, rfl⟩
        rcases List.eq_nil_or_concat c with rfl | ⟨c', x, rfl⟩
        · have := List.append_inj' h (by simp)
          obtain ⟨rfl, hb⟩ := this
          simp only [List.cons.injEq, and_true] at hb
          subst hb
          exact .inr ⟨i, hi, rfl⟩
        · rw [List.concat_eq_append, ← List.cons_append, ← List.append_assoc] at h
          have := List.append_inj' h (by simp)
          exact .inl ⟨a, b, c', i, this.1, hi, rfl⟩
      · rintro (⟨a, b, c, i, rfl, hi, rfl⟩ | ⟨i, hi, rfl⟩)
        · exact ⟨a, b, c ++ [part], i, by simp, hi, rfl⟩
        · exact ⟨pre, part, [], i, rfl, hi, rfl⟩
    rw [loadParts, subI]
    rw [if_neg (by simp only; omega)]
    simp only [Res.ok_bind]
    have := ih (pre ++ [part]) (es ++ (List.range' pre.flatten.length ((pre.flatten ++ part).length - 1 - pre.flatten.length)).map
        (fun i => (⟨toId i, toId (i + 1)⟩ : Edge))) (by rw [he]; simp) (by simp) ?_ ?_ ?_
    · simpa using this
    · intro _
      rw [← List.length_pos_iff]
      simpa using hpos
    · intro e
      rw [List.mem_append, hes, hmem, hsplit]
    · rw [List.nodup_append]
      refine ⟨hd, ?_, ?_⟩
      · refine List.Nodup.map_on ?_ (List.nodup_range')
        intro i hi j hj h
        rw [List.mem_range'_1] at hi hj
        simp only [Edge.mk.injEq, toId] at h
        rw [Nat.mod_eq_of_lt (by omega), Nat.mod_eq_of_lt (by omega)] at h
        exact h.1
      · intro a ha b hb hab
        subst hab
        obtain ⟨u, v, w, i, rfl, hi, rfl⟩ := (hes a).1 ha
        obtain ⟨j, hj, e⟩ := (hmem _).1 hb
        simp only [Edge.mk.injEq] at e
        have : (u ++ v :: w).flatten.length = u.flatten.length + (v.length + w.flatten.length) := by simp
        omega

/-- **C88**: the loader fails exactly when the first part has no points. -/
theorem C88_fails (parts : List (List P)) (hn : parts.flatten.length ≤ IdCfg.maxId + 1) :
    loadParts parts ([], []) = .panic ↔ parts.head? = some [] := by
  by_cases h : parts.head? = some []
  · refine iff_of_true ?_ h
    cases parts with
    | nil => simp at h
    | cons a l =>
      simp only [List.head?_cons, Option.some.injEq] at h
      subst h
      simp [loadParts, subI]
  · refine iff_of_false ?_ h
    obtain ⟨es, e, -⟩ := loadParts_spec parts hn parts [] [] rfl (fun _ => h) (fun h => absurd rfl h) (by
      intro e; simp [Spec.Consecutive]) (by simp)
    have e' : loadParts parts ([], []) = .ok (parts.flatten, es) := e
    rw [e']
    simp

/-- **C88**: the loader gives the points of all parts in order; the constraints are the pairs of consecutive points of a part,
each once. They name two different existing points, which are the neighbors in the part. -/
theorem C88_load (parts : List (List P)) (hn : parts.flatten.length ≤ IdCfg.maxId + 1) (vs : List P) (es : List Edge)
    (h : loadParts parts ([], []) = .ok (vs, es)) :
    vs = parts.flatten ∧ es.Nodup ∧ (∀ e, e ∈ es ↔ Spec.Consecutive parts e) ∧
    ∀ e ∈ es, e.src < vs.length ∧ e.dst < vs.length ∧ e.src ≠ e.dst ∧
      ∃ part ∈ parts, ∃ i, i + 1 < part.length ∧ vs[e.src]? = part[i]? ∧ vs[e.dst]? = part[i + 1]? := by
  have hp : parts.head? ≠ some [] := by
    intro hp
    rw [(C88_fails parts hn).2 hp] at h
    simp at h
  obtain ⟨es', e, hm, hd⟩ := loadParts_spec parts hn parts [] [] rfl (fun _ => hp) (fun h => absurd rfl h) (by
      intro e; simp [Spec.Consecutive]) (by simp)
  have e' : loadParts parts ([], []) = .ok (parts.flatten, es') := e
  rw [e'] at h
  simp only [Res.ok.injEq, Prod.mk.injEq] at h
  obtain ⟨rfl, rfl⟩ := h
  refine ⟨rfl, hd, hm, fun e he => ?_⟩
  obtain ⟨pre, part, post, i, rfl, hi, rfl⟩ := (hm e).1 he
  have hl : (pre ++ part :: post).flatten.length = pre.flatten.length + (part.length + post.flatten.length) := by simp
  refine ⟨by simp only; omega, by simp only; omega, by simp only; omega, part, by simp, i, hi, ?_, ?_⟩
  · simp only [List.flatten_append, List.flatten_cons]
    rw [List.getElem?_append_right (by omega), List.getElem?_append_left (by omega)]
    congr 1; omega
  · simp only [List.flatten_append, List.flatten_cons]
    rw [List.getElem?_append_right (by omega), List.getElem?_append_left (by omega)]
    congr 1; omega

end

section
variable {K : Type} [Field K] [LinearOrder K] [IsStrictOrderedRing K] [FloorRing K] [ExactParams K] [IdCfg]

/-- **C88**: on what was loaded the constrained triangulation can only panic for the reason of C65 that depends on the geometry, never
because of a constraint that names a missing vertex. -/
theorem C88_panic (fuel : Nat) (bins : Nat → Nat) (parts : List (List (Vtx K))) (vs : List (Vtx K)) (es : List Edge)
    (hl : loadParts parts ([], []) = .ok (vs, es)) (hn : parts.flatten.length ≤ IdCfg.maxId + 1)
    (h : Good fuel bins vs) (h3 : 3 ≤ vs.length) :
    constrained2d fuel bins vs es = .panic ↔
      ∃ pre e post s s', es = pre ++ e :: post ∧ ConstraintState fuel (bins vs.length) (normalizeVerts vs) pre s s' ∧
        ArtificialApex (normalizeVerts vs) fuel (s.merge.getD []) e s' := by
  obtain ⟨-, -, -, hr⟩ := C88_load parts hn vs es hl
  exact C65_exact fuel bins vs h h3 es fun e he => ⟨(hr e he).1, (hr e he).2.1⟩

end

/-! ## Concrete cases -/

section
open Witness
local instance loaderCfg : IdCfg := u32Cfg

/-- An open and a closed polyline, and a part with a single point. -/
example : loadParts [[10, 11, 12], [20], [30, 31, 30]] ([], []) =
    .ok ([10, 11, 12, 20, 30, 31, 30], [⟨0, 1⟩, ⟨1, 2⟩, ⟨4, 5⟩, ⟨5, 6⟩]) := by decide +kernel

/-- An empty part is harmless unless it is the first. -/
example : loadParts [[10, 11], [], [20, 21]] ([], []) = .ok ([10, 11, 20, 21], [⟨0, 1⟩, ⟨2, 3⟩]) := by decide +kernel
example : loadParts [[], [10, 11]] ([], []) = .panic := by decide +kernel

/-- A loaded ring and a loaded segment are triangulated. -/
example : (loadParts [fpts [(0,0),(0,4),(4,4),(4,0),(0,0)], fpts [(6,6),(7,8)]] ([], []) >>= fun r => constrained2d 200 defaultBins r.1 r.2) =
    .ok [(2, 3, 4), (1, 2, 4), (5, 6, 3), (5, 3, 2), (5, 2, 1), (5, 1, 6)] := by decide +kernel

end
end CDT

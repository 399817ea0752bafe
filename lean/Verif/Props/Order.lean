import Verif.Proofs.Relabel
import Verif.Geo.Norm
import Verif.Props.Delaunay

/-! C54 (insertion order) and C55 (order of the input). -/

namespace CDT.Spec

/-- Row `y` of a grid of width `n`, walked to the right on even rows and to the left on odd ones. -/
def snakeRow (n y : Nat) : List (Nat × Nat) :=
  let row := (List.range n).map fun x => (x, y)
  if y % 2 = 0 then row else row.reverse

/-- The cells of an `n` by `n` grid in boustrophedon order. -/
def snake (n : Nat) : List (Nat × Nat) := (List.range n).flatMap (snakeRow n)

/-- Two cells share a side. -/
def Beside (a b : Nat × Nat) : Prop :=
  (a.1 = b.1 ∧ (a.2 + 1 = b.2 ∨ b.2 + 1 = a.2)) ∨ (a.2 = b.2 ∧ (a.1 + 1 = b.1 ∨ b.1 + 1 = a.1))

end CDT.Spec

namespace CDT
open FloatOps

theorem snakeRow_getElem? (n y j : Nat) (hj : j < n) :
    (Spec.snakeRow n y)[j]? = some (if y % 2 = 0 then j else n - 1 - j, y) := by
  unfold Spec.snakeRow
  split
  · simp [hj]
  · simp [hj]

theorem snakeRow_length (n y : Nat) : (Spec.snakeRow n y).length = n := by
  unfold Spec.snakeRow; split <;> simp

theorem rows_length (n m : Nat) : ((List.range m).flatMap (Spec.snakeRow n)).length = m * n := by
  induction m with
  | zero => simp
  | succ m ih =>
    rw [List.range_succ, List.flatMap_append, List.length_append, ih]
    simp [snakeRow_length, Nat.succ_mul]

theorem rows_getElem? (n m y j : Nat) (hy : y < m) (hj : j < n) :
    ((List.range m).flatMap (Spec.snakeRow n))[y * n + j]? = some (if y % 2 = 0 then j else n - 1 - j, y) := by
  induction m with
  | zero => omega
  | succ m ih =>
    rw [List.range_succ, List.flatMap_append]
    rcases Nat.lt_or_ge y m with h | h
    · have h1 : y * n + j < m * n := by
        calc y * n + j < y * n + n := by omega
          _ = (y + 1) * n := by rw [Nat.succ_mul]
          _ ≤ m * n := Nat.mul_le_mul_right _ h
      rw [List.getElem?_append_left (by rw [rows_length]; exact h1)]
      exact ih h
    · have : y = m := by omega
      subst this
      rw [List.getElem?_append_right (by rw [rows_length]; omega), rows_length]
      simp only [List.flatMap_cons, List.flatMap_nil, List.append_nil, Nat.add_sub_cancel_left]
      exact snakeRow_getElem? n y j hj

/-- **C54**: the bin numbers of the code enumerate the cells in boustrophedon order. -/
theorem C54_snake_index (n x y : Nat) (hx : x < n) (hy : y < n) :
    ∃ k, binIndexPos n x y = .ok k ∧ k < n * n ∧ (Spec.snake n)[k]? = some (x, y) := by
  have hle : (y + 1) * n ≤ n * n := Nat.mul_le_mul_right _ hy
  have e : (y + 1) * n = y * n + n := Nat.succ_mul y n
  unfold binIndexPos
  split
  · rename_i h
    refine ⟨_, rfl, by omega, ?_⟩
    rw [Spec.snake, rows_getElem? n n y x hy hx, if_pos h]
  · rename_i h
    rw [if_pos (by omega)]
    refine ⟨_, rfl, by omega, ?_⟩
    have : (y + 1) * n - x - 1 = y * n + (n - 1 - x) := by omega
    rw [this, Spec.snake, rows_getElem? n n y (n - 1 - x) hy (by omega), if_neg h]
    congr 2; omega

/-- **C54**: consecutive bins are adjacent cells. -/
theorem C54_snake_adjacent (n k : Nat) (a b : Nat × Nat) (ha : (Spec.snake n)[k]? = some a)
    (hb : (Spec.snake n)[k + 1]? = some b) : Spec.Beside a b := by
  have hl : k + 1 < n * n := by
    have := (List.getElem?_eq_some_iff.1 hb).1
    rwa [Spec.snake, rows_length] at this
  have hn : 0 < n := by
    rcases Nat.eq_zero_or_pos n with h | h
    · subst h; omega
    · exact h
  have hr : ∀ k, k < n * n → (Spec.snake n)[k]? = some (if (k / n) % 2 = 0 then k % n else n - 1 - k % n, k / n) := by
    intro k hk
    have := rows_getElem? n n (k / n) (k % n) (Nat.div_lt_of_lt_mul hk) (Nat.mod_lt _ hn)
    rwa [Nat.div_add_mod'] at this
  rw [hr k (by omega), Option.some.injEq] at ha
  rw [hr (k + 1) hl, Option.some.injEq] at hb
  subst ha; subst hb
  have hm := Nat.mod_lt k hn
  have e := Nat.div_add_mod k n
  unfold Spec.Beside
  rcases Nat.lt_or_ge (k % n + 1) n with h | h
  · have h1 : (k + 1) / n = k / n := by
      rw [← e, Nat.add_assoc, Nat.mul_add_div hn, Nat.mul_add_div hn, Nat.div_eq_of_lt h, Nat.div_eq_of_lt hm]
    have h2 : (k + 1) % n = k % n + 1 := by
      conv_lhs => rw [← e, Nat.add_assoc, Nat.mul_add_mod, Nat.mod_eq_of_lt h]
    rw [h1, h2]
    clear h1 h2 hr e hl
    generalize k / n = q
    generalize k % n = r at *
    by_cases hq : q % 2 = 0
    · rw [if_pos hq, if_pos hq]; right; exact ⟨rfl, .inl rfl⟩
    · rw [if_neg hq, if_neg hq]; right; exact ⟨rfl, .inr (by simp only; omega)⟩
  · have hk : k + 1 = n * (k / n + 1) := by rw [Nat.mul_add]; omega
    have h1 : (k + 1) / n = k / n + 1 := by rw [hk, Nat.mul_div_cancel_left _ hn]
    have h2 : (k + 1) % n = 0 := by rw [hk, Nat.mul_mod_right]
    rw [h1, h2]
    clear h1 h2 hr e hl hk
    generalize k / n = q
    generalize k % n = r at *
    by_cases hq : q % 2 = 0
    · rw [if_pos hq, if_neg (show ¬ (q + 1) % 2 = 0 by omega)]; left; exact ⟨by simp only; omega, .inl rfl⟩
    · rw [if_neg hq, if_pos (show (q + 1) % 2 = 0 by omega)]; left; exact ⟨by simp only; omega, .inl rfl⟩

section
variable {F : Type} [FloatOps F] [IdCfg]

/-- The cell that the code computes for a position. -/
def cellOf (bins : Nat) (v : Vtx F) : Nat × Nat :=
  (toUsize (mul (mul c099 (ofNat bins)) v.x), toUsize (mul (mul c099 (ofNat bins)) v.y))

/-- **C54**, any arithmetic: the vertices are inserted cell by cell along the boustrophedon path, and by decreasing id in
each cell. -/
theorem C54_order (bins : Nat) (vs : List (Vtx F)) (hn : vs.length ≤ IdCfg.maxId + 1) (out : List Nat)
    (hc : ∀ v ∈ vs, (cellOf bins v).1 < bins ∧ (cellOf bins v).2 < bins)
    (h : binSort bins vs = .ok out) :
    out.Perm (List.range vs.length) ∧
    out.Pairwise fun a b => ∃ v w, vs[a]? = some v ∧ vs[b]? = some w ∧ ∃ i j : Nat,
      (Spec.snake bins)[i]? = some (cellOf bins v) ∧ (Spec.snake bins)[j]? = some (cellOf bins w) ∧
      (i < j ∨ (i = j ∧ b < a)) := by
  refine ⟨binSort_perm hn h, (binSort_sorted hn h).imp ?_⟩
  rintro a b ⟨v, w, x, y, hv, hw, hx, hy, hxy⟩
  refine ⟨v, w, hv, hw, x, y, ?_, ?_, hxy⟩
  · obtain ⟨c1, c2⟩ := hc v (List.mem_of_getElem? hv)
    obtain ⟨k, hk, -, hs⟩ := C54_snake_index bins _ _ c1 c2
    have : binIndex bins v = .ok k := hk
    rw [hx, Res.ok.injEq] at this
    exact this ▸ hs
  · obtain ⟨c1, c2⟩ := hc w (List.mem_of_getElem? hw)
    obtain ⟨k, hk, -, hs⟩ := C54_snake_index bins _ _ c1 c2
    have : binIndex bins w = .ok k := hk
    rw [hy, Res.ok.injEq] at this
    exact this ▸ hs

/-- **C55**, any arithmetic: the same vertices in another order give the same result with renamed indices, if the bounding
box does not depend on the order and the reordering keeps the relative order inside each bin. All outcomes (result, panic,
non-termination) correspond. -/
theorem C55_reorder (fuel : Nat) (bins : Nat → Nat) (vs vs' : List (Vtx F)) (σ : Equiv.Perm Nat) (hn : vs.length ≤ INF0)
    (h : Reorder σ vs vs') (hbox : bbox vs' = bbox vs)
    (hord : ∀ (i j : Nat) v w b, (normalizeVerts vs)[i]? = some v → (normalizeVerts vs)[j]? = some w →
      binIndex (bins vs.length) v = .ok b → binIndex (bins vs.length) w = .ok b → i < j → σ i < σ j) :
    triangulation2d fuel bins vs' =
      (do let out ← triangulation2d fuel bins vs; .ok (out.map fun t => (σ t.1, σ t.2.1, σ t.2.2))) := by
  have hR : Reorder σ (normalizeVerts vs) (normalizeVerts vs') := by
    unfold normalizeVerts scaleFactor
    simp only [hbox]
    exact h.map _
  have hnl : (normalizeVerts vs).length = vs.length := by simp [normalizeVerts]
  unfold triangulation2d
  rw [h.len]
  split
  · rfl
  have h1 := hR.wrap (fuel := fuel) (hnl ▸ hn) hord
  have h2 := hR.symm.wrap (fuel := fuel) (bins := bins vs.length) (by rw [hR.len, hnl]; exact hn) (by
    intro i j v w b hv hw hb hb' hij
    by_contra hc
    have hne : σ.symm i ≠ σ.symm j := fun e => by have := σ.symm.injective e; omega
    have := hord (σ.symm j) (σ.symm i) w v b ((hR.symm.get j).trans hw) ((hR.symm.get i).trans hv) hb' hb (by omega)
    simp at this
    omega)
  simp only
  refine (RSim.both (f := fun o : List Out => o.map (outRen σ)) (S := fun _ _ => True) ?_ ?_)
  · refine h1.bind ?_
    rintro a b ⟨hab, -⟩
    simp only [RSim, hab]
    exact filterSeq_ren (hR.ren (hnl ▸ hn)) _
  · refine h2.bind ?_
    intro a b _
    trivial

end

variable {K : Type} [Field K] [LinearOrder K] [IsStrictOrderedRing K] [ExactParams K]

theorem cellOf_lt {bins : Nat} (hb : 1 ≤ bins) {v : Vtx K} (hv : Plane.InUnit v) :
    (cellOf bins v).1 < bins ∧ (cellOf bins v).2 < bins := by
  have key : ∀ x : K, 0 ≤ x → x ≤ 1 → ExactParams.toUsize (99 / 100 * (bins : K) * x) < bins := by
    intro x h0 h1
    have hbp : (0 : K) < bins := by exact_mod_cast hb
    have hnn : 0 ≤ 99 / 100 * (bins : K) * x := by positivity
    have := ExactParams.toUsize_le _ hnn
    have h2 : 99 / 100 * (bins : K) * x ≤ 99 / 100 * (bins : K) * 1 := mul_le_mul_of_nonneg_left h1 (by positivity)
    have : ((ExactParams.toUsize (99 / 100 * (bins : K) * x) : Nat) : K) < bins := by linarith
    exact_mod_cast this
  exact ⟨key v.x hv.1 hv.2.1, key v.y hv.2.2.1 hv.2.2.2⟩

/-- **C54**, exact arithmetic: for vertices of the unit square the sort succeeds with that order. -/
theorem C54_order_unit [IdCfg] (bins : Nat) (vs : List (Vtx K)) (hb : 1 ≤ bins) (hn : vs.length ≤ IdCfg.maxId + 1)
    (hu : ∀ v ∈ vs, Plane.InUnit v) :
    ∃ out, binSort bins vs = .ok out ∧ out.Perm (List.range vs.length) ∧
    out.Pairwise fun a b => ∃ v w, vs[a]? = some v ∧ vs[b]? = some w ∧ ∃ i j : Nat,
      (Spec.snake bins)[i]? = some (cellOf bins v) ∧ (Spec.snake bins)[j]? = some (cellOf bins w) ∧
      (i < j ∨ (i = j ∧ b < a)) := by
  obtain ⟨out, ho, -⟩ := C13_binSort_unit bins vs hb hn hu
  exact ⟨out, ho, C54_order bins vs hn out (fun v hv => cellOf_lt hb (hu v hv)) ho⟩

/-- In exact arithmetic the bounding box does not depend on the order of the vertices. -/
theorem bbox_perm {vs vs' : List (Vtx K)} (h : ∀ v, v ∈ vs' ↔ v ∈ vs) : bbox vs' = bbox vs := by
  obtain ⟨⟨a1, a2, a3⟩, ⟨b1, b2, b3⟩, ⟨c1, c2, c3⟩, ⟨d1, d2, d3⟩⟩ :=
    bboxLoop_spec vs (ExactParams.fmax, ExactParams.fmax, -ExactParams.fmax, -ExactParams.fmax)
  obtain ⟨⟨a1', a2', a3'⟩, ⟨b1', b2', b3'⟩, ⟨c1', c2', c3'⟩, ⟨d1', d2', d3'⟩⟩ :=
    bboxLoop_spec vs' (ExactParams.fmax, ExactParams.fmax, -ExactParams.fmax, -ExactParams.fmax)
  simp only [h] at a2' a3' b2' b3' c2' c3' d2' d3'
  have low : ∀ (f : Vtx K → K) (m r r' : K), r ≤ m → (∀ v ∈ vs, r ≤ f v) → (r = m ∨ ∃ v ∈ vs, f v = r) →
      r' ≤ m → (∀ v ∈ vs, r' ≤ f v) → (r' = m ∨ ∃ v ∈ vs, f v = r') → r' = r := by
    intro f m r r' h1 h2 h3 h1' h2' h3'
    apply le_antisymm
    · rcases h3 with e | ⟨v, hv, e⟩
      · rw [e]; exact h1'
      · rw [← e]; exact h2' v hv
    · rcases h3' with e | ⟨v, hv, e⟩
      · rw [e]; exact h1
      · rw [← e]; exact h2 v hv
  have high : ∀ (f : Vtx K → K) (m r r' : K), m ≤ r → (∀ v ∈ vs, f v ≤ r) → (r = m ∨ ∃ v ∈ vs, f v = r) →
      m ≤ r' → (∀ v ∈ vs, f v ≤ r') → (r' = m ∨ ∃ v ∈ vs, f v = r') → r' = r := by
    intro f m r r' h1 h2 h3 h1' h2' h3'
    apply le_antisymm
    · rcases h3' with e | ⟨v, hv, e⟩
      · rw [e]; exact h1
      · rw [← e]; exact h2 v hv
    · rcases h3 with e | ⟨v, hv, e⟩
      · rw [e]; exact h1'
      · rw [← e]; exact h2' v hv
  exact Prod.ext (low (·.x) _ _ _ a1 a2 a3 a1' a2' a3') (Prod.ext (low (·.y) _ _ _ b1 b2 b3 b1' b2' b3')
    (Prod.ext (high (·.x) _ _ _ c1 c2 c3 c1' c2' c3') (high (·.y) _ _ _ d1 d2 d3 d1' d2' d3')))

/-- **C55**, exact arithmetic: no hypothesis on the bounding box is needed. -/
theorem C55_reorder_exact [IdCfg] (fuel : Nat) (bins : Nat → Nat) (vs vs' : List (Vtx K)) (σ : Equiv.Perm Nat)
    (hn : vs.length ≤ INF0) (h : Reorder σ vs vs')
    (hord : ∀ (i j : Nat) v w b, (normalizeVerts vs)[i]? = some v → (normalizeVerts vs)[j]? = some w →
      binIndex (bins vs.length) v = .ok b → binIndex (bins vs.length) w = .ok b → i < j → σ i < σ j) :
    triangulation2d fuel bins vs' =
      (do let out ← triangulation2d fuel bins vs; .ok (out.map fun t => (σ t.1, σ t.2.1, σ t.2.2))) :=
  C55_reorder fuel bins vs vs' σ hn h (bbox_perm h.mem_iff) hord

/-- **C55**: when no bin holds two vertices, every order of the input gives the same triangulation. -/
theorem C55_any_order [IdCfg] (fuel : Nat) (bins : Nat → Nat) (vs vs' : List (Vtx K)) (σ : Equiv.Perm Nat)
    (hn : vs.length ≤ INF0) (h : Reorder σ vs vs')
    (hsep : ∀ (i j : Nat) v w b, (normalizeVerts vs)[i]? = some v → (normalizeVerts vs)[j]? = some w →
      binIndex (bins vs.length) v = .ok b → binIndex (bins vs.length) w = .ok b → i = j) :
    triangulation2d fuel bins vs' =
      (do let out ← triangulation2d fuel bins vs; .ok (out.map fun t => (σ t.1, σ t.2.1, σ t.2.2))) :=
  C55_reorder_exact fuel bins vs vs' σ hn h fun i j v w b hv hw hb hb' hij =>
    absurd (hsep i j v w b hv hw hb hb') (by omega)

end CDT

namespace CDT
section Example
local instance orderCfg : IdCfg := u32Cfg

/-- Nine cells, with three points in one of them: the hypotheses of `C54_order_unit` hold. -/
example : (∀ v ∈ Witness.pts [(0,0),(1,1),(1,0),(0,1),(1,1)], Plane.InUnit v) ∧
    binSort 3 (Witness.pts [(0,0),(1,1),(1,0),(0,1),(1,1)]) = .ok [0, 2, 3, 4, 1] ∧
    Spec.snake 3 = [(0,0),(1,0),(2,0),(2,1),(1,1),(0,1),(0,2),(1,2),(2,2)] := by
  refine ⟨?_, by decide +kernel, by decide +kernel⟩
  unfold Plane.InUnit
  decide +kernel

/-- Five points, the last two in the same bin. -/
def orderPts : List (Vtx ℚ) := Witness.pts [(0,0),(9,0),(0,7),(9,7),(8,7)]
/-- The first two exchanged. -/
def orderPts' : List (Vtx ℚ) := Witness.pts [(9,0),(0,0),(0,7),(9,7),(8,7)]

theorem order_reorder : Reorder (Equiv.swap 0 1) orderPts orderPts' := by
  refine ⟨fun i hi => Equiv.swap_apply_of_ne_of_ne ?_ ?_, fun i => ?_⟩
  · have : orderPts.length = 5 := by decide
    omega
  · have : orderPts.length = 5 := by decide
    omega
  · match i with
    | 0 => decide +kernel
    | 1 => decide +kernel
    | 2 => decide +kernel
    | 3 => decide +kernel
    | 4 => decide +kernel
    | i + 5 =>
      rw [Equiv.swap_apply_of_ne_of_ne (by omega) (by omega)]
      rfl

/-- The two corners that are exchanged lie in bins of their own. -/
theorem order_bins : ∀ (i j : Nat) v w b, (normalizeVerts orderPts)[i]? = some v → (normalizeVerts orderPts)[j]? = some w →
    binIndex 2 v = .ok b → binIndex 2 w = .ok b → i < j → Equiv.swap 0 1 i < Equiv.swap 0 1 j := by
  have hl : (normalizeVerts orderPts).length = 5 := by decide +kernel
  have hb : ∀ i, i < 5 → ∀ j, j < 5 → i < j →
      ((normalizeVerts orderPts)[i]?.map (binIndex 2) = (normalizeVerts orderPts)[j]?.map (binIndex 2)) →
      Equiv.swap 0 1 i < Equiv.swap 0 1 j := by decide +kernel
  intro i j v w b hv hw h1 h2 hij
  have hi := (List.getElem?_eq_some_iff.1 hv).1
  have hj := (List.getElem?_eq_some_iff.1 hw).1
  exact hb i (by omega) j (by omega) hij (by rw [hv, hw]; simp [h1, h2])

/-- `C55_reorder_exact` applies, to a run with three triangles. -/
example : triangulation2d 100 (fun _ => 2) orderPts' =
      (do let out ← triangulation2d 100 (fun _ => 2) orderPts
          .ok (out.map fun t => (Equiv.swap 0 1 t.1, Equiv.swap 0 1 t.2.1, Equiv.swap 0 1 t.2.2))) ∧
    (do let out ← triangulation2d 100 (fun _ => 2) orderPts; Res.ok out.length) = .ok 3 :=
  ⟨C55_reorder_exact 100 (fun _ => 2) orderPts orderPts' _ (by decide) order_reorder order_bins, by decide +kernel⟩

/-- The hypothesis of `C55_any_order`: the four corners of a rectangle lie in four different bins. -/
example : ∀ (i j : Nat) v w b, (normalizeVerts (orderPts.take 4))[i]? = some v →
    (normalizeVerts (orderPts.take 4))[j]? = some w → binIndex 2 v = .ok b → binIndex 2 w = .ok b → i = j := by
  have hl : (normalizeVerts (orderPts.take 4)).length = 4 := by decide +kernel
  have hb : ∀ i, i < 4 → ∀ j, j < 4 →
      ((normalizeVerts (orderPts.take 4))[i]?.map (binIndex 2) = (normalizeVerts (orderPts.take 4))[j]?.map (binIndex 2)) →
      i = j := by decide +kernel
  intro i j v w b hv hw h1 h2
  have hi := (List.getElem?_eq_some_iff.1 hv).1
  have hj := (List.getElem?_eq_some_iff.1 hw).1
  exact hb i (by omega) j (by omega) (by rw [hv, hw]; simp [h1, h2])

end Example
end CDT

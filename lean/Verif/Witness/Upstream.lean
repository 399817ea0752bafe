import Verif.Model.SoftFloat

/-!
# The model reproduces the expected outputs of the upstream tests

These are checks of the *translation* (tests, not proofs of properties): `/repo/src/lib.rs` (module
`tests`) and the unit tests of `/repo/src/utils.rs:371-462`, evaluated by the kernel over the rationals.
-/

namespace CDT.Witness
open CDT

/-- Integer points as rational vertices. -/
def pts (l : List (Int × Int)) : List (Vtx ℚ) := l.map fun p => ⟨p.1, p.2⟩

/-- The default configuration (`bin_vertex_density_power = 0.5`, `triangulation.rs:27`):
`round (n ^ (1/4))` is the number of `k ≥ 1` with `(k - 1/2)^4 ≤ n`
(`triangulation.rs:620-622`). -/
def defaultBins (n : Nat) : Nat :=
  ((List.range (n + 1)).filter fun k => decide ((2 * k + 1) ^ 4 ≤ 16 * n)).length

local instance : IdCfg := u32Cfg

example : defaultBins 3 = 1 ∧ defaultBins 5 = 1 ∧ defaultBins 6 = 2 ∧ defaultBins 39 = 2 ∧
    defaultBins 40 = 3 := by decide +kernel

/-- `delaunay_level_1` -/
example : triangulation2d 100 defaultBins (pts [(0,0),(0,5),(5,5),(5,0)])
    = .ok [(0,1,3),(1,2,3)] := by decide +kernel

/-- `delaunay_level_2` -/
example : triangulation2d 100 defaultBins (pts [(0,0),(0,10),(0,5),(5,0),(5,5),(5,10)])
    = .ok [(0,2,3),(2,4,3),(1,5,2),(5,4,2)] := by decide +kernel

/-- `constrained_delaunay_level_1`, `constrained_delaunay_level_2` -/
example : constrained2d 100 defaultBins (pts [(0,0),(0,5),(5,5),(5,0)]) [⟨0,2⟩]
    = .ok [(2,3,0),(2,0,1)] := by decide +kernel

/-- Integer points as IEEE `f64` vertices. -/
def fpts (l : List (Int × Int)) : List (Vtx F64) := l.map fun p => ⟨.mk _ p.1, .mk _ p.2⟩

/-- the same tests with `f64` rounding -/
example : triangulation2d 100 defaultBins (fpts [(0,0),(0,5),(5,5),(5,0)])
    = .ok [(0,1,3),(1,2,3)]
  ∧ triangulation2d 100 defaultBins (fpts [(0,0),(0,10),(0,5),(5,0),(5,5),(5,10)])
    = .ok [(0,2,3),(2,4,3),(1,5,2),(5,4,2)]
  ∧ constrained2d 100 defaultBins (fpts [(0,0),(0,5),(5,5),(5,0)]) [⟨0,2⟩]
    = .ok [(2,3,0),(2,0,1)] := by decide +kernel

/-- `constrained_delaunay_level_3`: many cocircular quadruples, the expected output depends on the
rounding of the coordinates `1/5`, `4/5`, so it is evaluated with `f64` rounding. -/
example : constrained2d 100 defaultBins
    (fpts [(0,0),(0,5),(5,5),(5,0),(4,1),(4,4),(1,4),(1,1)])
    [⟨0,1⟩,⟨1,2⟩,⟨2,3⟩,⟨3,0⟩,⟨4,5⟩,⟨5,6⟩,⟨6,7⟩,⟨7,4⟩]
    = .ok [(1,7,0),(3,0,7),(3,7,4),(2,3,4),(2,4,5),(6,2,5),(1,2,6),(1,6,7)] := by decide +kernel

/-- `triangulation_normalize_set_of_vertices` (`triangulation.rs:1099-1118`) -/
example : normalizeVerts (pts [(3,2),(-1,2),(-1,-2),(3,-2)]) = pts [(1,1),(0,1),(0,0),(1,0)] := by
  decide +kernel

/-- `edge_intersect_*` (`utils.rs:382-419`) -/
example : edgesIntersect ((⟨0,0⟩, ⟨3,0⟩) : EV ℚ) (⟨0,3⟩, ⟨3,3⟩) = .none
    ∧ edgesIntersect ((⟨0,0⟩, ⟨3,0⟩) : EV ℚ) (⟨1,-2⟩, ⟨1,3⟩) = .crossing
    ∧ edgesIntersect ((⟨0,0⟩, ⟨3,0⟩) : EV ℚ) (⟨1,0⟩, ⟨3,3⟩) = .onEdgeTip
    ∧ edgesIntersect ((⟨0,0⟩, ⟨3,0⟩) : EV ℚ) (⟨0,0⟩, ⟨3,3⟩) = .sharedEdges := by decide +kernel

/-- `point_edge_orientation_*`, `point_*_segment` (`utils.rs:422-461`) -/
example : rightSideOfEdge ((⟨0,0⟩, ⟨3,0⟩) : EV ℚ) ⟨0,3⟩ = false
    ∧ rightSideOfEdge ((⟨0,0⟩, ⟨3,0⟩) : EV ℚ) ⟨0,-3⟩ = true
    ∧ onSegment (⟨0,3⟩ : Vtx ℚ) ⟨0,0⟩ ⟨0,-3⟩ = true
    ∧ onSegment (⟨0,3⟩ : Vtx ℚ) ⟨8,0⟩ ⟨0,-3⟩ = false := by decide +kernel

end CDT.Witness

# Formal model of ghx_constrained_delaunay: design

Subject: the Rust crate in `/repo` (read as text, never built or run here).
Prover: Lean 4.33.0 with Mathlib; the Lake project is `/verif/lean`.

## 1. Trusted base

* The Lean kernel, and the axioms printed by `#print axioms` for every theorem of `MANIFEST.json`
  (`Verif/Audit.lean` prints them at build time): only `propext`, `Classical.choice`, `Quot.sound`.
* No axioms of our own, no `sorry`, no `native_decide`, no `bv_decide`. Concrete witnesses are evaluated by the kernel
  (`decide +kernel`). Laws of arithmetic are class fields (hypotheses) with proved instances, never axioms.
* The hand translation Rust -> Lean in `Verif/Model/*.lean`. Every definition cites file and lines. There is no
  extraction. The correspondence was checked by reading and by evaluating the model on the inputs of the upstream tests
  (`Verif/Witness/Upstream.lean`).
* The specification layer `Verif/Spec/*.lean` (section 3): what the words of the properties mean.

## 2. What is modelled

| Rust | Lean |
|---|---|
| `Float` (f32/f64), arbitrary | a type `F` with `[FloatOps F]`: named operations *without any law*. A theorem stated for every `FloatOps` holds for every rounding, NaN, overflow behaviour. |
| `Float`, exact | any linearly ordered field `K` with `[ExactParams K]` (an `EPSILON` > 0, `Float::MAX`, the saturating cast). `Rat` and `Real` are instances. |
| `Float`, rounded | `class Rounded F` (`Model/Rounded.lean`): laws of correctly rounded arithmetic (relative error `u`, exact comparisons, underflow and overflow thresholds). |
| `f64`, `f32` | `Fl binary64`, `Fl binary32` (`Model/SoftFloat.lean`): IEEE 754 round to nearest even, subnormals, overflow, infinities, NaN, `as usize`. Proved to meet the definition of IEEE 754 (C76). Proved instances of `Rounded`. One NaN; the sign of zero is not represented (the file says why it cannot be observed). |
| zero/NaN | `class NullLaws F` (`Proofs/Terminate.lean`): the few laws needed for termination; exact fields and every `Fl f` are instances. |
| `VertexId`, `TriangleId` (u32 / u64) | `Nat`, with the largest id a parameter `[IdCfg]`; both widths are instances. Casts `as IndexType` truncate explicitly. |
| `Vec<TriangleData>` | `List Tri`; out-of-bounds access is the explicit outcome `panic`. |
| `ArrayVec<_, 2>` | list whose third push is `panic`. |
| `VecDeque`, `Vec` used as stack | `List` (queue: append at the end, take the head; stack: cons). |
| `HashSet` | duplicate-free list used through membership only. |
| `Result`, panics, non-termination | `Res a = ok a / err e / panic / diverge`. Integer overflow is `panic` (debug profile). |
| `for _ in 0..count` | structural recursion on the count. |
| `while` loops | recursion on a fuel argument; running out of fuel is `diverge`. Termination theorems say that some fuel is enough; `Proofs/Fuel.lean` shows that more fuel never changes another outcome. |
| `powf` / `round` of the bin count | the resulting number of bins per row is a parameter (`Nat`); `Model/Density.lean` has the formula over the reals. |
| `Vertex2d`, `Vertex3d` | `Model/Inputs.lean`: the traits as classes, the generic entry points, the casts between the IEEE formats. All other modules take the input in the number type of the build. |
| rayon | an arbitrary recursive split of the buffer, results concatenated in order. |
| glam vector operations | written out on components. |
| `debug_context` feature | `Model/Debug.lean`: a second, instrumented transcription of the same functions. |

Not modelled: allocation failure, capacity hints, tracing/progress logging, error message texts (errors are an
enumeration), `HashSet` iteration order (never observed by the code). Of the programs around the crate (`examples`, `benchmarks`, `profiling`) the visual debugger and the
file loaders are modelled (`Model/Viewer.lean`), and so is the video player `bad_apple` (`Model/Player.lean`); cameras, materials and timing are not.

## 3. Specification layer

`Verif/Spec/*.lean` contains definitions that do not mention the model's helpers: orientation and in-circle
determinants, segments as sets of convex combinations, overlap, mesh edges, reachability of domains
(`Spec/Domain.lean`), far positions of the four symbolic directions (`Spec/Symbolic.lean`), robust inputs
(`Spec/Robust.lean`).

## 4. Proof architecture

1. *Homogeneous points* (`Geo/Homog`). A finite vertex is `(x,y,1)`; the four artificial vertices are directions
   `(-1,0,0) (0,1,0) (1,0,0) (0,-1,0)`. A triangle is `Pos` (clockwise) when minus the 3x3 determinant is positive; this
   covers finite and unbounded triangles uniformly. `Geo/Far`, `Geo/Wedge` connect it to far positions.
2. *Valid mesh* (`Geo/Mesh`) = all triangles `Pos` + symmetric adjacency (missing neighbor only on edges between two
   artificial vertices). Split in 3, split in 4 and swap preserve it (`Geo/Splits`, `Geo/Flip`).
3. *Separated* input (`Geo/Sep`): under exact arithmetic the code still compares with `EPSILON`; the theorems assume that
   every side-test value of normalized vertices is 0 or at least `EPSILON`. This holds for all integer grids of extent `W`
   with `W*W*EPSILON <= 1` (proved). `Good fuel bins vs` collects the hypotheses of a whole run.
4. *Tiling* (`Geo/Tile`): a generic point lies in exactly one triangle of the mesh; preserved by all three operations.
   Gives non-overlap and uniqueness of directed edges.
5. *Constraints* (`Geo/Cdt*`): queue entries always describe an existing edge; swaps only of strictly convex quads; the
   number of crossing edges gives termination; the chain of crossed triangles gives acceptance.
6. *Rounding* (`Geo/RoundErr`, `Geo/RoundRun`, `Geo/RoundIsect`): for *robust* inputs every predicate value computed in rounded arithmetic
   has the sign of the exact one (forward error analysis), so the rounded run takes the same decisions as an exact run and
   all exact theorems apply to it (`Props/Rounded`). On grids with a power of two as extent (`Geo/RoundGrid`) nothing is
   rounded at all, degenerate positions included. `Geo/AgreeC` and `Props/RoundedC` do the same for the constraint phase.
7. *Termination in every arithmetic* (`Proofs/Terminate`): potential = stack + weighted number of triangles without the
   inserted vertex; no geometric or adjacency invariant is needed.
8. Properties that are false of the code are recorded as theorems of their negation (`*_refuted`, `Props/Refuted`,
   `Props/Rounding`) with a kernel-checked witness, together with the strongest `_partial` theorem obtained.

A property is `proved` when a theorem covers its whole quantifier. It is `partial` when the theorem needs a hypothesis the
quantifier does not mention (mostly: exact arithmetic, or robust inputs) or when the statement is false of the code.

## 5. Properties

Theorem names and exact status: `MANIFEST.json`.

| id | model and proof |
|---|---|
| C01 | any arithmetic: unfold the guard of the four entry points |
| C02 | any arithmetic: invariant "ids in the mesh are inserted vertices or artificial", filters keep finite ones |
| C03 | exact+separated: `Pos` invariant, transported back through the normalization; rounded: robust inputs; f64 witness that separation is needed |
| C04, C05, C34 | exact+separated: tiling + perturbation; rounded: robust inputs; false in f64 (witness) |
| C06 | false (witness, exact and f64): the output need not be Delaunay; proved: local property after every insertion |
| C07 | false (witness, exact and f64): empty result for 3 non-collinear points is possible; proved: a generic point is in exactly one output triangle or in a dropped unbounded one |
| C08, C33, C35 | exact+separated and rounded+robust; false in f64 (witness) |
| C09 | every arithmetic with `NullLaws` (exact, IEEE incl. NaN), every input: potential |
| C10 | exact+separated and rounded+robust; false in f64 (witness of a panic, default configuration) |
| C11 | any arithmetic (count 2m+2), exact and rounded+robust for the sharper bound |
| C12 | any split tree |
| C13 | any arithmetic: permutation; exact and rounded: success |
| C14 | exact: similarity; false in f64 (witness) |
| C15 | exact: equality of complete outcomes; false in f64 for scaling by 3 (witness) |
| C16 | over the reals: the computed frame is orthonormal (Gram identities); in `f64` the claim is false, `C16_planar_refuted` (`Props/PlanarF64`) evaluates the projection of three collinear points |
| C17, C18 | exact: case analysis against convex combinations / determinants |
| C19 | over the reals: counts |
| C20, C21, C22 | any arithmetic: simulation |
| C23, C24, C25 | any mesh: flood fill against reachability; bound by mesh size |
| C26 | any mesh, any arithmetic: the restoration loop of the constrained phase is bounded |
| C27 | exact+separated: number of crossings decreases; rounded+robust; false in f64 (witness of an endless loop) |
| C28 | exact+separated and rounded+robust if no constraint crosses an unbounded edge; else false (witness of a panic) |
| C29 | exact+separated and rounded+robust if no constraint crosses an unbounded edge; false in f64 (witness) |
| C30 | exact: the phase preserves validity; exact+separated and rounded+robust: whole run |
| C31 | exact and rounded+robust: a present edge survives; false in f64 (witness) |
| C32 | exact: soundness of each placement answer |
| C36 | exact: far positions |
| C37, C38 | any arithmetic: simulation between the plain and the instrumented transcription |
| C39 | arithmetic of id widths |
| C40 | any mesh, any arithmetic: explicit bounds of the search loops |
| C41 | false (witness, exact and f64): the walk can cycle; proved: a failure means that it did |
| C42 | IEEE formats: `rnd` commutes with powers of two on multiples of the smallest number (`Proofs/Ieee`), so the normalized coordinates are equal |
| C43 | IEEE formats: invariant of the bounding box loop over all values, monotone rounding |
| C44 | `Geo/RoundGrid`: on a grid of `2^k` steps with `4k+3` digits available every predicate is computed without error; then as for robust inputs |
| C45 | exact and rounded+robust from C03/C30; any IEEE input from C47 if no mesh of the run has a doubled triangle; false in f64 (witness) |
| C47 | `Comb/Mesh`, `Comb/Run`: the invariant of the mesh without geometry (distinct vertices, symmetric neighbors, no two triangles with the same vertices); splits keep it, a swap breaks it only by making a doubled triangle. `Proofs/Panic`: every other indexing and unwrap succeeds on every control path |
| C46 | `Model/Helpers`: the helpers not used elsewhere. Tables against the incidence of sides and corners; side tests over `Rounded` |
| C48 | exact: the signs of the two factors of the test on a line; the remark in the source refuted by evaluation |
| C49 | from C03/C30 (clockwise triangles need area); false in f64 (witness) |
| C50 | `Geo/RoundErr` bounds, stated against the lowest coordinate and the extent of the input |
| C51 | `Geo/NoCross`: two edges of a tiled mesh do not cross (a point near the crossing would be in two triangles), so registering a present edge finds nothing |
| C52 | `Spec/Planar` states planarity of triples over positions; proof from `Geo/NoCross` and `vert_of_in` |
| C53 | `Geo/Delaunay`: an insertion into a convex Delaunay mesh gives one (empty circles, by the power of a point); `Geo/Frame`: the corner mesh is one; `Geo/Acyclic`: walks in it do not come back (powers increase along a walk), so the search succeeds; `Geo/Corners`: the corner run equals the run on the unit square (`Proofs/Rename`), computed for all 24 orders and both id types; `Proofs/OneBin`: the order of insertion. `C53_default_bins_refuted`: with the default number of bins the claim is false (witness with 10 points) |
| C54 | `Proofs/BinOrder`: where the counting sort writes each vertex (`placeLoop_order`), hence its order; `Props/Order`: the bin numbers are the positions in `Spec.snake`, whose neighbours share a side. Any arithmetic. |
| C55 | `Proofs/Relabel`: the reordered list has the renamed insertion order (a sorted permutation is unique), then both runs simulate each other by `Proofs/Rename`. Any arithmetic; exact arithmetic for the bounding box. |
| C56 | `Props/Framed`: the bounded triangles cover the rectangle (C53), so no segment inside it crosses an unbounded edge; then the acceptance of C29. No condition on the mesh or on the run remains. |
| C57 | `Spec/Winding` (ray-crossing winding number, no reference to the mesh), `Geo/Winding` (constant off the segments, jumps by one across a segment), `Geo/Region` (flood fill = triangles of winding number one; a bounded set of triangles closed under neighbors does not exist; border sums), `Props/Polygon` (theorems, square with a hole). |
| C58 | `Props/Merge`: erasing the table from the state commutes with every step of the run, for lawless floats. |
| C59 | False as stated: `C59_delaunay_refuted` (10 grid points, one constraint, f64). `Spec/Local`, `Props/Restored`: true for every edge that the unconstrained Delaunay triangulation had, and for whole outputs if each constraint crosses at most one edge. |
| C60 | `Spec/Unique` (membership by position, empty discs), `Props/Unique`: two overlapping triangles with empty circles have the same circle (the difference of the powers is affine), so a triangle with an empty disc is the output triangle over its centroid; uses only the statement of C53. |
| C61 | `Model/Inputs` (the traits as classes, IEEE casts), `Props/Inputs`: the generic functions equal the others on the cast input; widening is exact because the numbers of `binary32` are numbers of `binary64` |
| C62 | `Props/Inputs`: the bounding box consists of input coordinates, a nonzero difference of two numbers never rounds to zero, and C43 |
| C63 | `Model/Density` (the formula over the reals), `Props/Density`: without bins the first counter access is out of bounds |
| C64 | `Proofs/Sqrt`: the modelled square root is a nearest number to the exact root, and the root of a rounded square is the number itself; `Props/Axis`: products with 0 and 1 are exact |
| C65 | `Proofs/PanicC`: ids, queue entries and the table stay in range through every step, so each index operation is safe except at the two named sites; `Props/PanicC` assembles the run |
| C66 | `Comb/Swap`, `Comb/Loop`: a swap of a queued edge keeps the mesh, the table and all queue entries correct, with no law of arithmetic; `Props/RootC` carries this through the run. `cleanCdt` checks a concrete run for the three causes |
| C67 | `Props/General`: predicates of integer points are integers, so nonzero values are at least 1, which is the margin `Plane.Robust` asks for |
| C68 | `Spec/Visible`, `Geo/Visible`, `Props/Visible`: walk along the line of sight; behind a locally Delaunay edge the circle of the next triangle contains the rest of the circle, and the last triangle has the vertex as a corner. Neighbors across unconstrained edges are output triangles by the flood fill (C23) and the tiling |
| C69 | `Props/UniqueC`: the constrained Delaunay triangulation (C68) of a region (C57) is unique: two overlapping triangles see the corners of each other from a common point, so their circles agree (the difference of the powers of a point is affine) |
| C70 | `Proofs/RelErr` (each operation with its accumulated error; the square root from C64), `Props/Project` (normalize, cross, dot; the exact frame preserves distances, C16) |
| C71 | The predicates evaluated on three positions only depend on the order of their coordinates, on their orientation and on which angle is obtuse (Geo/Three.lean). Necessary conditions on these signs are derived for every ordered field, a table of 265 integer triangles is checked to realise every combination that meets the conditions, and the run on three vertices is shown (simulation `Ren`) to be the run on the table entry with the same combination. The 265 runs are evaluated in the kernel for both index types; the quantification over all positions is by the sign argument, not by the table. |
| C72 | The run on the frame is the beginning of the run on all vertices (`Good.hull_run`: same bounding box, so the same normalised coordinates, simulation `Ren`). The hypothesis on the result of the frame is turned into a statement on its mesh (`HullMesh`): no unbounded triangle meets the region, not even near the region's boundary, and finite triangles have empty circles. The search from the triangles of the frame ends in a finite triangle (`HullMesh.found`): unbounded triangles that the walk meets are left across their finite edge, or turned around a corner in one direction only. After that C53's induction (insertVertex_inner) applies; it needs only that the search succeeds. |
| C73 | C56 and C59 only used two facts on the mesh of a framed run: a segment between vertices crosses no unbounded edge, and all vertices are on the inner side of the border edges. Both are derived from covering alone (`CoverMesh`, `reg_no_cross`, `Good.covering`): half-way between the finite end of an unbounded edge and a crossing point there would be a point of the region in an unbounded triangle. |
| C74 | The converse and the facts on results (clockwise, no vertex inside, no overlap) come from the mesh. The test implies covering by a walk: from an inner point towards any point of the hull, the triangle that is left through a side has a neighbor or the line of the side bounds all vertices (`covered_of_sides`, `Spec.InHull` by half-planes). Delaunay follows by Lawson's argument on the same walk (`delaunay_of_sides`). `hullCheck` and `neighborCheck` are programs for the two tests. |
| C75 | As C60, with the covering of the convex hull (C74) in place of a frame: the center of gravity of an empty triangle is in the hull and so in a result triangle, which has the same circle. |
| C76 | `Spec/IeeeRound` defines rounding to nearest even for a real number by the numbers of the format only; `Proofs/IeeeRound` proves that this definition has exactly one solution and that the rounding function of the model returns it (ties, overflow threshold, square roots included) |
| C77 | `Geo/Chain` and `Geo/ChainMesh` prove that the triangles at each artificial vertex form a convex chain after every insertion; `Geo/Box` that the chain of a direction starts and ends at the two corners of that side, so it runs along the side; `Props/Boxed` concludes with the test of C74 |
| C78 | `Geo/BoxCount` proves that every vertex on a side of the rectangle is on the chain of unbounded triangles of that side, that the chain has one triangle per vertex but its last, and that there are four triangles at the corners; `Props/BoxCount` combines this with the number of triangles of C11 and the merges of C08 |
| C79 | `Geo/Corner` proves that the vertex of the triangle between two neighboring artificial vertices has an empty quadrant, so that with the condition each convex chain of unbounded triangles starts and ends at extreme vertices and supports the hull; `Props/Corner` applies the hull test of C74; C77 is the case of a full rectangle (`Spec.Boxed.cornersExtreme`) |
| C80 | `Geo/Ortho`: a point in an unbounded triangle whose quadrants contain vertices contradicts the convexity of the chain of unbounded triangles (`link_absurd`) or the empty quadrant of the corner (`cone_empty`); a segment that crosses an unbounded edge contains such a point (`ChainMesh.no_cross`); `Props/Ortho` states this for inputs and combines it with C29 and C57 |
| C81 | `Geo/Outward`: where the border is convex, vertices outside it keep the empty circles (`restore_out`, `Emp.insert_out`); `Geo/OutSearch`: in every such mesh the search arrives from any triangle, also outside the border (`Emp.found`, by an order on the triangles that the walk follows); `Geo/Cause`: induction over the insertions (`insertAll_out`) and the gap at an edge that is not convex (`hull_gap`); `Props/Cause` states this for inputs |
| C82 | `Geo/KeepLocal`: two meshes with the same vertices, unbounded edges and constraints; an edge of both is locally Delaunay in the second if the first is constrained Delaunay (`Twin.keep`, by the visibility argument of C68); `Geo/OneFresh`: with at most two crossed edges only one edge is created besides the constraint (`Ins.one`, by counting edges), and the loop leaves it locally Delaunay (`insertEdge_two`); `Props/Stages`: induction over the constraints, the first bad stage, rounded arithmetic, an example. With three crossed edges it fails: `C82_sharp`, the witness of C59 |
| C83 | `Geo/HullCount`: every mesh has four triangles with two artificial vertices (`mesh_kinds`); a vertex on the border of the hull starts a side with an unbounded triangle, by the cycle of triangles around it (`Supp.start`), and exactly one if the hull is covered (`CoverMesh.start_unique`); with the count of all triangles (`Good.occ_count`, C11). `Props/HullCount`: positions, the certificate of C74, rounded arithmetic, an example |
| C84 | `Proofs/Tell`: rules in the style of Hoare for the code with a debug context (`Tells`), every function of `Model/Debug` is followed with the id invariants of C47 and C65; `Props/Snapshots` |
| C85 | `Proofs/Tell`: the same rules carry the relation between a snapshot and the triangles before it (`Spec.Delta`); `Props/Snapshots` |
| C86 | `Model/Viewer`: what is handed to the drawing library, as lists of points, lines and texts; `Proofs/Draw`: case analysis on which corners are artificial, loop invariants for batches, contours and bounds; `Props/Viewer`: combined with C84 |
| C87 | `Model/Viewer`, `Props/Viewer`: a transition system, induction over the keys |
| C88 | `Model/Viewer.loadParts`, `Props/Loader`: induction over the parts |
| C89 | specification `Spec.Paced`/`Spec.Insertion`/`Spec.Swaps` (`Proofs/Story`); `Story`: a rule for each construct of the recording monad, composed along the functions of `Model/Debug`; other configurations through C37 |
| C90 | `Model/Player`: a transition system over the frames and the viewer; `Props/Player`: an invariant (`Spec.Playing`) by induction over the events, combined with C86 and C89 |
| C91 | `Proofs/Shows`: `Shows`, a rule for each construct of the recording monad; every recorded state is reached from the four first triangles by splits and convex swaps (`Reach`), using the invariants of C33 and C41; specification `Spec.FillsPlane` in `Props/SnapValid`. In rounded arithmetic on robust inputs and grids the recorded run equals the exact one, snapshots included (`Proofs/AgreeD`, `Props/SnapRounded`) |
| C92 | `Props/Gabriel`: the difference of the powers of a point with respect to two circles is an affine function; on the triangle that contains the middle of the two vertices it is nonpositive, at the two vertices nonnegative (`edge_of_disc`); shortest connections have empty discs (`gabriel_of_shortest`); specification `Spec.GoodEdges`, `Spec.Joined` |
| C93 | `Props/GabrielC`: the line of sight does not pass through the inside of a triangle (`not_inside`, with the affine function of C92), so infinitely many of its points are on one side of a triangle, which is then the segment (`same_segment`); specification `Spec.SeesTwo`, `Spec.Visible` |
| C94 | `Props/Greedy`: weighted squared distances from two centers differ by the distance of the centers to the mean (`spread_mean`), which gives the optimality (`best_of_delaunay`); applied to a point close to the vertex in the direction of a nearer one (`exists_small`, by finite minima, no limits) it gives the nearer neighbor; specification `Spec.BestInterpolation`, `Spec.Searchable` |
| C95 | `Props/MinAngle`: for an angle at C opposite to A B, a triangle of the competitor at A that contains points next to A B has a corner on the side of C outside of the circle, whose angle is at most the one at C (`rival_corner`, `angle_le`, cotangents instead of angles); with constraints that corner is visible from a common inner point; specification `Spec.Rival`, `Spec.AnglesAtLeast`, `Spec.MaxMinAngle`, `Spec.MaxMinAngleC` |
| C96 | `Props/Enclosing`: the squared radius of the smallest circle around a triangle is the mean squared distance of its center to the corners with the center's own weights (`smallest_circle`); by C94 it is at most that of any other triangle that contains the center, which is at most the squared radius of any circle around that one; specification `Spec.FitsCircles`, `Spec.SmallestCircles`, `Spec.SmallestCirclesC` |
| C97 | `Props/RegionCount`: each clockwise triangle is entered from exactly one corner in one sense (`one_way`), points close to a position are in exactly one triangle (disjointness of C04/C30, emptiness of C52), covering from C57; winding numbers are constant close to points off the border (`winding_near`); specifications `Spec.ways`, `Spec.Oblique`, `Spec.Apart`, `Spec.Rival` |
| C98 | `Props/Persist`: `KeepsAway` through split, swap and restore in every arithmetic; `Tale` (values and snapshots of a run) with `degree_swap` from the star of the inserted vertex (`Comb.RInv`, `DInv`); `Spec.degree`, `Spec.SwapsCount`, `Spec.free` |
| C99 | `Props/Locality`: `Exactly` (the result is the set of empty triangles, covers the hull, no overlap) from C74/C75; `Spec.Passes`, `Spec.OneMore`, `Spec.OffVertexLines`; `Exactly.local`, `.oneMore`, `.cavity`, `.grow` |
| C100 | `Props/LocalityC`: `Spec.Finer`, `Spec.Untouched`; `CdtOf.overlap` (visibility in one result carries over to the other, `winding_triangle`), `CdtOf.stays`, `CdtOf.fresh`; runs through `Good.cdtOf` of C69 |
| C101 | `Props/Space`: `Spec.Oriented3`, `Spec.Disjoint3`, `Spec.Delaunay3`, `Spec.Covers3` speak of points in space only; `cramer3` and `dist_combo3` (points of a plane by areas), `Flat` (coordinates that keep distances and areas, from C16 and C64) carries the results C03, C04, C30, C53, C74 of the plane to space |
| C102 | `Props/Turn`: `winding_turn` (the crossing count of a closed polygon is the same for a ray in any direction, by fans of triangles), `Exactly.turn`, `Exactly.mirror`, `CdtOf.turn` carry the uniqueness results C68, C69, C74 through a similarity; `Flat.exactly3` describes the triangles in space by positions and empty spheres only |
| C103 | `Props/CountCert`: the ways into the triangles (C97) are counted against the ways into the inner of the convex hull (`inner_ways`: positions on the border lose one sense, the two extreme ones both); a side without neighbor that has a vertex on its outer side gives an oblique direction with an uncovered way (`exists_uncovered`) |
| C104 | `Props/SpaceC`: points of the plane and of the coordinates correspond by their areas with the vertices (`At3`), which is affine and determines the point, so lines of sight, constraints, spheres (C101) and areas carry over to C68 and C57 |

## 6. Seeded bugs

`seeded/LOG.jsonl` records edits of the model (in scratch copies), the claims they break and the theorems that failed.

{
 "claims": [
  {
   "property": "C01",
   "status": "proved",
   "theorems": [
    "CDT.C01_triangulation2d",
    "CDT.C01_constrained2d",
    "CDT.C01_triangulation3d",
    "CDT.C01_constrained3d",
    "CDT.C01_triangulation2dPar"
   ],
   "note": "any arithmetic"
  },
  {
   "property": "C02",
   "status": "proved",
   "theorems": [
    "CDT.C02_triangulation2d",
    "CDT.C02_constrained2d",
    "CDT.C02_3d"
   ],
   "note": "any arithmetic, any fuel; conclusion about successful runs"
  },
  {
   "property": "C03",
   "status": "proved",
   "theorems": [
    "CDT.C03_clockwise",
    "CDT.C03_needs_separation",
    "CDT.C03_rounded"
   ],
   "note": "exact arithmetic with separated predicates (as in the quantifier); kernel-checked f64 witness shows that the separation is needed. C03_rounded: the same for a run in correctly rounded arithmetic (instance: IEEE f64 and f32) on robust inputs"
  },
  {
   "property": "C04",
   "status": "partial",
   "theorems": [
    "CDT.C04_disjoint_partial",
    "CDT.C04_disjoint_refuted",
    "CDT.C04_rounded_partial"
   ],
   "note": "exact arithmetic with separated predicates; false in f64 (kernel-checked overlap). Also proved for a run in any correctly rounded arithmetic (instance: IEEE f64 and f32) when the input is robust (Plane.Robust) or lies on a grid (Plane.OnGrid): the *_rounded theorems. Missing: inputs that are not robust"
  },
  {
   "property": "C05",
   "status": "partial",
   "theorems": [
    "CDT.C05_manifold_partial",
    "CDT.C05_manifold_refuted",
    "CDT.C05_rounded_partial"
   ],
   "note": "exact arithmetic with separated predicates; false in f64 (kernel-checked directed edge in two triangles). Also proved for a run in any correctly rounded arithmetic (instance: IEEE f64 and f32) when the input is robust (Plane.Robust) or lies on a grid (Plane.OnGrid): the *_rounded theorems. Missing: inputs that are not robust"
  },
  {
   "property": "C06",
   "status": "partial",
   "theorems": [
    "CDT.C06_delaunay_partial",
    "CDT.C06_delaunay_refuted",
    "CDT.C35_rounded_partial",
    "CDT.C53_framed"
   ],
   "note": "the statement is false of the code, even in exact arithmetic (kernel-checked counterexample); proved instead: local Delaunay property around the inserted vertex after every insertion. C35_rounded: the same for correctly rounded arithmetic, robust inputs. C53_framed: true for framed inputs"
  },
  {
   "property": "C07",
   "status": "partial",
   "theorems": [
    "CDT.C07_cover_partial",
    "CDT.C07_hull_refuted",
    "CDT.C07_input_partial",
    "CDT.C07_rounded_partial"
   ],
   "note": "the statement is false of the code, even in exact arithmetic (kernel-checked counterexample); proved instead: a generic point is in exactly one output triangle or in a dropped unbounded one. C07_input: the same in input coordinates; C07_rounded: correctly rounded arithmetic, robust inputs"
  },
  {
   "property": "C08",
   "status": "partial",
   "theorems": [
    "CDT.C08_merged_or_inserted_partial",
    "CDT.C08_merged_or_inserted_refuted",
    "CDT.C08_rounded_partial"
   ],
   "note": "exact arithmetic with separated predicates; false in f64 (kernel-checked run that loses a vertex). Also proved for a run in any correctly rounded arithmetic (instance: IEEE f64 and f32) when the input is robust (Plane.Robust) or lies on a grid (Plane.OnGrid): the *_rounded theorems. Missing: inputs that are not robust"
  },
  {
   "property": "C09",
   "status": "proved",
   "theorems": [
    "CDT.C09_terminates",
    "CDT.C09_terminates_par",
    "CDT.C09_terminates_3d",
    "CDT.C09_terminates_fl",
    "CDT.C09_restore_bound"
   ],
   "note": "every input, in every arithmetic with the laws NullLaws of zero and NaN (instances: exact fields, IEEE f64); 12 n + 16 iterations of each restoration loop suffice, whatever the mesh; the number of vertices must fit the id type"
  },
  {
   "property": "C10",
   "status": "partial",
   "theorems": [
    "CDT.C10_no_panic_partial",
    "CDT.C10_rounded_partial",
    "CDT.C10_no_panic_refuted",
    "CDT.C53_framed"
   ],
   "note": "exact arithmetic with separated predicates; arbitrary rounding is not covered. Also proved for a run in any correctly rounded arithmetic (instance: IEEE f64 and f32) when the input is robust (Plane.Robust) or lies on a grid (Plane.OnGrid): the *_rounded theorems. Missing: inputs that are not robust. False in f64: kernel-checked panic on eleven integer points with the default configuration. C53_framed: success for framed inputs"
  },
  {
   "property": "C11",
   "status": "proved",
   "theorems": [
    "CDT.C11_state_count",
    "CDT.C11_count",
    "CDT.C11_count_constrained",
    "CDT.C11_output_bound",
    "CDT.C11_exact_bound",
    "CDT.C11_rounded"
   ],
   "note": "counts for any arithmetic; the 2n-2 bound for exact arithmetic with separated predicates. C11_rounded: the bound for correctly rounded arithmetic, robust inputs"
  },
  {
   "property": "C12",
   "status": "proved",
   "theorems": [
    "CDT.C12_filter",
    "CDT.C12_parallel_eq_sequential",
    "CDT.C12_filter_spec"
   ],
   "note": "rayon modelled by arbitrary split trees with ordered concatenation"
  },
  {
   "property": "C13",
   "status": "proved",
   "theorems": [
    "CDT.C13_binSort_perm",
    "CDT.C13_binSort_ok",
    "CDT.C13_zero_bins_panics",
    "CDT.C13_binSort_unit",
    "CDT.C13_rounded",
    "CDT.C43_binSort",
    "CDT.C54_order"
   ],
   "note": "permutation for any arithmetic; success for the unit square in exact arithmetic. C13_rounded: success in any correctly rounded arithmetic for every finite input whose extent does not overflow. C43_binSort: success for every IEEE input, infinities and NaN included. C54_order: the exact order"
  },
  {
   "property": "C14",
   "status": "partial",
   "theorems": [
    "CDT.C14_normalize_partial",
    "CDT.C14_normalize_refuted"
   ],
   "note": "exact arithmetic; false in f64 (three collinear points become non-collinear)"
  },
  {
   "property": "C15",
   "status": "partial",
   "theorems": [
    "CDT.C15_triangulation2d_partial",
    "CDT.C15_constrained2d_partial",
    "CDT.C15_scale_refuted",
    "CDT.C42_triangulation2d",
    "CDT.C42_constrained2d"
   ],
   "note": "exact arithmetic, equality of complete outcomes; false in f64 for scaling (kernel-checked). In IEEE arithmetic the claim holds for powers of two with representable images (C42)"
  },
  {
   "property": "C16",
   "status": "partial",
   "theorems": [
    "CDT.C16_planar_partial",
    "CDT.C16_planar_refuted"
   ],
   "note": "over the reals; false in f64 (kernel-checked: three collinear points of the plane z = 0 become a proper triangle and their distances change)"
  },
  {
   "property": "C17",
   "status": "proved",
   "theorems": [
    "CDT.C17_shared",
    "CDT.C17_tip",
    "CDT.C17_crossing",
    "CDT.C17_crossing_point",
    "CDT.C17_none",
    "CDT.C17_symm",
    "CDT.C17_reverse"
   ],
   "note": "exact arithmetic"
  },
  {
   "property": "C18",
   "status": "proved",
   "theorems": [
    "CDT.C18_inCircumcircle"
   ],
   "note": "exact arithmetic"
  },
  {
   "property": "C19",
   "status": "proved",
   "theorems": [
    "CDT.C19_degenerate",
    "CDT.C19_circumcircles",
    "CDT.C19_optimal"
   ],
   "note": "exact counts; a flat triangle has no circumcircle and is never counted by check_circumcircles"
  },
  {
   "property": "C20",
   "status": "proved",
   "theorems": [
    "CDT.C20_validate"
   ],
   "note": "any classification of floats"
  },
  {
   "property": "C21",
   "status": "proved",
   "theorems": [
    "CDT.C21_applyConstraints",
    "CDT.C21_constrained2d",
    "CDT.C21_repeated"
   ],
   "note": "any arithmetic; equality of outcomes including errors and panics"
  },
  {
   "property": "C22",
   "status": "proved",
   "theorems": [
    "CDT.C22_no_effective_constraint",
    "CDT.C22_no_constraint",
    "CDT.C22_loops_only"
   ],
   "note": "any arithmetic"
  },
  {
   "property": "C23",
   "status": "proved",
   "theorems": [
    "CDT.C23_filter",
    "CDT.C23_constrained2d"
   ],
   "note": "any arithmetic, any mesh; specification in Verif/Spec/Domain.lean"
  },
  {
   "property": "C24",
   "status": "proved",
   "theorems": [
    "CDT.C24_hole"
   ],
   "note": "any mesh and constraint set"
  },
  {
   "property": "C25",
   "status": "proved",
   "theorems": [
    "CDT.C25_filter_terminates",
    "CDT.C25_filter_never_loops"
   ],
   "note": "any mesh"
  },
  {
   "property": "C26",
   "status": "proved",
   "theorems": [
    "CDT.C26_restoration_terminates",
    "CDT.C26_swaps_once"
   ],
   "note": "any mesh, any arithmetic"
  },
  {
   "property": "C27",
   "status": "partial",
   "theorems": [
    "CDT.C27_terminates_partial",
    "CDT.C27_terminates_refuted",
    "CDT.C27_rounded_partial"
   ],
   "note": "true in exact arithmetic with separated predicates, all constraint lists; false in f64: kernel-checked input on which the model of the code diverges for every fuel. Also proved for a run in any correctly rounded arithmetic (instance: IEEE f64 and f32) when the input is robust (Plane.Robust or Plane.OnGrid, and Plane.ClearRays), with arbitrary constraints: the *_rounded theorems; *_input: exact, in input coordinates"
  },
  {
   "property": "C28",
   "status": "partial",
   "theorems": [
    "CDT.C28_no_panic_partial",
    "CDT.C28_no_panic_refuted",
    "CDT.C28_input_partial",
    "CDT.C28_rounded_partial"
   ],
   "note": "exact arithmetic with separated predicates, if no constraint crosses an unbounded edge of the unconstrained mesh; without that condition the statement is false (kernel-checked panic). Also proved for a run in any correctly rounded arithmetic (instance: IEEE f64 and f32) when the input is robust (Plane.Robust or Plane.OnGrid, and Plane.ClearRays), with arbitrary constraints: the *_rounded theorems; *_input: exact, in input coordinates"
  },
  {
   "property": "C29",
   "status": "partial",
   "theorems": [
    "CDT.C29_no_error_partial",
    "CDT.C29_edges_partial",
    "CDT.C29_accepted_partial",
    "CDT.C29_accepted_refuted",
    "CDT.C29_input_partial",
    "CDT.C29_rounded_partial"
   ],
   "note": "exact arithmetic with separated predicates; acceptance only if no constraint crosses an unbounded edge of the unconstrained mesh and the unconstrained phase succeeds; false in f64 (kernel-checked rejection). Also proved for a run in any correctly rounded arithmetic (instance: IEEE f64 and f32) when the input is robust (Plane.Robust or Plane.OnGrid, and Plane.ClearRays), with arbitrary constraints: the *_rounded theorems; *_input: exact, in input coordinates"
  },
  {
   "property": "C30",
   "status": "proved",
   "theorems": [
    "CDT.C30_phase",
    "CDT.C30_mesh",
    "CDT.C30_output_clockwise",
    "CDT.C30_output_disjoint",
    "CDT.C30_output_manifold",
    "CDT.C30_input",
    "CDT.C30_rounded",
    "CDT.C30_rounded_output"
   ],
   "note": "exact arithmetic; the phase on every valid mesh over the unit square, the whole run with separated predicates (Good). Also proved for a run in any correctly rounded arithmetic (instance: IEEE f64 and f32) when the input is robust (Plane.Robust or Plane.OnGrid, and Plane.ClearRays), with arbitrary constraints: the *_rounded theorems; *_input: exact, in input coordinates"
  },
  {
   "property": "C31",
   "status": "partial",
   "theorems": [
    "CDT.C31_edge_survives_partial",
    "CDT.C31_constraint_survives_partial",
    "CDT.C31_edge_survives_refuted",
    "CDT.C31_rounded_partial"
   ],
   "note": "exact arithmetic; every valid mesh over the unit square, and the whole run with separated predicates; false in f64 (kernel-checked loss of a constraint edge). Also proved for a run in any correctly rounded arithmetic (instance: IEEE f64 and f32) when the input is robust (Plane.Robust or Plane.OnGrid, and Plane.ClearRays), with arbitrary constraints: the *_rounded theorems; *_input: exact, in input coordinates"
  },
  {
   "property": "C32",
   "status": "proved",
   "theorems": [
    "CDT.C32_placement"
   ],
   "note": "exact arithmetic; unbounded triangles by far positions (Spec/Symbolic.lean)"
  },
  {
   "property": "C33",
   "status": "partial",
   "theorems": [
    "CDT.C33_adjacency_partial",
    "CDT.C33_steps_partial",
    "CDT.C33_adjacency_refuted",
    "CDT.C33_input_partial",
    "CDT.C33_rounded_partial"
   ],
   "note": "exact arithmetic with separated predicates; false in f64 (kernel-checked asymmetric adjacency). Also proved for a run in any correctly rounded arithmetic (instance: IEEE f64 and f32) when the input is robust (Plane.Robust) or lies on a grid (Plane.OnGrid): the *_rounded theorems. Missing: inputs that are not robust"
  },
  {
   "property": "C34",
   "status": "partial",
   "theorems": [
    "CDT.C34_tiling_partial",
    "CDT.C34_tiling_refuted",
    "CDT.C34_input_partial",
    "CDT.C34_rounded_partial"
   ],
   "note": "exact arithmetic with separated predicates; false in f64 (kernel-checked overlap of mesh triangles). Also proved for a run in any correctly rounded arithmetic (instance: IEEE f64 and f32) when the input is robust (Plane.Robust) or lies on a grid (Plane.OnGrid): the *_rounded theorems. Missing: inputs that are not robust"
  },
  {
   "property": "C35",
   "status": "partial",
   "theorems": [
    "CDT.C35_settled_partial",
    "CDT.C35_settled_refuted",
    "CDT.C35_rounded_partial"
   ],
   "note": "exact arithmetic with separated predicates; false in f64 (kernel-checked). Also proved for a run in any correctly rounded arithmetic (instance: IEEE f64 and f32) when the input is robust (Plane.Robust) or lies on a grid (Plane.OnGrid): the *_rounded theorems. Missing: inputs that are not robust"
  },
  {
   "property": "C36",
   "status": "proved",
   "theorems": [
    "CDT.C36_points",
    "CDT.C36_edge",
    "CDT.C36_rays"
   ],
   "note": "exact arithmetic; far positions of the symbolic directions (Spec/Symbolic.lean)"
  },
  {
   "property": "C37",
   "status": "proved",
   "theorems": [
    "CDT.C37_transparent",
    "CDT.C37_recorded"
   ],
   "note": "any arithmetic; unconstrained and constrained entry points; the recorded snapshots are the wanted ones among those of the run that records everything"
  },
  {
   "property": "C38",
   "status": "proved",
   "theorems": [
    "CDT.C38_prefix",
    "CDT.C38_constrained",
    "CDT.C38_valid",
    "CDT.C38_valid_rounded"
   ],
   "note": "C38_prefix: any arithmetic, the first vertex (step 0) is inserted even for k = 0; C38_constrained: also for constraints; C38_valid: validity of the mesh in exact arithmetic, C38_valid_rounded in f32/f64 on robust inputs"
  },
  {
   "property": "C39",
   "status": "proved",
   "theorems": [
    "CDT.C39_vertex_ids",
    "CDT.C39_vertex_ids_tight",
    "CDT.C39_triangle_ids",
    "CDT.C39_sentinels_distinct",
    "CDT.C39_capacity"
   ],
   "note": "any index width"
  },
  {
   "property": "C40",
   "status": "proved",
   "theorems": [
    "CDT.C40_placement_walk",
    "CDT.C40_circling_steps",
    "CDT.C40_circling",
    "CDT.C40_edge_walk"
   ],
   "note": "any mesh, any arithmetic"
  },
  {
   "property": "C41",
   "status": "partial",
   "theorems": [
    "CDT.C41_search_partial",
    "CDT.C41_succeeds_partial",
    "CDT.C41_succeeds_refuted"
   ],
   "note": "false: eight integer points whose triangulation fails, in exact arithmetic and f64; proved instead: a failure means that the search walked in a circle"
  },
  {
   "property": "C42",
   "status": "proved",
   "theorems": [
    "CDT.C42_normalize",
    "CDT.C42_triangulation2d",
    "CDT.C42_constrained2d"
   ],
   "note": "IEEE formats with any parameters at least as wide as binary32, exactly as quantified"
  },
  {
   "property": "C43",
   "status": "proved",
   "theorems": [
    "CDT.C43_normalized",
    "CDT.C43_binSort"
   ],
   "note": "IEEE formats, every value including infinities and NaN; ids must fit the id type"
  },
  {
   "property": "C44",
   "status": "proved",
   "theorems": [
    "CDT.C44_grid",
    "CDT.C44_run",
    "CDT.C44_constrained",
    "CDT.C03_rounded",
    "CDT.C04_rounded_partial",
    "CDT.C05_rounded_partial",
    "CDT.C10_rounded_partial",
    "CDT.C11_rounded",
    "CDT.C27_rounded_partial",
    "CDT.C28_rounded_partial",
    "CDT.C29_rounded_partial",
    "CDT.C30_rounded",
    "CDT.C31_rounded_partial"
   ],
   "note": "C44_grid: the hypotheses of the *_rounded theorems hold for every such input, for every IEEE format with 4k+3 digits; C44_run: the conclusions spelled out; C44_constrained: constrained runs"
  },
  {
   "property": "C45",
   "status": "partial",
   "theorems": [
    "CDT.C45_distinct_partial",
    "CDT.C45_rounded_partial",
    "CDT.C45_clean_partial",
    "CDT.C45_distinct_refuted"
   ],
   "note": "exact arithmetic, and correctly rounded arithmetic on robust inputs, unconstrained and constrained; any IEEE input if no mesh of the run has a doubled triangle; false in f64 in general (kernel-checked: six integer points)"
  },
  {
   "property": "C47",
   "status": "proved",
   "theorems": [
    "CDT.C47_panic_site",
    "CDT.C47_root_cause",
    "CDT.C47_ieee_panic_site",
    "CDT.C47_ieee_root_cause"
   ],
   "note": "any arithmetic (no law assumed); the ieee versions for every IEEE input, infinities and NaN included; ids must fit the id type"
  },
  {
   "property": "C46",
   "status": "proved",
   "theorems": [
    "CDT.C46_edges",
    "CDT.C46_edge_tables",
    "CDT.C46_vertex_tables",
    "CDT.C46_vertex_index",
    "CDT.C46_opposite",
    "CDT.C46_third",
    "CDT.C46_quad_tables",
    "CDT.C46_undirected",
    "CDT.C46_finite",
    "CDT.C46_sides",
    "CDT.C46_right",
    "CDT.C46_orientation",
    "CDT.C46_slope",
    "CDT.C46_positions"
   ],
   "note": "tables and index functions for every triangle; side tests for every Rounded arithmetic; slope exact"
  },
  {
   "property": "C48",
   "status": "proved",
   "theorems": [
    "CDT.C48_flat",
    "CDT.C48_flat_refuted"
   ],
   "note": "exact characterization; C48_flat_refuted: the remark in the source is false, exactly and in f64"
  },
  {
   "property": "C49",
   "status": "partial",
   "theorems": [
    "CDT.C49_collinear_partial",
    "CDT.C49_rounded_partial",
    "CDT.C49_collinear_refuted"
   ],
   "note": "exact arithmetic and rounded arithmetic on robust (e.g. grid) inputs; false in f64 in general, kernel-checked witness"
  },
  {
   "property": "C50",
   "status": "proved",
   "theorems": [
    "CDT.C50_normalize",
    "CDT.C50_absolute"
   ],
   "note": "every Rounded arithmetic, instances IEEE f32/f64; every input without overflow"
  },
  {
   "property": "C51",
   "status": "proved",
   "theorems": [
    "CDT.C51_present",
    "CDT.C51_rounded"
   ],
   "note": "exact arithmetic; C51_rounded: rounded arithmetic on robust inputs"
  },
  {
   "property": "C52",
   "status": "proved",
   "theorems": [
    "CDT.C52_constrained",
    "CDT.C52_unconstrained",
    "CDT.C52_rounded"
   ],
   "note": "exact arithmetic; C52_rounded: rounded arithmetic on robust inputs"
  },
  {
   "property": "C53",
   "status": "proved",
   "theorems": [
    "CDT.C53_framed",
    "CDT.C53_framed_rounded",
    "CDT.C53_framed_result",
    "CDT.C53_default_bins_refuted"
   ],
   "note": "exact arithmetic, and rounded arithmetic on robust inputs and grids; u32 and u64 ids (RealCfg). C53_default_bins_refuted: with the default number of bins the claim is false"
  },
  {
   "property": "C54",
   "status": "proved",
   "theorems": [
    "CDT.C54_order",
    "CDT.C54_order_unit",
    "CDT.C54_snake_index",
    "CDT.C54_snake_adjacent"
   ],
   "note": "any arithmetic; cells in the grid are a hypothesis of C54_order, proved in exact arithmetic for the unit square"
  },
  {
   "property": "C55",
   "status": "proved",
   "theorems": [
    "CDT.C55_reorder",
    "CDT.C55_reorder_exact",
    "CDT.C55_any_order"
   ],
   "note": "any arithmetic, the order-independent bounding box being a hypothesis that is proved in exact arithmetic"
  },
  {
   "property": "C56",
   "status": "proved",
   "theorems": [
    "CDT.C56_framed",
    "CDT.C56_framed_rounded"
   ],
   "note": "exact arithmetic with separated predicates, and correctly rounded arithmetic on robust inputs; no hypothesis about the run"
  },
  {
   "property": "C57",
   "status": "proved",
   "theorems": [
    "CDT.C57_polygon",
    "CDT.C57_framed",
    "CDT.C57_rounded",
    "CDT.C57_area",
    "CDT.C57_area_rounded"
   ],
   "note": "exact arithmetic with separated predicates, and correctly rounded arithmetic on robust inputs; the region is given by winding numbers of the constraint segments, the area by the shoelace formula"
  },
  {
   "property": "C58",
   "status": "proved",
   "theorems": [
    "CDT.C58_same_mesh",
    "CDT.C58_no_constraints",
    "CDT.C58_failures"
   ],
   "note": "any arithmetic"
  },
  {
   "property": "C59",
   "status": "partial",
   "theorems": [
    "CDT.C59_kept_partial",
    "CDT.C59_single_partial",
    "CDT.C59_single_rounded_partial",
    "CDT.C59_delaunay_refuted"
   ],
   "note": "false in general (kernel-checked in f64: the restoration visits each new diagonal once); proved for every edge of the unconstrained Delaunay triangulation that survives, and for whole outputs when each constraint crosses at most one edge"
  },
  {
   "property": "C60",
   "status": "proved",
   "theorems": [
    "CDT.C60_complete",
    "CDT.C60_exact",
    "CDT.C60_order",
    "CDT.C60_complete_rounded",
    "CDT.C60_exact_rounded"
   ],
   "note": "exact arithmetic with separated predicates, and correctly rounded arithmetic on robust inputs"
  },
  {
   "property": "C61",
   "status": "proved",
   "theorems": [
    "CDT.C61_triangulation2d",
    "CDT.C61_constrained2d",
    "CDT.C61_planar",
    "CDT.C61_widen",
    "CDT.C61_int",
    "CDT.C61_special",
    "CDT.C61_order",
    "CDT.C61_nearest",
    "CDT.C61_narrow_refuted"
   ],
   "note": "any arithmetic; the casts for every pair of binary formats. C61_narrow_refuted is the witness of the last sentence"
  },
  {
   "property": "C62",
   "status": "proved",
   "theorems": [
    "CDT.C62_finite",
    "CDT.C62_f32"
   ],
   "note": "IEEE formats, every input allowed by the statement"
  },
  {
   "property": "C63",
   "status": "proved",
   "theorems": [
    "CDT.C63_zero_bins",
    "CDT.C63_positive",
    "CDT.C63_le",
    "CDT.C63_negative",
    "CDT.C63_panic",
    "CDT.C63_default"
   ],
   "note": "the power of real numbers stands for powf"
  },
  {
   "property": "C64",
   "status": "proved",
   "theorems": [
    "CDT.C64_axis",
    "CDT.unitStep_pow2",
    "CDT.Fl.sqrt_nearest",
    "CDT.Fl.sqrt_mul_self",
    "CDT.C64_coords"
   ],
   "note": "IEEE formats; with other planes the statement is false in f64 (C16)"
  },
  {
   "property": "C65",
   "status": "proved",
   "theorems": [
    "CDT.C65_panic_site",
    "CDT.C65_ieee",
    "CDT.C65_exact",
    "CDT.restoreC_ne_panic"
   ],
   "note": "no law of arithmetic is used in C65_panic_site"
  },
  {
   "property": "C66",
   "status": "proved",
   "theorems": [
    "CDT.C66_consistent",
    "CDT.C66_panic",
    "CDT.C66_output",
    "CDT.C66_ieee",
    "CDT.cleanCdt_not"
   ],
   "note": "no law of arithmetic is used; non-termination of remove_crossed_edges is a separate matter (C27)"
  },
  {
   "property": "C67",
   "status": "proved",
   "theorems": [
    "CDT.C67_general",
    "CDT.C67_run",
    "CDT.C67_constrained",
    "CDT.robust_of_general",
    "CDT.clearRays_of_misses"
   ],
   "note": "IEEE formats; four points on a circle or three on an oblique line need a power of two as extent (C44)"
  },
  {
   "property": "C68",
   "status": "proved",
   "theorems": [
    "CDT.C68_global",
    "CDT.C68_single",
    "CDT.C68_rounded",
    "CDT.C68_single_rounded",
    "CDT.constrainedDelaunay_of_local"
   ],
   "note": "the local condition itself is false for some constraints that cross several edges: C59_delaunay_refuted"
  },
  {
   "property": "C69",
   "status": "proved",
   "theorems": [
    "CDT.C69_unique",
    "CDT.C69_single",
    "CDT.C69_rounded",
    "CDT.C69_single_rounded",
    "CDT.CdtOf.unique",
    "CDT.noneOnCircle_of_general"
   ],
   "note": "the local condition is a hypothesis (C59); it is discharged for constraints that cross at most one edge each"
  },
  {
   "property": "C70",
   "status": "proved",
   "theorems": [
    "CDT.C70_projection",
    "CDT.C70_distances",
    "CDT.C70_f64",
    "CDT.C70_f32",
    "CDT.inRange_of"
   ],
   "note": "over- and underflow are excluded by the ranges of the coordinates (InRange, inRange_of); the vertices are exactly in a plane in C70_distances, arbitrary in C70_projection"
  },
  {
   "property": "C71",
   "status": "proved",
   "theorems": [
    "CDT.C71_three",
    "CDT.C71_three_rounded",
    "CDT.three_run",
    "CDT.three_insert",
    "CDT.feas_pat",
    "CDT.triTable_complete",
    "CDT.ren_three"
   ],
   "note": "one bin, as the default density gives for three vertices; robust inputs (Good, RGood)"
  },
  {
   "property": "C72",
   "status": "proved",
   "theorems": [
    "CDT.C72_hull",
    "CDT.C72_triangle",
    "CDT.C72_hull_rounded",
    "CDT.C72_triangle_rounded",
    "CDT.HullMesh.found",
    "CDT.Good.frame_state",
    "CDT.Good.hull_run",
    "CDT.Inner.covered"
   ],
   "note": "one bin; the frame is correct by hypothesis (discharged for three vertices by C71); robust inputs (Good, RGood)"
  },
  {
   "property": "C73",
   "status": "proved",
   "theorems": [
    "CDT.C73_covering",
    "CDT.C73_polygon",
    "CDT.C73_single",
    "CDT.C73_hull",
    "CDT.C73_covering_rounded",
    "CDT.C73_polygon_rounded",
    "CDT.C73_single_rounded",
    "CDT.Good.covering",
    "CDT.reg_no_cross",
    "CDT.Good.single_local"
   ],
   "note": "that the unconstrained result covers the hull is a hypothesis: it can fail (C07, C71), and it holds for frames (C53, C72); robust inputs (Good, RGoodC)"
  },
  {
   "property": "C74",
   "status": "proved",
   "theorems": [
    "CDT.C74_certificate",
    "CDT.C74_covers",
    "CDT.C74_delaunay",
    "CDT.C74_sides",
    "CDT.C74_accepts",
    "CDT.C74_certificate_rounded",
    "CDT.C74_accepts_rounded",
    "CDT.covered_of_sides",
    "CDT.delaunay_of_sides",
    "CDT.hullSides_of_check",
    "CDT.local_of_check",
    "CDT.Good.tris"
   ],
   "note": "robust inputs (Good, RGood, RGoodC); the test is on exact positions"
  },
  {
   "property": "C75",
   "status": "proved",
   "theorems": [
    "CDT.C75_complete",
    "CDT.C75_exact",
    "CDT.C75_exact_rounded",
    "CDT.C75_order",
    "CDT.convex_complete",
    "CDT.delaunay_has",
    "CDT.delaunay_exact"
   ],
   "note": "robust inputs (Good, RGood); the results pass the test of C74"
  },
  {
   "property": "C76",
   "status": "proved",
   "theorems": [
    "CDT.C76_add",
    "CDT.C76_sub",
    "CDT.C76_mul",
    "CDT.C76_div",
    "CDT.C76_sqrt",
    "CDT.C76_convert",
    "CDT.C76_literals",
    "CDT.C76_max",
    "CDT.C76_epsilon",
    "CDT.C76_nan",
    "CDT.C76_compare",
    "CDT.C76_add_infinite",
    "CDT.C76_sub_add",
    "CDT.C76_mul_infinite",
    "CDT.C76_div_special",
    "CDT.C76_neg",
    "CDT.C76_maxmin",
    "CDT.C76_usize",
    "CDT.C76_formats",
    "CDT.C76_symmetric",
    "CDT.C76_monotone",
    "CDT.Fl.mk_roundsTo",
    "CDT.Fl.roundsTo_unique",
    "CDT.Fl.sqrt_roundsTo"
   ],
   "note": "the sign of zero is not modelled: a zero divisor counts as +0 (Model/SoftFloat.lean says why this is what the code does)"
  },
  {
   "property": "C77",
   "status": "proved",
   "theorems": [
    "CDT.C77_covers",
    "CDT.C77_covers_closed",
    "CDT.C77_nonempty",
    "CDT.C77_sides",
    "CDT.C77_delaunay_iff",
    "CDT.C77_accepts",
    "CDT.C77_covers_rounded",
    "CDT.C77_accepts_rounded",
    "CDT.insertAll_convex",
    "CDT.wrap_convex"
   ],
   "note": "The hypothesis of C77_accepts that the run without constraints succeeds is needed: the search for a triangle can give up (C10)."
  },
  {
   "property": "C78",
   "status": "proved",
   "theorems": [
    "CDT.C78_count",
    "CDT.C78_all",
    "CDT.C78_same",
    "CDT.C78_count_rounded",
    "CDT.BoxMesh.count",
    "CDT.BoxMesh.on_chain",
    "CDT.Good.occ_count"
   ],
   "note": ""
  },
  {
   "property": "C79",
   "status": "proved",
   "theorems": [
    "CDT.C79_covers",
    "CDT.C79_uncovered",
    "CDT.C79_sides",
    "CDT.C79_nonempty",
    "CDT.C79_delaunay_iff",
    "CDT.C79_accepts",
    "CDT.C79_covers_rounded",
    "CDT.C79_accepts_rounded",
    "CDT.Spec.Boxed.cornersExtreme",
    "CDT.CornerMesh.below",
    "CDT.CornerMesh.finite"
   ],
   "note": "The condition is sufficient, not necessary. The hypothesis of C79_accepts that the run without constraints succeeds is needed (C10)."
  },
  {
   "property": "C80",
   "status": "proved",
   "theorems": [
    "CDT.C80_covered",
    "CDT.C80_quadrants",
    "CDT.C80_uncovered",
    "CDT.C80_accepts",
    "CDT.C80_polygon",
    "CDT.C80_covered_rounded",
    "CDT.C80_accepts_rounded",
    "CDT.Spec.insideHull_of_quadrants",
    "CDT.Spec.sheltered_of_check",
    "CDT.link_absurd",
    "CDT.ChainMesh.finite",
    "CDT.ChainMesh.no_cross"
   ],
   "note": "The hypothesis of C80_accepts that the run without constraints succeeds is needed (C10)."
  },
  {
   "property": "C81",
   "status": "proved",
   "theorems": [
    "CDT.C81_delaunay",
    "CDT.C81_cause",
    "CDT.C81_corners",
    "CDT.C81_one_bin",
    "CDT.C81_delaunay_rounded",
    "CDT.C81_cause_rounded",
    "CDT.C81_corners_rounded",
    "CDT.Emp.found",
    "CDT.insertAll_out",
    "CDT.hull_gap",
    "CDT.Good.stage",
    "CDT.Spec.insideHull_of_triangle"
   ],
   "note": ""
  },
  {
   "property": "C82",
   "status": "proved",
   "theorems": [
    "CDT.C82_order",
    "CDT.C82_order_rounded",
    "CDT.C82_sharp",
    "CDT.C82_two",
    "CDT.C82_mesh",
    "CDT.C82_cause",
    "CDT.C82_keep",
    "CDT.C82_two_rounded",
    "CDT.C82_keep_rounded",
    "CDT.C82_cause_rounded",
    "CDT.Twin.keep",
    "CDT.Ins.one",
    "CDT.insertEdge_two",
    "CDT.Good.twin",
    "CDT.Good.stage_two",
    "CDT.Good.locD_iff",
    "CDT.eachTwo_of_check"
   ],
   "note": ""
  },
  {
   "property": "C83",
   "status": "proved",
   "theorems": [
    "CDT.C83_at_most",
    "CDT.C83_count",
    "CDT.C83_border",
    "CDT.C83_all",
    "CDT.C83_certified",
    "CDT.C83_same",
    "CDT.C83_at_most_rounded",
    "CDT.C83_count_rounded",
    "CDT.C83_certified_rounded",
    "CDT.mesh_kinds",
    "CDT.Supp.start",
    "CDT.CoverMesh.start_unique",
    "CDT.CoverMesh.edgeIds_eq"
   ],
   "note": ""
  },
  {
   "property": "C84",
   "status": "proved",
   "theorems": [
    "CDT.C84_snapshots",
    "CDT.C84_last",
    "CDT.C84_filter_neighbors_refuted",
    "CDT.wrapD_tells",
    "CDT.applyLoopD_tells",
    "CDT.cdtFilterD_tells",
    "CDT.pushEvent_log"
   ],
   "note": ""
  },
  {
   "property": "C85",
   "status": "proved",
   "theorems": [
    "CDT.C85_changed",
    "CDT.C85_split_neighbors_refuted",
    "CDT.split3D_tells",
    "CDT.split4D_tells",
    "CDT.checkAndSwapD_tells",
    "CDT.swapQuadD_tells"
   ],
   "note": ""
  },
  {
   "property": "C86",
   "status": "proved",
   "theorems": [
    "CDT.C86_frame",
    "CDT.C86_batch_zero",
    "CDT.C86_lines",
    "CDT.C86_labels",
    "CDT.C86_batches",
    "CDT.C86_tip",
    "CDT.C86_bounds",
    "CDT.C86_batch_zero_refuted"
   ],
   "note": "Any arithmetic, any run, any display mode with a positive batch size; the tips and the rectangle in exact arithmetic."
  },
  {
   "property": "C87",
   "status": "proved",
   "theorems": [
    "CDT.C87_press",
    "CDT.C87_inverse",
    "CDT.C87_visits",
    "CDT.C87_keys",
    "CDT.C87_last",
    "CDT.C87_first",
    "CDT.C87_current",
    "CDT.C87_modes",
    "CDT.C87_reach"
   ],
   "note": "All lists of snapshots and all sequences of keys. Underflow of the cursor is a panic (debug profile)."
  },
  {
   "property": "C88",
   "status": "proved",
   "theorems": [
    "CDT.C88_load",
    "CDT.C88_fails",
    "CDT.C88_panic"
   ],
   "note": "All lists of parts; C88_panic in exact arithmetic for the inputs of C65."
  },
  {
   "property": "C89",
   "status": "proved",
   "theorems": [
    "CDT.C89_dt_course",
    "CDT.C89_cdt_course",
    "CDT.C89_failed",
    "CDT.C89_split_once",
    "CDT.C89_configurations",
    "CDT.C89_few",
    "CDT.wrapD_story",
    "CDT.insertVertexD_story",
    "CDT.applyLoopD_story"
   ],
   "note": "Any arithmetic. The work on the vertices or constraints may end early (forced end), which Spec.Paced allows."
  },
  {
   "property": "C90",
   "status": "proved",
   "theorems": [
    "CDT.C90_setup",
    "CDT.C90_step",
    "CDT.C90_run",
    "CDT.C90_mode",
    "CDT.C90_screen",
    "CDT.C90_positions",
    "CDT.C90_crash",
    "CDT.C90_plays",
    "CDT.C90_manual",
    "CDT.C90_crash_refuted",
    "CDT.C90_duplicates_refuted"
   ],
   "note": "Any arithmetic. The systems of one pass of the application are separate events in any order."
  },
  {
   "property": "C91",
   "status": "proved",
   "theorems": [
    "CDT.C91_dt",
    "CDT.C91_cdt",
    "CDT.C91_dt_rounded",
    "CDT.C91_cdt_rounded",
    "CDT.restoreD_shows",
    "CDT.removeCrossedD_shows",
    "CDT.restoreCD_shows",
    "CDT.Rounded.RGood.runD",
    "CDT.Rounded.RGoodC.runD"
   ],
   "note": "Exact arithmetic on separated vertices (Good); also in rounded arithmetic (f32, f64) on robust inputs and grids, where the recorded snapshots are exactly those of the exact run. The tiling is stated in input coordinates for points on no line through two vertices."
  },
  {
   "property": "C92",
   "status": "proved",
   "theorems": [
    "CDT.C92_edges",
    "CDT.C92_framed",
    "CDT.C92_disc",
    "CDT.C92_edges_rounded",
    "CDT.C92_framed_rounded",
    "CDT.edge_of_disc",
    "CDT.gabriel_of_shortest",
    "CDT.goodEdges_of_delaunay"
   ],
   "note": "Exact arithmetic, and rounded arithmetic on robust inputs and grids; results that pass the test of C74 (framed points with one bin always do)."
  },
  {
   "property": "C93",
   "status": "proved",
   "theorems": [
    "CDT.C93_edges",
    "CDT.C93_gabriel",
    "CDT.C93_single",
    "CDT.C93_edges_rounded",
    "CDT.edge_of_sight",
    "CDT.not_inside",
    "CDT.same_segment"
   ],
   "note": "Exact arithmetic, and rounded arithmetic on robust inputs and grids; results that are locally Delaunay apart from the constraints."
  },
  {
   "property": "C94",
   "status": "proved",
   "theorems": [
    "CDT.C94_search",
    "CDT.C94_framed",
    "CDT.C94_search_rounded",
    "CDT.C94_framed_rounded",
    "CDT.best_of_delaunay",
    "CDT.nearer_neighbor",
    "CDT.searchable_of_delaunay"
   ],
   "note": "Exact arithmetic, and rounded arithmetic on robust inputs and grids; results that pass the test of C74 (framed points with one bin always do)."
  },
  {
   "property": "C95",
   "status": "proved",
   "theorems": [
    "CDT.C95_angles",
    "CDT.C95_framed",
    "CDT.C95_constrained",
    "CDT.C95_single",
    "CDT.C95_self",
    "CDT.C95_angles_rounded",
    "CDT.C95_constrained_rounded",
    "CDT.C95_self_rounded"
   ],
   "note": "Exact arithmetic, and f32/f64 on robust inputs and grids. The result must pass the test of C74 (plain) or be locally Delaunay (constrained); both hold without condition for the framed inputs of C53 and C59_single_partial."
  },
  {
   "property": "C96",
   "status": "proved",
   "theorems": [
    "CDT.C96_circles",
    "CDT.C96_framed",
    "CDT.C96_constrained",
    "CDT.C96_single",
    "CDT.C96_circles_rounded",
    "CDT.C96_constrained_rounded"
   ],
   "note": "Exact arithmetic, and f32/f64 on robust inputs and grids. Same conditions on the result as C95."
  },
  {
   "property": "C97",
   "status": "proved",
   "theorems": [
    "CDT.C97_polygon",
    "CDT.C97_any",
    "CDT.C97_any_dt",
    "CDT.C97_same",
    "CDT.C97_polygon_rounded",
    "CDT.C97_any_rounded",
    "CDT.length_ways",
    "CDT.same_length"
   ],
   "note": "Exact arithmetic on separated vertices (Good), and f32/f64 on robust inputs and grids. The region is the one of winding number one; length_ways is the count for any triangulation."
  },
  {
   "property": "C98",
   "status": "proved",
   "theorems": [
    "CDT.C98_mesh",
    "CDT.C98_forced",
    "CDT.C98_swaps",
    "CDT.C98_swaps_cdt",
    "CDT.C98_swaps_rounded",
    "CDT.C98_swaps_cdt_rounded"
   ],
   "note": "C98_mesh and C98_forced hold in every arithmetic; the count of swaps is exact arithmetic on separated vertices (Good), and f32/f64 on robust inputs and grids, for a context that records everything."
  },
  {
   "property": "C99",
   "status": "proved",
   "theorems": [
    "CDT.C99_local",
    "CDT.C99_insert",
    "CDT.C99_cavity",
    "CDT.C99_grow",
    "CDT.C99_framed",
    "CDT.C99_local_rounded",
    "CDT.C99_insert_rounded",
    "CDT.C99_cavity_rounded"
   ],
   "note": "Exact arithmetic on separated vertices (Good) for results that pass the test of C74 in general position; framed inputs pass it always (C99_framed). Also f32/f64 on robust inputs and grids and between formats."
  },
  {
   "property": "C100",
   "status": "proved",
   "theorems": [
    "CDT.C100_stays",
    "CDT.C100_new",
    "CDT.C100_stays_rounded",
    "CDT.C100_new_rounded"
   ],
   "note": "Exact arithmetic on separated vertices (Good), and f32/f64 on robust inputs and grids, for border constraints and results that are locally Delaunay (C59), as in C69."
  },
  {
   "property": "C101",
   "status": "proved",
   "theorems": [
    "CDT.C101_real",
    "CDT.C101_real_constrained",
    "CDT.C101_axis",
    "CDT.C101_axis_constrained",
    "CDT.C101_framed"
   ],
   "note": "Over the reals for all planes, with separated coordinates in the plane (Good); in IEEE formats for planes parallel to two axes, where the coordinates are exact (C64), on robust inputs and grids."
  },
  {
   "property": "C102",
   "status": "proved",
   "theorems": [
    "CDT.C102_turn",
    "CDT.C102_mirror",
    "CDT.C102_constrained",
    "CDT.C102_turn_rounded",
    "CDT.C102_mirror_rounded",
    "CDT.C102_constrained_rounded",
    "CDT.C102_space",
    "CDT.C102_space_axis"
   ],
   "note": "Exact arithmetic on separated vertices (Good), f32/f64 on robust inputs and grids, for results that pass the decidable test of C74 (C59 with constraints) and general position; in space over the reals for all planes, in IEEE formats for planes parallel to two axes (C64)."
  },
  {
   "property": "C103",
   "status": "proved",
   "theorems": [
    "CDT.C103_count_iff",
    "CDT.C103_most",
    "CDT.C103_largest",
    "CDT.C103_compare",
    "CDT.C103_count_iff_rounded",
    "CDT.C103_compare_rounded"
   ],
   "note": "Exact arithmetic on separated vertices (Good), f32/f64 on robust inputs and grids; C103_most holds for all sets of triangles."
  },
  {
   "property": "C104",
   "status": "proved",
   "theorems": [
    "CDT.C104_real",
    "CDT.C104_area",
    "CDT.C104_axis",
    "CDT.C104_axis_area",
    "CDT.C104_single"
   ],
   "note": "Over the reals for every plane (exact arithmetic), in f32 and f64 for planes parallel to two axes on robust inputs and grids. That the sides pass the local test is a hypothesis of C104_real and C104_axis (not every result passes, see C59); C104_single has no such hypothesis. Border and non-crossing are conditions on the planar coordinates."
  }
 ]
}
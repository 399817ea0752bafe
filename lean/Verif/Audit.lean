import Verif.Model.Arith
import Verif.Model.Types
import Verif.Model.Utils
import Verif.Model.Infinite
import Verif.Model.Triangulation
import Verif.Model.Constrained
import Verif.Model.Exact
import Verif.Model.SoftFloat
import Verif.Witness.Upstream
import Verif.Proofs.Common
import Verif.Proofs.BinSort
import Verif.Proofs.Generic
import Verif.Proofs.GenericC
import Verif.Props.Simple
import Verif.Props.Counts
import Verif.Spec.Domain
import Verif.Props.Flood
import Verif.Spec.Plane
import Verif.Spec.Symbolic
import Verif.Geo.Homog
import Verif.Geo.Mesh
import Verif.Geo.Ops
import Verif.Geo.Splits
import Verif.Geo.Flip
import Verif.Geo.Restore
import Verif.Geo.Place
import Verif.Geo.Insert
import Verif.Geo.Norm
import Verif.Geo.Run
import Verif.Geo.Sep
import Verif.Geo.Far
import Verif.Props.Local
import Verif.Props.Run
import Verif.Geo.Tile
import Verif.Props.Tiling
import Verif.Props.Weak
import Verif.Props.Walk
import Verif.Geo.Segment
import Verif.Geo.Cross
import Verif.Props.Segments
import Verif.Geo.CdtSwap
import Verif.Geo.CdtLoop
import Verif.Geo.CdtReg
import Verif.Geo.CdtRun
import Verif.Geo.CdtChain
import Verif.Geo.Wedge
import Verif.Geo.CdtAccept
import Verif.Props.Constrained
import Verif.Props.Accept
import Verif.Proofs.Fuel
import Verif.Props.Refuted
import Verif.Props.Rounding
import Verif.Props.Quality
import Verif.Props.Planar
import Verif.Model.Debug
import Verif.Props.Debug
import Verif.Proofs.SoftFloat
import Verif.Model.Rounded
import Verif.Geo.Agree
import Verif.Geo.RoundErr
import Verif.Geo.RoundGrid
import Verif.Spec.Robust
import Verif.Geo.RoundRun
import Verif.Props.Input
import Verif.Props.Rounded
import Verif.Proofs.Terminate
import Verif.Props.Terminate
import Verif.Spec.Ieee
import Verif.Proofs.Ieee
import Verif.Props.Ieee
import Verif.Geo.AgreeC
import Verif.Geo.RoundIsect
import Verif.Props.RoundedC
import Verif.Props.Grid
import Verif.Proofs.Panic
import Verif.Comb.Mesh
import Verif.Comb.Run
import Verif.Spec.Twice
import Verif.Props.Panic
import Verif.Model.Helpers
import Verif.Props.Helpers
import Verif.Props.Normal
import Verif.Geo.NoCross
import Verif.Spec.Planar
import Verif.Props.Present
import Verif.Geo.Delaunay
import Verif.Geo.Frame
import Verif.Geo.Acyclic
import Verif.Geo.Corners
import Verif.Geo.FrameRun
import Verif.Proofs.OneBin
import Verif.Proofs.Rename
import Verif.Props.Delaunay
import Verif.Proofs.BinOrder
import Verif.Proofs.Relabel
import Verif.Props.Order
import Verif.Props.PlanarF64
import Verif.Props.Framed
import Verif.Spec.Winding
import Verif.Geo.Winding
import Verif.Geo.Region
import Verif.Props.Polygon
import Verif.Props.Merge
import Verif.Spec.Local
import Verif.Props.Restored
import Verif.Spec.Unique
import Verif.Props.Unique
import Verif.Model.Inputs
import Verif.Model.Density
import Verif.Props.Inputs
import Verif.Props.Density
import Verif.Proofs.Sqrt
import Verif.Props.Axis
import Verif.Proofs.PanicC
import Verif.Props.PanicC
import Verif.Comb.Swap
import Verif.Comb.Loop
import Verif.Props.RootC
import Verif.Props.General
import Verif.Spec.Visible
import Verif.Geo.Visible
import Verif.Props.Visible
import Verif.Props.UniqueC
import Verif.Proofs.RelErr
import Verif.Props.Project
import Verif.Geo.Three
import Verif.Props.Three
import Verif.Geo.HullMesh
import Verif.Props.Hull
import Verif.Props.Covering
import Verif.Spec.Hull
import Verif.Geo.Certificate
import Verif.Props.Certificate
import Verif.Props.CertUnique
import Verif.Spec.IeeeRound
import Verif.Proofs.IeeeRound
import Verif.Props.IeeeSpec
import Verif.Geo.Chain
import Verif.Geo.ChainMesh
import Verif.Geo.Box
import Verif.Props.Boxed
import Verif.Geo.BoxCount
import Verif.Props.BoxCount
import Verif.Geo.Corner
import Verif.Props.Corner
import Verif.Geo.Ortho
import Verif.Props.Ortho
import Verif.Props.Cause
import Verif.Geo.KeepLocal
import Verif.Geo.OneFresh
import Verif.Props.Stages
import Verif.Geo.HullCount
import Verif.Props.HullCount
import Verif.Proofs.Tell
import Verif.Props.Snapshots
import Verif.Props.Viewer
import Verif.Props.Loader
import Verif.Model.Player
import Verif.Proofs.Story
import Verif.Props.Story
import Verif.Props.Player
import Verif.Proofs.Shows
import Verif.Props.SnapValid
import Verif.Props.Gabriel
import Verif.Props.GabrielC
import Verif.Props.Greedy
import Verif.Props.MinAngle
import Verif.Props.Enclosing
import Verif.Proofs.AgreeD
import Verif.Props.SnapRounded
import Verif.Props.RegionCount
import Verif.Props.Persist
import Verif.Props.Locality
import Verif.Props.LocalityC
import Verif.Props.Space
import Verif.Props.Turn
import Verif.Props.CountCert
import Verif.Props.SpaceC

/-! Axioms used by every theorem listed in `MANIFEST.json` (printed during the build). -/

#print axioms CDT.C01_triangulation2d
#print axioms CDT.C01_constrained2d
#print axioms CDT.C01_triangulation3d
#print axioms CDT.C01_constrained3d
#print axioms CDT.C01_triangulation2dPar
#print axioms CDT.C02_triangulation2d
#print axioms CDT.C02_constrained2d
#print axioms CDT.C02_3d
#print axioms CDT.C03_clockwise
#print axioms CDT.C03_needs_separation
#print axioms CDT.C03_rounded
#print axioms CDT.C04_disjoint_partial
#print axioms CDT.C04_disjoint_refuted
#print axioms CDT.C04_rounded_partial
#print axioms CDT.C05_manifold_partial
#print axioms CDT.C05_manifold_refuted
#print axioms CDT.C05_rounded_partial
#print axioms CDT.C06_delaunay_partial
#print axioms CDT.C06_delaunay_refuted
#print axioms CDT.C35_rounded_partial
#print axioms CDT.C53_framed
#print axioms CDT.C07_cover_partial
#print axioms CDT.C07_hull_refuted
#print axioms CDT.C07_input_partial
#print axioms CDT.C07_rounded_partial
#print axioms CDT.C08_merged_or_inserted_partial
#print axioms CDT.C08_merged_or_inserted_refuted
#print axioms CDT.C08_rounded_partial
#print axioms CDT.C09_terminates
#print axioms CDT.C09_terminates_par
#print axioms CDT.C09_terminates_3d
#print axioms CDT.C09_terminates_fl
#print axioms CDT.C09_restore_bound
#print axioms CDT.C10_no_panic_partial
#print axioms CDT.C10_rounded_partial
#print axioms CDT.C10_no_panic_refuted
#print axioms CDT.C53_framed
#print axioms CDT.C11_state_count
#print axioms CDT.C11_count
#print axioms CDT.C11_count_constrained
#print axioms CDT.C11_output_bound
#print axioms CDT.C11_exact_bound
#print axioms CDT.C11_rounded
#print axioms CDT.C12_filter
#print axioms CDT.C12_parallel_eq_sequential
#print axioms CDT.C12_filter_spec
#print axioms CDT.C13_binSort_perm
#print axioms CDT.C13_binSort_ok
#print axioms CDT.C13_zero_bins_panics
#print axioms CDT.C13_binSort_unit
#print axioms CDT.C13_rounded
#print axioms CDT.C43_binSort
#print axioms CDT.C54_order
#print axioms CDT.C14_normalize_partial
#print axioms CDT.C14_normalize_refuted
#print axioms CDT.C15_triangulation2d_partial
#print axioms CDT.C15_constrained2d_partial
#print axioms CDT.C15_scale_refuted
#print axioms CDT.C42_triangulation2d
#print axioms CDT.C42_constrained2d
#print axioms CDT.C16_planar_partial
#print axioms CDT.C16_planar_refuted
#print axioms CDT.C17_shared
#print axioms CDT.C17_tip
#print axioms CDT.C17_crossing
#print axioms CDT.C17_crossing_point
#print axioms CDT.C17_none
#print axioms CDT.C17_symm
#print axioms CDT.C17_reverse
#print axioms CDT.C18_inCircumcircle
#print axioms CDT.C19_degenerate
#print axioms CDT.C19_circumcircles
#print axioms CDT.C19_optimal
#print axioms CDT.C20_validate
#print axioms CDT.C21_applyConstraints
#print axioms CDT.C21_constrained2d
#print axioms CDT.C21_repeated
#print axioms CDT.C22_no_effective_constraint
#print axioms CDT.C22_no_constraint
#print axioms CDT.C22_loops_only
#print axioms CDT.C23_filter
#print axioms CDT.C23_constrained2d
#print axioms CDT.C24_hole
#print axioms CDT.C25_filter_terminates
#print axioms CDT.C25_filter_never_loops
#print axioms CDT.C26_restoration_terminates
#print axioms CDT.C26_swaps_once
#print axioms CDT.C27_terminates_partial
#print axioms CDT.C27_terminates_refuted
#print axioms CDT.C27_rounded_partial
#print axioms CDT.C28_no_panic_partial
#print axioms CDT.C28_no_panic_refuted
#print axioms CDT.C28_input_partial
#print axioms CDT.C28_rounded_partial
#print axioms CDT.C29_no_error_partial
#print axioms CDT.C29_edges_partial
#print axioms CDT.C29_accepted_partial
#print axioms CDT.C29_accepted_refuted
#print axioms CDT.C29_input_partial
#print axioms CDT.C29_rounded_partial
#print axioms CDT.C30_phase
#print axioms CDT.C30_mesh
#print axioms CDT.C30_output_clockwise
#print axioms CDT.C30_output_disjoint
#print axioms CDT.C30_output_manifold
#print axioms CDT.C30_input
#print axioms CDT.C30_rounded
#print axioms CDT.C30_rounded_output
#print axioms CDT.C31_edge_survives_partial
#print axioms CDT.C31_constraint_survives_partial
#print axioms CDT.C31_edge_survives_refuted
#print axioms CDT.C31_rounded_partial
#print axioms CDT.C32_placement
#print axioms CDT.C33_adjacency_partial
#print axioms CDT.C33_steps_partial
#print axioms CDT.C33_adjacency_refuted
#print axioms CDT.C33_input_partial
#print axioms CDT.C33_rounded_partial
#print axioms CDT.C34_tiling_partial
#print axioms CDT.C34_tiling_refuted
#print axioms CDT.C34_input_partial
#print axioms CDT.C34_rounded_partial
#print axioms CDT.C35_settled_partial
#print axioms CDT.C35_settled_refuted
#print axioms CDT.C35_rounded_partial
#print axioms CDT.C36_points
#print axioms CDT.C36_edge
#print axioms CDT.C36_rays
#print axioms CDT.C37_transparent
#print axioms CDT.C37_recorded
#print axioms CDT.C38_prefix
#print axioms CDT.C38_constrained
#print axioms CDT.C38_valid
#print axioms CDT.C38_valid_rounded
#print axioms CDT.C39_vertex_ids
#print axioms CDT.C39_vertex_ids_tight
#print axioms CDT.C39_triangle_ids
#print axioms CDT.C39_sentinels_distinct
#print axioms CDT.C39_capacity
#print axioms CDT.C40_placement_walk
#print axioms CDT.C40_circling_steps
#print axioms CDT.C40_circling
#print axioms CDT.C40_edge_walk
#print axioms CDT.C41_search_partial
#print axioms CDT.C41_succeeds_partial
#print axioms CDT.C41_succeeds_refuted
#print axioms CDT.C42_normalize
#print axioms CDT.C42_triangulation2d
#print axioms CDT.C42_constrained2d
#print axioms CDT.C43_normalized
#print axioms CDT.C43_binSort
#print axioms CDT.C44_grid
#print axioms CDT.C44_run
#print axioms CDT.C44_constrained
#print axioms CDT.C03_rounded
#print axioms CDT.C04_rounded_partial
#print axioms CDT.C05_rounded_partial
#print axioms CDT.C10_rounded_partial
#print axioms CDT.C11_rounded
#print axioms CDT.C27_rounded_partial
#print axioms CDT.C28_rounded_partial
#print axioms CDT.C29_rounded_partial
#print axioms CDT.C30_rounded
#print axioms CDT.C31_rounded_partial
#print axioms CDT.C45_distinct_partial
#print axioms CDT.C45_rounded_partial
#print axioms CDT.C45_clean_partial
#print axioms CDT.C45_distinct_refuted
#print axioms CDT.C47_panic_site
#print axioms CDT.C47_root_cause
#print axioms CDT.C47_ieee_panic_site
#print axioms CDT.C47_ieee_root_cause
#print axioms CDT.C46_edges
#print axioms CDT.C46_edge_tables
#print axioms CDT.C46_vertex_tables
#print axioms CDT.C46_vertex_index
#print axioms CDT.C46_opposite
#print axioms CDT.C46_third
#print axioms CDT.C46_quad_tables
#print axioms CDT.C46_undirected
#print axioms CDT.C46_finite
#print axioms CDT.C46_sides
#print axioms CDT.C46_right
#print axioms CDT.C46_orientation
#print axioms CDT.C46_slope
#print axioms CDT.C46_positions
#print axioms CDT.C48_flat
#print axioms CDT.C48_flat_refuted
#print axioms CDT.C49_collinear_partial
#print axioms CDT.C49_rounded_partial
#print axioms CDT.C49_collinear_refuted
#print axioms CDT.C50_normalize
#print axioms CDT.C50_absolute
#print axioms CDT.C51_present
#print axioms CDT.C51_rounded
#print axioms CDT.C52_constrained
#print axioms CDT.C52_unconstrained
#print axioms CDT.C52_rounded
#print axioms CDT.C53_framed
#print axioms CDT.C53_framed_rounded
#print axioms CDT.C53_framed_result
#print axioms CDT.C53_default_bins_refuted
#print axioms CDT.C54_order
#print axioms CDT.C54_order_unit
#print axioms CDT.C54_snake_index
#print axioms CDT.C54_snake_adjacent
#print axioms CDT.C55_reorder
#print axioms CDT.C55_reorder_exact
#print axioms CDT.C55_any_order
#print axioms CDT.C56_framed
#print axioms CDT.C56_framed_rounded
#print axioms CDT.C57_polygon
#print axioms CDT.C57_framed
#print axioms CDT.C57_rounded
#print axioms CDT.C57_area
#print axioms CDT.C57_area_rounded
#print axioms CDT.C58_same_mesh
#print axioms CDT.C58_no_constraints
#print axioms CDT.C58_failures
#print axioms CDT.C59_kept_partial
#print axioms CDT.C59_single_partial
#print axioms CDT.C59_single_rounded_partial
#print axioms CDT.C59_delaunay_refuted
#print axioms CDT.C60_complete
#print axioms CDT.C60_exact
#print axioms CDT.C60_order
#print axioms CDT.C60_complete_rounded
#print axioms CDT.C60_exact_rounded
#print axioms CDT.C61_triangulation2d
#print axioms CDT.C61_constrained2d
#print axioms CDT.C61_planar
#print axioms CDT.C61_widen
#print axioms CDT.C61_int
#print axioms CDT.C61_special
#print axioms CDT.C61_order
#print axioms CDT.C61_nearest
#print axioms CDT.C61_narrow_refuted
#print axioms CDT.C62_finite
#print axioms CDT.C62_f32
#print axioms CDT.C63_zero_bins
#print axioms CDT.C63_positive
#print axioms CDT.C63_le
#print axioms CDT.C63_negative
#print axioms CDT.C63_panic
#print axioms CDT.C63_default
#print axioms CDT.C64_axis
#print axioms CDT.unitStep_pow2
#print axioms CDT.Fl.sqrt_nearest
#print axioms CDT.Fl.sqrt_mul_self
#print axioms CDT.C64_coords
#print axioms CDT.C65_panic_site
#print axioms CDT.C65_ieee
#print axioms CDT.C65_exact
#print axioms CDT.restoreC_ne_panic
#print axioms CDT.C66_consistent
#print axioms CDT.C66_panic
#print axioms CDT.C66_output
#print axioms CDT.C66_ieee
#print axioms CDT.cleanCdt_not
#print axioms CDT.C67_general
#print axioms CDT.C67_run
#print axioms CDT.C67_constrained
#print axioms CDT.robust_of_general
#print axioms CDT.clearRays_of_misses
#print axioms CDT.C68_global
#print axioms CDT.C68_single
#print axioms CDT.C68_rounded
#print axioms CDT.C68_single_rounded
#print axioms CDT.constrainedDelaunay_of_local
#print axioms CDT.C69_unique
#print axioms CDT.C69_single
#print axioms CDT.C69_rounded
#print axioms CDT.C69_single_rounded
#print axioms CDT.CdtOf.unique
#print axioms CDT.noneOnCircle_of_general
#print axioms CDT.C70_projection
#print axioms CDT.C70_distances
#print axioms CDT.C70_f64
#print axioms CDT.C70_f32
#print axioms CDT.inRange_of
#print axioms CDT.C71_three
#print axioms CDT.C71_three_rounded
#print axioms CDT.three_run
#print axioms CDT.three_insert
#print axioms CDT.feas_pat
#print axioms CDT.triTable_complete
#print axioms CDT.ren_three
#print axioms CDT.C72_hull
#print axioms CDT.C72_triangle
#print axioms CDT.C72_hull_rounded
#print axioms CDT.C72_triangle_rounded
#print axioms CDT.HullMesh.found
#print axioms CDT.Good.frame_state
#print axioms CDT.Good.hull_run
#print axioms CDT.Inner.covered
#print axioms CDT.C73_covering
#print axioms CDT.C73_polygon
#print axioms CDT.C73_single
#print axioms CDT.C73_hull
#print axioms CDT.C73_covering_rounded
#print axioms CDT.C73_polygon_rounded
#print axioms CDT.C73_single_rounded
#print axioms CDT.Good.covering
#print axioms CDT.reg_no_cross
#print axioms CDT.Good.single_local
#print axioms CDT.C74_certificate
#print axioms CDT.C74_covers
#print axioms CDT.C74_delaunay
#print axioms CDT.C74_sides
#print axioms CDT.C74_accepts
#print axioms CDT.C74_certificate_rounded
#print axioms CDT.C74_accepts_rounded
#print axioms CDT.covered_of_sides
#print axioms CDT.delaunay_of_sides
#print axioms CDT.hullSides_of_check
#print axioms CDT.local_of_check
#print axioms CDT.Good.tris
#print axioms CDT.C75_complete
#print axioms CDT.C75_exact
#print axioms CDT.C75_exact_rounded
#print axioms CDT.C75_order
#print axioms CDT.convex_complete
#print axioms CDT.delaunay_has
#print axioms CDT.delaunay_exact
#print axioms CDT.C76_add
#print axioms CDT.C76_sub
#print axioms CDT.C76_mul
#print axioms CDT.C76_div
#print axioms CDT.C76_sqrt
#print axioms CDT.C76_convert
#print axioms CDT.C76_literals
#print axioms CDT.C76_max
#print axioms CDT.C76_epsilon
#print axioms CDT.C76_nan
#print axioms CDT.C76_compare
#print axioms CDT.C76_add_infinite
#print axioms CDT.C76_sub_add
#print axioms CDT.C76_mul_infinite
#print axioms CDT.C76_div_special
#print axioms CDT.C76_neg
#print axioms CDT.C76_maxmin
#print axioms CDT.C76_usize
#print axioms CDT.C76_formats
#print axioms CDT.C76_symmetric
#print axioms CDT.C76_monotone
#print axioms CDT.Fl.mk_roundsTo
#print axioms CDT.Fl.roundsTo_unique
#print axioms CDT.Fl.sqrt_roundsTo
#print axioms CDT.C77_covers
#print axioms CDT.C77_covers_closed
#print axioms CDT.C77_nonempty
#print axioms CDT.C77_sides
#print axioms CDT.C77_delaunay_iff
#print axioms CDT.C77_accepts
#print axioms CDT.C77_covers_rounded
#print axioms CDT.C77_accepts_rounded
#print axioms CDT.insertAll_convex
#print axioms CDT.wrap_convex
#print axioms CDT.C78_count
#print axioms CDT.C78_all
#print axioms CDT.C78_same
#print axioms CDT.C78_count_rounded
#print axioms CDT.BoxMesh.count
#print axioms CDT.BoxMesh.on_chain
#print axioms CDT.Good.occ_count
#print axioms CDT.C79_covers
#print axioms CDT.C79_uncovered
#print axioms CDT.C79_sides
#print axioms CDT.C79_nonempty
#print axioms CDT.C79_delaunay_iff
#print axioms CDT.C79_accepts
#print axioms CDT.C79_covers_rounded
#print axioms CDT.C79_accepts_rounded
#print axioms CDT.Spec.Boxed.cornersExtreme
#print axioms CDT.CornerMesh.below
#print axioms CDT.CornerMesh.finite
#print axioms CDT.C80_covered
#print axioms CDT.C80_quadrants
#print axioms CDT.C80_uncovered
#print axioms CDT.C80_accepts
#print axioms CDT.C80_polygon
#print axioms CDT.C80_covered_rounded
#print axioms CDT.C80_accepts_rounded
#print axioms CDT.Spec.insideHull_of_quadrants
#print axioms CDT.Spec.sheltered_of_check
#print axioms CDT.link_absurd
#print axioms CDT.ChainMesh.finite
#print axioms CDT.ChainMesh.no_cross
#print axioms CDT.C81_delaunay
#print axioms CDT.C81_cause
#print axioms CDT.C81_corners
#print axioms CDT.C81_one_bin
#print axioms CDT.C81_delaunay_rounded
#print axioms CDT.C81_cause_rounded
#print axioms CDT.C81_corners_rounded
#print axioms CDT.Emp.found
#print axioms CDT.insertAll_out
#print axioms CDT.hull_gap
#print axioms CDT.Good.stage
#print axioms CDT.Spec.insideHull_of_triangle
#print axioms CDT.C82_order
#print axioms CDT.C82_order_rounded
#print axioms CDT.C82_sharp
#print axioms CDT.C82_two
#print axioms CDT.C82_mesh
#print axioms CDT.C82_cause
#print axioms CDT.C82_keep
#print axioms CDT.C82_two_rounded
#print axioms CDT.C82_keep_rounded
#print axioms CDT.C82_cause_rounded
#print axioms CDT.Twin.keep
#print axioms CDT.Ins.one
#print axioms CDT.insertEdge_two
#print axioms CDT.Good.twin
#print axioms CDT.Good.stage_two
#print axioms CDT.Good.locD_iff
#print axioms CDT.eachTwo_of_check
#print axioms CDT.C83_at_most
#print axioms CDT.C83_count
#print axioms CDT.C83_border
#print axioms CDT.C83_all
#print axioms CDT.C83_certified
#print axioms CDT.C83_same
#print axioms CDT.C83_at_most_rounded
#print axioms CDT.C83_count_rounded
#print axioms CDT.C83_certified_rounded
#print axioms CDT.mesh_kinds
#print axioms CDT.Supp.start
#print axioms CDT.CoverMesh.start_unique
#print axioms CDT.CoverMesh.edgeIds_eq
#print axioms CDT.C84_snapshots
#print axioms CDT.C84_last
#print axioms CDT.C84_filter_neighbors_refuted
#print axioms CDT.wrapD_tells
#print axioms CDT.applyLoopD_tells
#print axioms CDT.cdtFilterD_tells
#print axioms CDT.pushEvent_log
#print axioms CDT.C85_changed
#print axioms CDT.C85_split_neighbors_refuted
#print axioms CDT.split3D_tells
#print axioms CDT.split4D_tells
#print axioms CDT.checkAndSwapD_tells
#print axioms CDT.swapQuadD_tells
#print axioms CDT.C86_frame
#print axioms CDT.C86_batch_zero
#print axioms CDT.C86_lines
#print axioms CDT.C86_labels
#print axioms CDT.C86_batches
#print axioms CDT.C86_tip
#print axioms CDT.C86_bounds
#print axioms CDT.C86_batch_zero_refuted
#print axioms CDT.C87_press
#print axioms CDT.C87_inverse
#print axioms CDT.C87_visits
#print axioms CDT.C87_keys
#print axioms CDT.C87_last
#print axioms CDT.C87_first
#print axioms CDT.C87_current
#print axioms CDT.C87_modes
#print axioms CDT.C87_reach
#print axioms CDT.C88_load
#print axioms CDT.C88_fails
#print axioms CDT.C88_panic
#print axioms CDT.C89_dt_course
#print axioms CDT.C89_cdt_course
#print axioms CDT.C89_failed
#print axioms CDT.C89_split_once
#print axioms CDT.C89_configurations
#print axioms CDT.C89_few
#print axioms CDT.wrapD_story
#print axioms CDT.insertVertexD_story
#print axioms CDT.applyLoopD_story
#print axioms CDT.C90_setup
#print axioms CDT.C90_step
#print axioms CDT.C90_run
#print axioms CDT.C90_mode
#print axioms CDT.C90_screen
#print axioms CDT.C90_positions
#print axioms CDT.C90_crash
#print axioms CDT.C90_plays
#print axioms CDT.C90_manual
#print axioms CDT.C90_crash_refuted
#print axioms CDT.C90_duplicates_refuted
#print axioms CDT.C91_dt
#print axioms CDT.C91_cdt
#print axioms CDT.C91_dt_rounded
#print axioms CDT.C91_cdt_rounded
#print axioms CDT.restoreD_shows
#print axioms CDT.removeCrossedD_shows
#print axioms CDT.restoreCD_shows
#print axioms CDT.Rounded.RGood.runD
#print axioms CDT.Rounded.RGoodC.runD
#print axioms CDT.C92_edges
#print axioms CDT.C92_framed
#print axioms CDT.C92_disc
#print axioms CDT.C92_edges_rounded
#print axioms CDT.C92_framed_rounded
#print axioms CDT.edge_of_disc
#print axioms CDT.gabriel_of_shortest
#print axioms CDT.goodEdges_of_delaunay
#print axioms CDT.C93_edges
#print axioms CDT.C93_gabriel
#print axioms CDT.C93_single
#print axioms CDT.C93_edges_rounded
#print axioms CDT.edge_of_sight
#print axioms CDT.not_inside
#print axioms CDT.same_segment
#print axioms CDT.C94_search
#print axioms CDT.C94_framed
#print axioms CDT.C94_search_rounded
#print axioms CDT.C94_framed_rounded
#print axioms CDT.best_of_delaunay
#print axioms CDT.nearer_neighbor
#print axioms CDT.searchable_of_delaunay
#print axioms CDT.C95_angles
#print axioms CDT.C95_framed
#print axioms CDT.C95_constrained
#print axioms CDT.C95_single
#print axioms CDT.C95_self
#print axioms CDT.C95_angles_rounded
#print axioms CDT.C95_constrained_rounded
#print axioms CDT.C95_self_rounded
#print axioms CDT.C96_circles
#print axioms CDT.C96_framed
#print axioms CDT.C96_constrained
#print axioms CDT.C96_single
#print axioms CDT.C96_circles_rounded
#print axioms CDT.C96_constrained_rounded
#print axioms CDT.C97_polygon
#print axioms CDT.C97_any
#print axioms CDT.C97_any_dt
#print axioms CDT.C97_same
#print axioms CDT.C97_polygon_rounded
#print axioms CDT.C97_any_rounded
#print axioms CDT.length_ways
#print axioms CDT.same_length
#print axioms CDT.C98_mesh
#print axioms CDT.C98_forced
#print axioms CDT.C98_swaps
#print axioms CDT.C98_swaps_cdt
#print axioms CDT.C98_swaps_rounded
#print axioms CDT.C98_swaps_cdt_rounded
#print axioms CDT.C99_local
#print axioms CDT.C99_insert
#print axioms CDT.C99_cavity
#print axioms CDT.C99_grow
#print axioms CDT.C99_framed
#print axioms CDT.C99_local_rounded
#print axioms CDT.C99_insert_rounded
#print axioms CDT.C99_cavity_rounded
#print axioms CDT.C100_stays
#print axioms CDT.C100_new
#print axioms CDT.C100_stays_rounded
#print axioms CDT.C100_new_rounded
#print axioms CDT.C101_real
#print axioms CDT.C101_real_constrained
#print axioms CDT.C101_axis
#print axioms CDT.C101_axis_constrained
#print axioms CDT.C101_framed
#print axioms CDT.C102_turn
#print axioms CDT.C102_mirror
#print axioms CDT.C102_constrained
#print axioms CDT.C102_turn_rounded
#print axioms CDT.C102_mirror_rounded
#print axioms CDT.C102_constrained_rounded
#print axioms CDT.C102_space
#print axioms CDT.C102_space_axis
#print axioms CDT.C103_count_iff
#print axioms CDT.C103_most
#print axioms CDT.C103_largest
#print axioms CDT.C103_compare
#print axioms CDT.C103_count_iff_rounded
#print axioms CDT.C103_compare_rounded
#print axioms CDT.C104_real
#print axioms CDT.C104_area
#print axioms CDT.C104_axis
#print axioms CDT.C104_axis_area
#print axioms CDT.C104_single

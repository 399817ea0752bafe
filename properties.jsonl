{"id": "C01", "title": "Fewer than three vertices give an empty triangulation", "statement": "Each of the four entry points returns Ok with an empty triangle list when fewer than 3 vertices are given, whatever the constrained edges, the plane normal or the configuration are; no edge index is ever looked at.", "quantifier": "every vertex slice of length 0, 1 or 2, every edge list, every configuration, every arithmetic", "why_tests_cant": "an unbounded set of edge lists and configurations", "anchors": ["src/triangulation.rs:triangulation_from_2d_vertices", "src/triangulation.rs:triangulation_from_3d_planar_vertices", "src/constrained_triangulation.rs:constrained_triangulation_from_2d_vertices", "src/constrained_triangulation.rs:constrained_triangulation_from_3d_planar_vertices"]}
{"id": "C02", "title": "Output indices refer to input vertices", "statement": "Every index of every triangle returned by triangulation_from_2d_vertices / constrained_triangulation_from_2d_vertices is smaller than the number of input vertices; the four artificial infinite vertices never leak into the output.", "quantifier": "every input, every configuration, every (even wrong) outcome of the floating point predicates", "why_tests_cant": "tests only see a few meshes; a leaked sentinel appears only for special flip sequences", "anchors": ["src/triangulation.rs:filter_triangles", "src/constrained_triangulation.rs:cdt_filter_triangles", "src/infinite.rs:is_finite"]}
{"id": "C03", "title": "Output triangles are strictly clockwise", "statement": "Every triangle returned by the unconstrained triangulation is non-degenerate and oriented clockwise in the input coordinates.", "quantifier": "every finite list of vertices (exact arithmetic, predicate values either zero or at least EPSILON)", "why_tests_cant": "a flip of a non-convex quad or a misplaced vertex would invert a triangle only for special geometric configurations", "anchors": ["src/triangulation.rs:wrap_and_triangulate_2d_normalized_vertices", "src/triangulation.rs:check_and_swap_quad_diagonal", "src/utils.rs:is_vertex_in_triangle_circumcircle"]}
{"id": "C04", "title": "Output triangles do not overlap", "statement": "No point of the plane lies strictly inside two different output triangles of the unconstrained triangulation.", "quantifier": "every input, every pair of output triangles, every point of the plane", "why_tests_cant": "quantifies over all points of the plane", "anchors": ["src/triangulation.rs:split_triangle_into_three_triangles", "src/triangulation.rs:split_quad_into_four_triangles", "src/triangulation.rs:check_and_swap_quad_diagonal"]}
{"id": "C05", "title": "Output is edge-manifold", "statement": "Each directed edge belongs to at most one output triangle, so each undirected edge is shared by at most two triangles (on opposite sides), and no triangle is output twice.", "quantifier": "every input, every pair of output triangles", "why_tests_cant": "duplicate edges need particular flip sequences", "anchors": ["src/triangulation.rs:triangulation_from_2d_vertices", "src/triangulation.rs:filter_triangles"]}
{"id": "C06", "title": "The result is a Delaunay triangulation", "statement": "No input vertex lies strictly inside the circumcircle of an output triangle of triangulation_from_2d_vertices.", "quantifier": "every input, every output triangle, every input vertex", "why_tests_cant": "the example tests only check two tiny inputs", "anchors": ["src/triangulation.rs:triangulation_from_2d_vertices", "src/triangulation.rs:restore_delaunay_triangulation", "src/triangulation.rs:should_swap_diagonals"]}
{"id": "C07", "title": "The result covers the convex hull", "statement": "The union of the output triangles of triangulation_from_2d_vertices is the convex hull of the input vertices (in particular three non-collinear vertices give one triangle).", "quantifier": "every input, every point of the convex hull", "why_tests_cant": "quantifies over all points of the plane and all vertex sets", "anchors": ["src/triangulation.rs:triangulation_from_2d_vertices", "src/infinite.rs:is_vertex_in_half_plane_1"]}
{"id": "C08", "title": "Coincident vertices are merged, all others are inserted", "statement": "After a successful unconstrained triangulation every input vertex is either a vertex of the mesh or was merged with another input vertex at the same position (closer than EPSILON) which is a vertex of the mesh; a merged vertex never appears in an output triangle.", "quantifier": "every input including any number of duplicates", "why_tests_cant": "duplicates interact with the insertion order and with the placement search", "anchors": ["src/triangulation.rs:wrap_and_triangulate_2d_normalized_vertices", "src/triangulation.rs:is_vertex_pair_too_close"]}
{"id": "C09", "title": "The unconstrained triangulation always terminates", "statement": "triangulation_from_2d_vertices never loops forever: the Delaunay restoration after every insertion performs a bounded number of diagonal swaps.", "quantifier": "every input, every insertion step", "why_tests_cant": "non-termination cannot be observed by a test", "anchors": ["src/triangulation.rs:restore_delaunay_triangulation", "src/triangulation.rs:check_and_swap_quad_diagonal"]}
{"id": "C10", "title": "The unconstrained triangulation never panics", "statement": "triangulation_from_2d_vertices on at least 3 vertices, not all at the same position, with a configuration giving at least one bin, returns Ok or Err: no out-of-bounds access, no arithmetic underflow, no fixed-capacity overflow.", "quantifier": "every input, every configuration with at least one bin", "why_tests_cant": "a panic hides in rare neighbor configurations", "anchors": ["src/triangulation.rs:find_vertex_placement", "src/triangulation.rs:split_quad_into_four_triangles", "src/infinite.rs:collect_infinite_triangle_vertices"]}
{"id": "C11", "title": "Triangle count", "statement": "The working mesh holds exactly 2m+2 triangles after m vertices have been inserted, hence at most 2n+2 output triangles for n vertices, for any behaviour of the predicates; and at most 2n-2 output triangles when the predicates are exact.", "quantifier": "every input and every intermediate state", "why_tests_cant": "unbounded sizes", "anchors": ["src/triangulation.rs:create_initial_triangles", "src/triangulation.rs:split_triangle_into_three_triangles", "src/triangulation.rs:split_quad_into_four_triangles"]}
{"id": "C12", "title": "Parallel and sequential filtering agree", "statement": "With the parallel_filtering feature the output list is equal, including order, to the list computed sequentially, for every threshold, minimum batch length and way of splitting the work.", "quantifier": "every triangle buffer, threshold, batch split", "why_tests_cant": "depends on the scheduler", "anchors": ["src/triangulation.rs:_multithreaded_filter_triangles", "src/triangulation.rs:_singlethreaded_filter_triangles"]}
{"id": "C13", "title": "Every vertex is processed exactly once", "statement": "The spatial sort used for the insertion order returns a permutation of 0..n, for every density exponent that gives at least one bin, and never indexes outside its bins.", "quantifier": "every vertex list in the unit square and every number of bins per row", "why_tests_cant": "counting sort over arbitrary bins", "anchors": ["src/triangulation.rs:VertexBinSort::sort", "src/triangulation.rs:VertexBinSort::bin_index_from_vertex"]}
{"id": "C14", "title": "Coordinate normalization", "statement": "normalize_vertices_coordinates maps the vertices into the unit square by a translation and a uniform positive scaling, so orientation of every triple and in-circle relation of every quadruple is preserved, and some vertex touches 0 and some touches 1.", "quantifier": "every list of vertices that are not all equal", "why_tests_cant": "all triples and quadruples of all inputs", "anchors": ["src/triangulation.rs:normalize_vertices_coordinates"]}
{"id": "C15", "title": "Result is invariant under translation and uniform scaling", "statement": "Translating all input vertices by the same vector and scaling them by the same positive factor does not change the returned triangle list (constrained and unconstrained).", "quantifier": "every input, translation, positive scale", "why_tests_cant": "metamorphic over unbounded inputs", "anchors": ["src/triangulation.rs:triangulation_from_2d_vertices", "src/constrained_triangulation.rs:constrained_triangulation_from_2d_vertices", "src/triangulation.rs:normalize_vertices_coordinates"]}
{"id": "C16", "title": "3d planar input is projected isometrically", "statement": "For vertices in a plane with unit normal and distinct first two vertices the 3d entry points behave as the 2d ones applied to coordinates that preserve all pairwise distances and the orientation seen from the tip of the normal.", "quantifier": "every coplanar 3d vertex list and unit normal", "why_tests_cant": "all planes of space", "anchors": ["src/triangulation.rs:transform_to_2d_planar_coordinate_system", "src/triangulation.rs:triangulation_from_3d_planar_vertices", "src/constrained_triangulation.rs:constrained_triangulation_from_3d_planar_vertices"]}
{"id": "C17", "title": "Segment intersection classification", "statement": "egdes_intersect returns SharedEdges iff the segments share an endpoint; otherwise OnEdgeTip iff an endpoint of one lies on the other; otherwise Crossing iff they have a common point, which is then interior to both and unique; otherwise None iff they are disjoint. The answer does not depend on the order of the arguments.", "quantifier": "every pair of segments (exact arithmetic)", "why_tests_cant": "continuum of configurations with degenerate cases", "anchors": ["src/utils.rs:egdes_intersect", "src/utils.rs:triplet_orientation", "src/utils.rs:on_segment"]}
{"id": "C18", "title": "Circumcircle test", "statement": "For two triangles sharing an edge and lying on opposite sides, the Cline-Renka test used for swapping holds iff the fourth vertex is strictly inside the circumcircle of the first triangle, and then the four vertices form a strictly convex quad.", "quantifier": "every quadruple of points (exact arithmetic)", "why_tests_cant": "continuum of configurations", "anchors": ["src/utils.rs:is_vertex_in_triangle_circumcircle"]}
{"id": "C19", "title": "Quality checkers are correct", "statement": "check_degenerate_triangles counts exactly the flat and the counter-clockwise triangles; check_circumcircles counts exactly the triangles whose circumcircle strictly contains another vertex of the triangulation; check_delaunay_optimal reports zero everywhere iff all triangles are clockwise and no circumcircle contains a vertex.", "quantifier": "every triangle list and vertex list (exact real arithmetic)", "why_tests_cant": "a checker must be right on every input", "anchors": ["src/utils.rs:check_degenerate_triangles", "src/utils.rs:check_circumcircles", "src/utils.rs:check_delaunay_optimal", "src/utils.rs:get_circumcircle_info"]}
{"id": "C20", "title": "Input validation", "statement": "validate_vertices returns Ok iff no coordinate of any vertex is NaN or infinite, regardless of position in the slice.", "quantifier": "every slice of vertices, every classification of floats", "why_tests_cant": "any position, any length", "anchors": ["src/utils.rs:validate_vertices"]}
{"id": "C21", "title": "Duplicate and degenerate constraints are ignored", "statement": "Constraints whose endpoints coincide after merging and constraints equal to an earlier one do not change the result of the constrained triangulation.", "quantifier": "every vertex list, constraint list and place of the ignored constraint", "why_tests_cant": "any position in any list", "anchors": ["src/constrained_triangulation.rs:apply_constraints"]}
{"id": "C22", "title": "No effective constraint means no output", "statement": "If no constraint has two distinct endpoints after merging, the constrained triangulation, when it succeeds, returns no triangle.", "quantifier": "every vertex list and every list of degenerate constraints", "why_tests_cant": "any input", "anchors": ["src/constrained_triangulation.rs:cdt_filter_triangles", "src/constrained_triangulation.rs:apply_constraints"]}
{"id": "C23", "title": "Constrained output keeps exactly the constrained domains", "statement": "The constrained triangulation outputs exactly the finite mesh triangles that can be reached from a triangle owning a constrained directed edge without leaving a triangle through one of its constrained directed edges; each mesh triangle is output at most once.", "quantifier": "every mesh, every constraint set", "why_tests_cant": "flood fill over arbitrary graphs", "anchors": ["src/constrained_triangulation.rs:cdt_filter_triangles"]}
{"id": "C24", "title": "Holes are excluded", "statement": "A region of the mesh none of whose triangles owns a constrained directed edge, and which can only be entered through constrained directed edges (a counter-clockwise contour), contributes no triangle to the constrained output.", "quantifier": "every mesh, every constraint set, every region", "why_tests_cant": "arbitrary regions", "anchors": ["src/constrained_triangulation.rs:cdt_filter_triangles"]}
{"id": "C25", "title": "Flood fill terminates within the mesh size", "statement": "The domain exploration of the constrained triangulation visits each triangle at most once and always terminates, without out-of-bounds access on meshes whose neighbor ids are valid.", "quantifier": "every mesh with valid neighbor ids, every constraint set", "why_tests_cant": "termination", "anchors": ["src/constrained_triangulation.rs:cdt_filter_triangles"]}
{"id": "C26", "title": "Constrained restoration terminates", "statement": "The Delaunay restoration after inserting a constraint performs at most one swap per ordered pair of triangles and always terminates, for any behaviour of the predicates.", "quantifier": "every mesh, every queue of diagonals, every arithmetic", "why_tests_cant": "termination under arbitrary floating point behaviour", "anchors": ["src/constrained_triangulation.rs:restore_delaunay_triangulation_constrained"]}
{"id": "C27", "title": "Constraint insertion always terminates", "statement": "constrained_triangulation_from_2d_vertices never loops forever, even if the constraints violate the documented requirements (the changelog of 0.2.0 claims the possible infinite loop of remove_crossed_edges is avoided).", "quantifier": "every vertex list and constraint list", "why_tests_cant": "non-termination cannot be observed by a test", "anchors": ["src/constrained_triangulation.rs:remove_crossed_edges"]}
{"id": "C28", "title": "The constrained triangulation never panics on valid input", "statement": "constrained_triangulation_from_2d_vertices returns Ok or Err for every input that satisfies the documented requirements.", "quantifier": "every valid input", "why_tests_cant": "rare crossing patterns through infinite edges", "anchors": ["src/constrained_triangulation.rs:quad_diagonals_intersection", "src/infinite.rs:collect_infinite_quad_vertices", "src/infinite.rs:infinite_vertex_local_quad_index"]}
{"id": "C29", "title": "Valid constraints are accepted", "statement": "For pairwise non-crossing constraints that do not pass through vertices constrained_triangulation_from_2d_vertices succeeds and every constraint is an edge of the final mesh.", "quantifier": "every valid input", "why_tests_cant": "all vertex sets and constraint sets", "anchors": ["src/constrained_triangulation.rs:apply_constraints", "src/constrained_triangulation.rs:register_intersected_edges", "src/constrained_triangulation.rs:remove_crossed_edges"]}
{"id": "C30", "title": "Constraint insertion keeps the mesh valid", "statement": "Whenever the constraint phase succeeds, all mesh triangles are still strictly clockwise, pairwise non-overlapping, adjacency is symmetric and exactly the same vertices are in the mesh; so constrained output triangles are clockwise, non overlapping and edge-manifold.", "quantifier": "every input (exact arithmetic), every constraint list, valid or not", "why_tests_cant": "all swap sequences", "anchors": ["src/constrained_triangulation.rs:swap_quad_diagonal", "src/constrained_triangulation.rs:remove_crossed_edges", "src/constrained_triangulation.rs:restore_delaunay_triangulation_constrained"]}
{"id": "C31", "title": "A present constraint survives later non-crossing ones", "statement": "Once an edge is in the mesh it is still an edge after inserting further constraints, unless a later constraint properly crosses it.", "quantifier": "every mesh, every edge, every list of later constraints", "why_tests_cant": "all swap sequences", "anchors": ["src/constrained_triangulation.rs:remove_crossed_edges", "src/constrained_triangulation.rs:restore_delaunay_triangulation_constrained"]}
{"id": "C32", "title": "Placement search is sound", "statement": "When the search for a vertex succeeds the reported triangle really contains the vertex: strictly inside for InsideTriangle, on the reported edge for OnTriangleEdge.", "quantifier": "every mesh, start triangle and vertex (exact arithmetic)", "why_tests_cant": "all walks", "anchors": ["src/triangulation.rs:find_vertex_placement", "src/infinite.rs:vertex_placement_1_infinite_vertex", "src/infinite.rs:vertex_placement_2_infinite_vertex"]}
{"id": "C33", "title": "Adjacency in every recorded state is symmetric", "statement": "In the working mesh (visible through debug_context snapshots) if triangle j is the neighbor of i across an edge then i is the neighbor of j across the same edge reversed, a missing neighbor only occurs on the outer infinite edges, and all ids are in range.", "quantifier": "every state after any number of insertions and swaps", "why_tests_cant": "all histories", "anchors": ["src/types.rs:TriangleData", "src/triangulation.rs:update_triangle_neighbor", "src/constrained_triangulation.rs:update_neighbor_neighbor", "src/debug.rs:DebugSnapshot"]}
{"id": "C34", "title": "Whole plane is tiled", "statement": "In every state the finite and pseudo-infinite triangles together tile the plane: every point in general position lies in exactly one of them.", "quantifier": "every state, every point of the plane in general position", "why_tests_cant": "all points, all histories", "anchors": ["src/triangulation.rs:create_initial_triangles", "src/triangulation.rs:split_triangle_into_three_triangles", "src/triangulation.rs:split_quad_into_four_triangles", "src/triangulation.rs:check_and_swap_quad_diagonal"]}
{"id": "C35", "title": "Restoration leaves no swappable edge around the inserted vertex", "statement": "After the restoration that follows an insertion, no edge opposite to the inserted vertex satisfies the swap test any more.", "quantifier": "every insertion of every run", "why_tests_cant": "all swap sequences", "anchors": ["src/triangulation.rs:restore_delaunay_triangulation", "src/triangulation.rs:check_and_swap_quad_diagonal"]}
{"id": "C36", "title": "Extrapolated segments are long enough", "statement": "For vertices in the unit square replacing a semi-infinite edge by a segment of length 1.42 does not change whether it crosses a constrained edge or another semi-infinite edge.", "quantifier": "every vertex and every segment in the unit square, every infinite direction", "why_tests_cant": "continuum of configurations", "anchors": ["src/infinite.rs:edge_from_semi_infinite_edge", "src/constrained_triangulation.rs:edge_and_constrained_edge_intersection", "src/infinite.rs:quad_diagonals_intersection_1_infinite"]}
{"id": "C37", "title": "Debug recording is transparent", "statement": "With the debug_context feature and no forced end, the returned triangles (or error) are the same as without it, whatever is recorded; snapshots are recorded exactly when phase and step match the configuration, with non-decreasing steps.", "quantifier": "every input and every debug configuration", "why_tests_cant": "all configurations and histories", "anchors": ["src/debug.rs:DebugContext::push_snapshot_event", "src/debug.rs:DebugContext::advance_step"]}
{"id": "C38", "title": "Forced end stops early but returns a valid mesh", "statement": "With force_end_at_step = k the unconstrained run performs exactly the insertions of the steps before k and returns the triangulation of that prefix of the insertion order.", "quantifier": "every input and every k", "why_tests_cant": "all k", "anchors": ["src/debug.rs:DebugContext::advance_step", "src/triangulation.rs:wrap_and_triangulate_2d_normalized_vertices"]}
{"id": "C39", "title": "Sentinel ids never collide for supported sizes", "statement": "If 2n+2 does not exceed the maximal index then no real vertex id is taken for an infinite vertex and no triangle id for the missing neighbor; just above the vertex limit a real vertex id is classified as infinite.", "quantifier": "every n and both index widths", "why_tests_cant": "sizes around 2^31 and 2^63 cannot be tested", "anchors": ["src/infinite.rs:is_infinite", "src/types.rs:Neighbor", "src/types.rs:Triangles::next_id"]}
{"id": "C40", "title": "Bounded search loops", "statement": "The walk that locates a vertex, the circling around a vertex and the walk along a constrained edge each stop after at most as many steps as there are triangles, for any neighbor data and predicates.", "quantifier": "every mesh, even corrupted, every arithmetic", "why_tests_cant": "termination", "anchors": ["src/triangulation.rs:find_vertex_placement", "src/constrained_triangulation.rs:loop_around_vertex_and_search_intersection", "src/constrained_triangulation.rs:register_intersected_edges"]}
{"id": "C41", "title": "Every input with distinct vertices is triangulated", "statement": "triangulation_from_2d_vertices returns Ok (never the error 'placement not found') for every list of at least three distinct finite vertices.", "quantifier": "every finite list of distinct vertices, every order of insertion", "why_tests_cant": "The walk that locates a vertex only fails for particular meshes that are not Delaunay; random tests hit such a mesh extremely rarely, and no finite set of tests shows that the walk never cycles.", "anchors": ["src/triangulation.rs:find_vertex_placement"]}
{"id": "C42", "title": "Similarity invariance in floating point", "statement": "In f32 and f64, scaling all vertices by a power of two and translating them changes nothing: when the original and the transformed coordinates are all representable and the extents do not overflow, the normalized coordinates are identical bit by bit and the unconstrained and constrained triangulations have equal outcomes.", "quantifier": "every IEEE format with f32 or f64 parameters or wider, every vertex list with representable coordinates, every power of two and every translation for which the images are representable, every configuration, every constrained edge list", "why_tests_cant": "An equality for all scales, translations and inputs; a rounding difference in one last bit of one coordinate can change the triangulation of cocircular points.", "anchors": ["src/triangulation.rs:normalize_vertices_coordinates", "src/triangulation.rs:triangulation_from_2d_vertices", "src/constrained_triangulation.rs:constrained_triangulation_from_2d_vertices"]}
{"id": "C43", "title": "Normalization and bins for every float", "statement": "In f32 and f64, for any vertices including infinities, NaN, subnormals and extents that overflow: each normalized coordinate is NaN or lies in [0, 1], and the spatial sort indexes no bin out of range and returns every vertex exactly once.", "quantifier": "every vertex list over every IEEE format at least as wide as f32, every bin count from 1 to usize::MAX", "why_tests_cant": "Special values combine in unboundedly many ways (overflowing extent, infinite minimum, NaN after inf - inf); an out-of-range bin is an index panic for one particular rounding of 0.99 * bins.", "anchors": ["src/triangulation.rs:normalize_vertices_coordinates", "src/triangulation.rs:VertexBinSort::sort", "src/triangulation.rs:VertexBinSort::bin_index_from_vertex"]}
{"id": "C44", "title": "Integer grids with a power-of-two extent are triangulated without rounding error", "statement": "For vertices with integer coordinates whose larger bounding-box side is 2^k, with k at most 12 in f64 and at most 5 in f32, all predicates of the unconstrained triangulation are evaluated exactly even for collinear, cocircular and duplicate vertices: the run does not panic, every output triangle is clockwise in the plane of the input, triangles do not overlap, no directed edge is used twice, and there are at most 2n-2 of them. The constrained triangulation is exact as well if no line through two vertices passes exactly through the cut-off end of an unbounded edge.", "quantifier": "every list of integer vertices with that extent (any translation up to the precision of the format), every configuration with 1 to usize::MAX bins, every constraint list", "why_tests_cant": "Exactness of all predicate evaluations is a claim about every combination of grid points; degenerate positions are exactly where rounding would show, and there are about 2^24 grid points to choose each vertex from.", "anchors": ["src/utils.rs:test_point_edge_side", "src/utils.rs:is_vertex_in_triangle_circumcircle", "src/utils.rs:egdes_intersect", "src/triangulation.rs:normalize_vertices_coordinates", "src/triangulation.rs:triangulation_from_2d_vertices"]}
{"id": "C45", "title": "Output triangles have three different vertices", "statement": "Every triangle returned by the unconstrained or the constrained triangulation consists of three different vertex indices.", "quantifier": "every vertex list, every constraint list, every configuration", "why_tests_cant": "A repeated index needs a sequence of swaps decided by contradicting rounding errors; random inputs practically never contain it, and the smallest integer example has coordinates around 10^9.", "anchors": ["src/triangulation.rs:triangulation_from_2d_vertices", "src/triangulation.rs:check_and_swap_quad_diagonal", "src/constrained_triangulation.rs:constrained_triangulation_from_2d_vertices"]}
{"id": "C47", "title": "Only panic of the unconstrained triangulation, and its root cause", "statement": "Whatever the predicates answer (in particular with f32/f64 rounding, infinities and NaN): the only way triangulation_from_2d_vertices can panic is that a vertex which is not merged is placed on an edge without a neighbor triangle. A panic, a run that does not end, a returned mesh with inconsistent neighbor links, and a triangle with a repeated vertex all imply that an earlier mesh of the same run contained two different triangles with the same three vertices.", "quantifier": "every arithmetic (no law assumed), every vertex list for which the spatial sort returns a permutation; for IEEE formats every vertex list and every bin count from 1 to usize::MAX; every number of vertices that fits the id type", "why_tests_cant": "The claim is about all possible answers of the predicates, i.e. all control paths; there are several unwraps and unchecked indexings on each path, and reaching the one that fails needs a carefully built input.", "anchors": ["src/triangulation.rs:wrap_and_triangulate_2d_normalized_vertices", "src/triangulation.rs:find_vertex_placement", "src/triangulation.rs:split_quad_into_four_triangles", "src/triangulation.rs:check_and_swap_quad_diagonal", "src/infinite.rs:vertex_placement_1_infinite_vertex", "src/infinite.rs:vertex_placement_2_infinite_vertex"]}
{"id": "C46", "title": "Index tables and small helpers are mutually consistent", "statement": "For a triangle with three different vertices: the three edges go around it; next_clockwise/next_counter_clockwise edge and vertex, the edge opposite to a vertex, the vertex opposite to an edge, the two edges at a vertex and get_vertex_index/vertex_index/get_opposite_vertex_index agree with the incidence of edges and vertices, for either direction of the given edge. The quad tables pair each diagonal with itself. to_vertices looks up the corners of a triangle and the ends of an edge in order and panics exactly if an index is out of range. Undirected edge equality is equality up to direction. A triangle is finite exactly if it has no artificial vertex. The side tests split the numbers into right, collinear and left, and the strict tests and the neighborhood of the edge are disjoint; is_point_on_right_side_of_edge includes the line and is_point_strictly_on_right_side_of_edge the bound; in exact arithmetic right is clockwise, and triplet_orientation agrees with the side tests.", "quantifier": "every triangle with different vertices, every index; side tests: every finite value of every correctly rounded arithmetic", "why_tests_cant": "The tables are small, but their consistency is used for all vertex ids (including the artificial ones) and all rounding results; a unit test checks single entries against themselves.", "anchors": ["src/types.rs:next_clockwise_edge_index", "src/types.rs:opposite_edge_index", "src/types.rs:opposite_vertex_index", "src/types.rs:vertex_index", "src/types.rs:undirected_equals", "src/types.rs:QuadVertexIndex", "src/utils.rs:is_point_strictly_on_right_side_of_edge"]}
{"id": "C48", "title": "Answer of the circumcircle test for a flat triangle", "statement": "If the three points of the circle are collinear and the tested vertex is strictly on its side of the shared edge, is_vertex_in_triangle_circumcircle answers true exactly when the third point is strictly between the ends of the shared edge. (The remark in the source that it seems to answer false for a flat triangle is not correct.)", "quantifier": "every collinear triple and every fourth point strictly on one side, in exact arithmetic; the counterexample to the remark also in f64", "why_tests_cant": "Flat triangles are a null set of the input space; whether the answer is harmless depends on the order of the three points.", "anchors": ["src/utils.rs:is_vertex_in_triangle_circumcircle"]}
{"id": "C49", "title": "Collinear vertices give no triangle", "statement": "If all vertices lie on one line, the triangulation (with or without constraints) returns an empty list of triangles.", "quantifier": "every list of vertices on a common line in any direction, any multiplicities, every bin count, every constraint list", "why_tests_cant": "In most directions a line has no exactly representable triple of points that survives normalization without rounding; whether a sliver is produced depends on the last bits.", "anchors": ["src/triangulation.rs:triangulation_from_2d_vertices", "src/triangulation.rs:normalize_vertices_coordinates", "src/utils.rs:test_point_edge_side"]}
{"id": "C50", "title": "Error of the normalization", "statement": "Each normalized coordinate is finite, nonnegative, and differs from (coordinate - smallest coordinate) / (larger side of the bounding box) by at most 3.2 unit roundoffs relative to it plus one smallest positive number; scaled back this is at most 4 unit roundoffs of the extent.", "quantifier": "every vertex list with finite coordinates whose extent does not overflow, every correctly rounded arithmetic (instances: IEEE f32 and f64)", "why_tests_cant": "An error bound is a statement about all roundings of a subtraction, a maximum and a division; tests see single values.", "anchors": ["src/triangulation.rs:normalize_vertices_coordinates"]}
{"id": "C51", "title": "Constraints that are edges already change nothing", "statement": "If after inserting some constraints an edge between two positions is in the mesh, then inserting further constraints between these positions (in either direction, with any vertex indices at these positions) succeeds and leaves the mesh and the vertex-to-triangle map unchanged.", "quantifier": "every vertex list in exact arithmetic (robust vertex lists in rounded arithmetic), every constraint list, every list of further constraints that are edges of the mesh", "why_tests_cant": "The walk around the first vertex and the first crossed edge must be right for every mesh and every start triangle; a wrong side decision would flip edges of a finished mesh.", "anchors": ["src/constrained_triangulation.rs:apply_constraints", "src/constrained_triangulation.rs:register_intersected_edges", "src/constrained_triangulation.rs:loop_around_vertex_and_search_intersection"]}
{"id": "C52", "title": "The mesh is a planar straight-line mesh", "statement": "In the output of both triangulations, and in the mesh after inserting any constraints: different mesh vertices are at different positions, no two edges cross, no mesh vertex lies inside an edge, and a mesh vertex in a closed triangle is one of its corners.", "quantifier": "every vertex list in exact arithmetic (robust vertex lists in rounded arithmetic), every constraint list, crossing and degenerate ones included", "why_tests_cant": "Planarity is a statement about all pairs of edges and vertices of all reachable meshes; tests compare a few outputs with stored ones.", "anchors": ["src/triangulation.rs:triangulation_from_2d_vertices", "src/constrained_triangulation.rs:constrained_triangulation_from_2d_vertices", "src/constrained_triangulation.rs:remove_crossed_edges"]}
{"id": "C53", "title": "Framed points: success and a Delaunay triangulation", "statement": "If the vertices are points strictly inside an axis-parallel rectangle followed by the four corners of the rectangle in any order, and the vertices are inserted without binning (one bin), then triangulation_from_2d_vertices succeeds, no input vertex lies strictly inside the circumcircle of an output triangle, and every point strictly inside the rectangle lies in an output triangle.", "quantifier": "every number and position of the inner points (equal, collinear and cocircular ones included) and every order of the corners, in exact arithmetic with predicates separated from zero; robust inputs and integer grids in f32 and f64", "why_tests_cant": "The general claim (C06) is false, so that tests on small inputs cannot tell which inputs are safe; termination of the search and emptiness of all circumcircles are statements about all meshes of a run.", "anchors": ["src/triangulation.rs:triangulation_from_2d_vertices", "src/triangulation.rs:find_vertex_placement", "src/triangulation.rs:restore_delaunay_triangulation", "src/triangulation.rs:should_swap_diagonals", "src/triangulation.rs:wrap_and_triangulate_2d_normalized_vertices"]}
{"id": "C54", "title": "Exact insertion order", "statement": "The bins are numbered along a boustrophedon path through the grid, so that consecutive bins share a side; the spatial sort lists the vertices bin by bin along that path, and inside one bin by decreasing index.", "quantifier": "every vertex list, every number of bins per row, any arithmetic in which the computed cells lie in the grid (in particular exact arithmetic on the unit square)", "why_tests_cant": "a wrong order is still a permutation and usually still gives a valid triangulation; only its speed and the choice among equal circumcircles change", "anchors": ["src/triangulation.rs:VertexBinSort::sort", "src/triangulation.rs:VertexBinSort::bin_index_from_bin_position"]}
{"id": "C55", "title": "Order of the input vertices", "statement": "If the input vertices are listed in another order that keeps the relative order inside each bin, the result is the same triangle list with renamed indices (and a panic or endless loop stays one); in particular no order matters when every bin holds at most one vertex.", "quantifier": "every vertex list, every permutation keeping the order inside bins, every number of bins, any arithmetic in which the bounding box is independent of the order (in particular exact arithmetic)", "why_tests_cant": "relates two runs for every permutation", "anchors": ["src/triangulation.rs:triangulation_from_2d_vertices", "src/triangulation.rs:wrap_and_triangulate_2d_normalized_vertices", "src/triangulation.rs:VertexBinSort::sort"]}
{"id": "C56", "title": "Framed points: constraints are always accepted", "statement": "If the last four vertices are the corners of an axis-parallel rectangle and the other vertices lie strictly inside it, and there is one bin, then every list of constraints that do not cross each other and do not pass through vertices is accepted: the constrained triangulation succeeds and each constraint is an edge of its mesh.", "quantifier": "every framed vertex list and every constraint list of this kind; exact arithmetic with separated predicates, and f32/f64 on robust inputs (e.g. grids)", "why_tests_cant": "success for all inputs of a class; both phases of the algorithm are involved", "anchors": ["src/constrained_triangulation.rs:constrained_triangulation_from_2d_vertices", "src/constrained_triangulation.rs:apply_constraints", "src/triangulation.rs:wrap_and_triangulate_2d_normalized_vertices"]}
{"id": "C57", "title": "The constrained output fills exactly the region bounded by the constraints", "statement": "Let the constraints be non-crossing closed curves that wind 0 or 1 times clockwise around every point (a polygon with holes, or several). If the constrained triangulation succeeds, then a point not on a constraint lies in a closed output triangle exactly when the constraints wind once around it. The areas of the output triangles add up to the shoelace area of the constraints. For framed points the run does succeed.", "quantifier": "every vertex list, every list of constraints of this kind (any number of border curves and holes), every query point; exact arithmetic with separated predicates, and f32/f64 on robust inputs (e.g. grids)", "why_tests_cant": "all polygons and all query points; tests compare single images", "anchors": ["src/constrained_triangulation.rs:constrained_triangulation_from_2d_vertices", "src/constrained_triangulation.rs:cdt_filter_triangles", "src/constrained_triangulation.rs:apply_constraints"]}
{"id": "C58", "title": "Tracking merged vertices does not change the triangulation", "statement": "The constrained entry point builds its mesh with a table of merged vertices, the unconstrained one without. Both build the same mesh: the runs succeed, fail, panic or diverge together, with the same triangles. With no constraint the mesh of the constrained run is the one the unconstrained run returns; a constrained run succeeds only if the unconstrained run does.", "quantifier": "every vertex list (duplicates included), every list of constraints, every number of bins; any arithmetic, lawless floats included", "why_tests_cant": "relates two runs on all inputs, duplicates and failing runs included", "anchors": ["src/triangulation.rs:wrap_and_triangulate_2d_normalized_vertices", "src/constrained_triangulation.rs:constrained_triangulation_from_2d_vertices"]}
{"id": "C59", "title": "Edges that are no constraint are locally Delaunay in the constrained output", "statement": "In the output of the constrained triangulation, for every edge of two output triangles that is not a constraint, the opposite vertex of either triangle is not strictly inside the circumcircle of the other one.", "quantifier": "every vertex list and every list of accepted constraints", "why_tests_cant": "all vertex sets and all constraint sets; the violation needs a later swap beside an edge already visited", "anchors": ["src/constrained_triangulation.rs:restore_delaunay_triangulation_constrained", "src/constrained_triangulation.rs:remove_crossed_edges", "src/constrained_triangulation.rs:constrained_should_swap_diagonals"]}
{"id": "C60", "title": "Framed points: the output is the complete Delaunay triangulation and does not depend on the order", "statement": "For points in a rectangle followed by its corners (one bin), every clockwise triangle of input points whose closed circumdisc contains no other input point is an output triangle. If no four points are on an empty circle, the output triangles are exactly the clockwise triangles with an empty circumcircle; two lists of the same points, in any order, give the same triangles.", "quantifier": "every framed vertex list (duplicates allowed), every triangle of its points; exact arithmetic with separated predicates, and f32/f64 on robust inputs (e.g. grids)", "why_tests_cant": "a statement about all triangles and all orders of the points", "anchors": ["src/triangulation.rs:triangulation_from_2d_vertices", "src/triangulation.rs:restore_delaunay_triangulation", "src/triangulation.rs:wrap_and_triangulate_2d_normalized_vertices"]}
{"id": "C61", "title": "The input vertex types", "statement": "The generic entry points give the result for the vertices (x(), y()) in the number type of the build; 3d vertices are projected in their own number type and then cast. A cast to the same or a wider format (f32 vertices in an f64 build) changes no coordinate, so the result is the one for the same points given as f64. A cast to a narrower format gives the nearest number and keeps the order of coordinates; distinct vertices may become equal (kernel-checked).", "quantifier": "every vertex list, every implementation of the traits in any arithmetic; every pair of binary formats", "why_tests_cant": "all input lists, all four vertex types in both builds", "anchors": ["src/types/vertex.rs:x", "src/types/vertex.rs:y", "src/types/vertex.rs:dot", "src/triangulation.rs:triangulation_from_2d_vertices", "src/triangulation.rs:triangulation_from_3d_planar_vertices", "src/constrained_triangulation.rs:constrained_triangulation_from_2d_vertices", "src/constrained_triangulation.rs:constrained_triangulation_from_3d_planar_vertices"]}
{"id": "C62", "title": "Normalization without NaN", "statement": "If no difference of coordinates overflows and the vertices are not all at the same position, every normalized coordinate is a number in [0, 1]: no NaN, no infinity. This holds for all finite f32 vertices in an f64 build.", "quantifier": "every vertex list with finite coordinates of the format and no overflowing difference; both formats", "why_tests_cant": "all values of the format, subnormal and extreme ones included", "anchors": ["src/triangulation.rs:normalize_vertices_coordinates"]}
{"id": "C63", "title": "The density of the bins", "statement": "A density that is not negative gives at least one bin per row, a density of at most 2 at most as many as vertices. With a negative density p, every input with more than 2^(2/|p|) vertices (and at least three) makes both entry points panic. For the default 1/2 the number of bins is the number of k >= 1 with (k - 1/2)^4 <= n.", "quantifier": "every density (a real number), every vertex list, any arithmetic for the triangulation; powf as the power of real numbers", "why_tests_cant": "all densities and all inputs; the tests use one density", "anchors": ["src/triangulation.rs:sort", "src/triangulation.rs:bin_index_from_vertex"]}
{"id": "C64", "title": "3d vertices in a plane parallel to two axes", "statement": "In f32 and f64: for vertices with a common coordinate, an axis direction as normal, and first two vertices that differ along one axis by a length that is normalized exactly (every power of two; 3 but not 49 in f64), the 3d entry points give the result of the 2d ones for exact coordinates that preserve all distances and all areas seen from the tip of the normal. Nothing is rounded in the projection.", "quantifier": "every vertex list in a plane parallel to two axes, all six normals and all directions of the first edge; every binary format", "why_tests_cant": "all coordinates of the format", "anchors": ["src/triangulation.rs:transform_to_2d_planar_coordinate_system", "src/triangulation.rs:triangulation_from_3d_planar_vertices", "src/constrained_triangulation.rs:constrained_triangulation_from_3d_planar_vertices", "src/types/vertex.rs:normalize", "src/types/vertex.rs:cross", "src/types/vertex.rs:dot"]}
{"id": "C65", "title": "All panics of the constrained triangulation", "statement": "Whatever the predicates answer (in particular with f32/f64 rounding): the constrained triangulation panics exactly if (1) the triangulation of the vertices panics, at the site of C47, or (2) a constraint names a missing vertex, or (3) the search around the first vertex of a constraint meets a missing neighbor in both directions, or (4) remove_crossed_edges takes an edge whose first recorded triangle has an artificial vertex opposite to it. The restoration of the Delaunay property, the vertex-to-triangle table and the final filter never panic. In exact arithmetic (1) and (3) do not occur.", "quantifier": "every arithmetic, every vertex list that can be sorted into bins (every list of f32/f64 values), every list of constraints", "why_tests_cant": "all inputs and all answers of the predicates", "anchors": ["src/constrained_triangulation.rs:constrained_triangulation_from_2d_vertices", "src/constrained_triangulation.rs:apply_constraints", "src/constrained_triangulation.rs:remove_crossed_edges", "src/constrained_triangulation.rs:register_intersected_edges", "src/constrained_triangulation.rs:restore_delaunay_triangulation_constrained", "src/constrained_triangulation.rs:quad_diagonals_intersection", "src/constrained_triangulation.rs:search_first_interstected_quad", "src/infinite.rs:collect_infinite_quad_vertices"]}
{"id": "C66", "title": "What goes wrong first in the constrained triangulation", "statement": "Whatever the predicates answer: while vertices and constraints are inserted, neighbor links, the vertices of each triangle and the vertex-to-triangle table stay consistent, every input vertex stays in the mesh or merged with a vertex of the mesh, and no output triangle has a repeated vertex or occurs twice, until one of three things happens: a swap during the insertion of a vertex makes two triangles on the same three vertices; a swap during the insertion of a constraint does; or the search for the edges crossed by a constraint lists an edge twice. If the constraints name existing vertices, every panic other than an artificial vertex opposite to an edge to be removed comes after one of these three.", "quantifier": "every arithmetic, every vertex list that can be sorted into bins (every list of f32/f64 values), every list of constraints", "why_tests_cant": "all inputs and all answers of the predicates", "anchors": ["src/constrained_triangulation.rs:constrained_triangulation_from_2d_vertices", "src/constrained_triangulation.rs:apply_constraints", "src/constrained_triangulation.rs:remove_crossed_edges", "src/constrained_triangulation.rs:register_intersected_edges", "src/constrained_triangulation.rs:swap_quad_diagonal", "src/constrained_triangulation.rs:update_edges_data", "src/constrained_triangulation.rs:restore_delaunay_triangulation_constrained", "src/triangulation.rs:wrap_and_triangulate_2d_normalized_vertices"]}
{"id": "C67", "title": "Integer coordinates in general position are triangulated correctly in floating point", "statement": "Vertices with integer coordinates whose largest coordinate difference W satisfies 512 W^4 <= 2^prec (f64: W <= 2048, f32: W <= 13), no three of them on an oblique line and no triangle whose circle passes through a vertex beyond one of its edges: the f64/f32 run does not panic, its triangles are clockwise, pairwise disjoint, edge-manifold, and at most 2n-2, although the normalization rounds. The conclusions of all theorems on rounded runs (C27-C31, C51-C53, C56, C57, C60) hold as well; for constrained runs no line through two vertices may pass exactly through the cut-off end of an unbounded edge.", "quantifier": "all such lists of integer points, any number of vertices, any position, IEEE formats", "why_tests_cant": "a test covers single inputs; here all integer inputs of this size are covered", "anchors": ["src/triangulation.rs:triangulation_from_2d_vertices", "src/triangulation.rs:normalize_vertices_coordinates", "src/constrained_triangulation.rs:constrained_triangulation_from_2d_vertices"]}
{"id": "C68", "title": "Locally Delaunay results are constrained Delaunay", "statement": "If across every common edge that is no constraint the far corner of the one output triangle is not strictly inside the circumcircle of the other, then no input vertex that can be seen from a point inside an output triangle lies strictly inside its circumcircle. Seen: the open segment contains no vertex and no point of a constraint, and stays in the output triangles. For framed points, one bin and constraints that cross at most one edge each, this is the case.", "quantifier": "all Good inputs (exact arithmetic) and all robust or grid inputs (f32, f64), all constraint lists, all successful runs", "why_tests_cant": "the condition relates every triangle to every vertex along every line of sight", "anchors": ["src/constrained_triangulation.rs:constrained_triangulation_from_2d_vertices", "src/constrained_triangulation.rs:restore_delaunay_triangulation_constrained", "src/constrained_triangulation.rs:remove_wrapping_and_unconstrained_domains"]}
{"id": "C69", "title": "The constrained triangulation does not depend on the order of vertices and constraints", "statement": "Two runs on the same points and the same border constraints, numbered and ordered in any way, with any bin counts and in any of the float types, that both end locally Delaunay (C59), return the same triangles as positions in the plane, unless a vertex that can be seen from a triangle of the first result is on its circumcircle. For framed points, one bin and constraints that cross at most one edge each, both runs do end locally Delaunay.", "quantifier": "all Good inputs (exact arithmetic) and all robust or grid inputs (f32, f64), all non-crossing constraints that bound a region, all orders", "why_tests_cant": "the number of orders is factorial, and the claim compares two runs", "anchors": ["src/constrained_triangulation.rs:constrained_triangulation_from_2d_vertices", "src/constrained_triangulation.rs:apply_constraints", "src/triangulation.rs:triangulation_from_2d_vertices"]}
{"id": "C70", "title": "Error of the projection of 3d vertices", "statement": "In f32 and f64: for vertices in any plane, if no operation overflows or underflows, the projected coordinates are the coordinates in the orthogonal frame given by the direction of the first two vertices and the true unit normal N, up to 13 units of relative rounding error times |x|+|y|+|z| of the vertex, plus 1.5 times the error of the given normal times the same. So distances between projected vertices are the distances in space, up to 30 such units (2^-53 or 2^-24) of the coordinates of both vertices when the normal is correctly rounded. The error is relative to the coordinates, not to the extent of the vertices.", "quantifier": "all lists of 3d vertices with coordinates up to 2^500 (f64) or 2^60 (f32), first two vertices at least 2^-500 (2^-60) apart, all planes, all normals within 1/100 of a unit normal", "why_tests_cant": "a bound on the error for all floats and all planes cannot be tested; the existing test uses one plane parallel to the axes", "anchors": ["src/triangulation.rs:transform_to_2d_planar_coordinate_system", "src/triangulation.rs:triangulation_from_3d_planar_vertices", "src/types/vertex.rs:Vertex3d"]}
{"id": "C71", "title": "Three vertices", "statement": "With one bin (the default density gives one bin for three vertices), three vertices a, b, c that are not collinear give exactly the one clockwise triangle of their indexes, (0,1,2) or (0,2,1), unless c is strictly between a and b in both coordinates; in that case, and when they are collinear (or two of them coincide), the result is Ok and empty. So the inputs on which a single triangle is lost are known exactly, and they depend on the order of the vertices only.", "quantifier": "for every three vertices whose predicates are separated from zero by EPSILON: exact arithmetic over every ordered field; f32 and f64 on robust inputs and on grids; both index types", "why_tests_cant": "the triples form a six-dimensional continuum and the failing ones are a thin, order-dependent part of it; a test suite checks some triangles and cannot show that no other triple is lost", "anchors": ["src/triangulation.rs:triangulation_from_2d_vertices", "src/triangulation.rs:wrap_and_triangulate_2d_normalized_vertices", "src/triangulation.rs:find_vertex_placement", "src/triangulation.rs:should_swap_diagonals"]}
{"id": "C72", "title": "Points inside the hull of a correctly triangulated frame", "statement": "Take a list of vertices (the frame) whose triangulation is Delaunay and covers every point strictly on the inner side of some lines, no frame vertex being on the outer side of any of the lines. With one bin, put any further vertices strictly inside the lines in front of the frame: the triangulation is Ok, every triangle has an empty circumcircle with respect to all vertices, and the region is still covered. In particular three vertices a, b, c with any points inside their triangle in front of them are triangulated correctly unless c is strictly between a and b in both coordinates.", "quantifier": "for every frame, every convex region given by lines and every number of points inside: exact arithmetic over every ordered field; f32 and f64 on robust inputs and on grids", "why_tests_cant": "any convex frame and any number of points inside it; the default triangulation of general points is not Delaunay, and no test can show that a frame of three or more points is always enough", "anchors": ["src/triangulation.rs:triangulation_from_2d_vertices", "src/triangulation.rs:wrap_and_triangulate_2d_normalized_vertices", "src/triangulation.rs:find_vertex_placement", "src/triangulation.rs:restore_delaunay_triangulation"]}
{"id": "C73", "title": "Constraints in a triangulation that covers the convex hull", "statement": "If the unconstrained triangulation of the vertices covers the interior of their convex hull (given as the inner side of some lines, no vertex being outside), then constraints that do not cross each other and do not pass through vertices are all accepted: the constrained run is Ok and every constraint is an edge of the mesh; with closed borders the result covers exactly the enclosed points. If the unconstrained result is moreover Delaunay and every constraint crosses at most one of its edges, the result is constrained Delaunay.", "quantifier": "for every input whose unconstrained result covers the hull, any bins, any order and any number of constraints: exact arithmetic over every ordered field; f32 and f64 on robust inputs and on grids", "why_tests_cant": "the crate panics or fails on constraints near uncovered parts of the hull; a test shows that some inputs work, not that covering the hull is all that is needed", "anchors": ["src/constrained_triangulation.rs:constrained_triangulation_from_2d_vertices", "src/constrained_triangulation.rs:apply_constraints", "src/constrained_triangulation.rs:register_intersected_edges", "src/constrained_triangulation.rs:remove_crossed_edges"]}
{"id": "C74", "title": "A test that decides whether a result is the Delaunay triangulation of the convex hull", "statement": "A non-empty result of the unconstrained entry point covers the whole convex hull of its vertices and is Delaunay if and only if (1) every side of a result triangle either is the side of another result triangle or has all vertices on its inner side, and (2) no result triangle has the opposite corner of a neighbor strictly inside its circumcircle. After (1) alone, non-crossing constraints that do not pass through vertices are all accepted.", "quantifier": "for every input and every result, any number of vertices, any bins: exact arithmetic over every ordered field; f32 and f64 on robust inputs and on grids", "why_tests_cant": "the crate may leave parts of the hull uncovered (C07) or edges that are not Delaunay (C06); a local test on the output is a proof of global correctness only through this theorem, which speaks about all points of the hull", "anchors": ["src/triangulation.rs:triangulation_from_2d_vertices", "src/triangulation.rs:restore_delaunay_triangulation", "src/triangulation.rs:filter_triangles", "src/constrained_triangulation.rs:constrained_triangulation_from_2d_vertices"]}
{"id": "C75", "title": "Results that pass the test are complete and unique", "statement": "A result that passes the test of C74 contains every triangle of input vertices whose closed disc contains no other vertex. If no four vertices are on an empty circle, it consists exactly of the clockwise triangles whose circle contains no vertex; so two such results for the same positions, in any order, with any bins and in any number format, have the same triangles.", "quantifier": "for all inputs and results that pass the test, any order, bins and number format: exact arithmetic over every ordered field; f32 and f64 on robust inputs and on grids", "why_tests_cant": "completeness speaks about every triple of vertices against every other vertex, independence about all pairs of runs", "anchors": ["src/triangulation.rs:triangulation_from_2d_vertices", "src/triangulation.rs:wrap_and_triangulate_2d_normalized_vertices", "src/triangulation.rs:sort"]}
{"id": "C76", "title": "The modelled floating point numbers are IEEE 754 arithmetic", "statement": "In the model of f32 and f64, the sum, difference, product, quotient and square root of numbers and the conversion of integers equal the exact result rounded to nearest, ties to even, with overflow to infinity: a value is returned if and only if it meets this definition. The comparisons and the operations on infinities are those of the extended real numbers, NaN is propagated and compares false, max and min ignore NaN, the cast to usize truncates and saturates, Sums and products do not depend on the order of the operands, signs factor out, and the operations on numbers are monotone. MAX is the largest number, EPSILON the distance from one to the next number. EPSILON, MAX and the least positive number are 2^-52, (2 - 2^-52) 2^1023 and 2^-1074 for f64, 2^-23, (2 - 2^-23) 2^127 and 2^-149 for f32.", "quantifier": "for all operands of every binary format with at least 17 bits (binary32 and binary64 among them)", "why_tests_cant": "the witnesses and the floating-point theorems of this model speak about Rust only if the modelled arithmetic is the one of the hardware, for all operands", "anchors": ["src/types/f64.rs:Float", "src/types/f32.rs:Float", "src/triangulation.rs:normalize_vertices_coordinates"]}
{"id": "C77", "title": "With the corners of the bounding rectangle among the vertices the rectangle is covered", "statement": "If the vertices contain the four corners of their bounding rectangle, anywhere in the list, every successful triangulation without constraints covers the whole rectangle, whatever the number of bins and the order of insertion. It is then a Delaunay triangulation if and only if no two neighboring triangles violate the condition, and constraints that do not cross each other and pass through no vertex are accepted.", "quantifier": "for all vertices that include the corners of their bounding rectangle, all numbers of bins, all constraints of that kind; exact arithmetic, and f32 and f64 on robust inputs and on grids", "why_tests_cant": "the region that is covered depends on the order of all insertions; without the corners there are inputs for which part of the convex hull is not covered", "anchors": ["src/triangulation.rs:wrap_and_triangulate_2d_normalized_vertices", "src/triangulation.rs:split_triangle_into_three_triangles", "src/triangulation.rs:should_swap_diagonals"]}
{"id": "C78", "title": "With the corners of the bounding rectangle the number of triangles is 2n - 2 - b", "statement": "If the vertices contain the four corners of their bounding rectangle, a successful triangulation without constraints of n different positions, b of them on the border of the rectangle, has exactly 2n - 2 - b triangles and every position is a corner of one. So the number of triangles does not depend on the order of the vertices, on repetitions or on the number of bins.", "quantifier": "for all vertices that include the corners of their bounding rectangle and all numbers of bins; exact arithmetic, and f32 and f64 on robust inputs and on grids", "why_tests_cant": "the number of unbounded triangles that are filtered out depends on all insertions and swaps; without the corners it differs between orders of the same vertices", "anchors": ["src/triangulation.rs:wrap_and_triangulate_2d_normalized_vertices", "src/triangulation.rs:split_triangle_into_three_triangles", "src/triangulation.rs:filter_triangles"]}
{"id": "C79", "title": "The convex hull is covered if every corner of the input has an extreme coordinate", "statement": "Call a vertex a corner of the input if, for one of the four diagonal directions, no other vertex is at or beyond it in both coordinates. If every such corner has the extreme x or the extreme y of its direction, a successful triangulation without constraints covers the whole convex hull, whatever the order of the vertices and the number of bins; it is then Delaunay exactly if no two neighboring triangles violate the condition, and constraints that neither cross nor pass through vertices are accepted. So where a point of the convex hull is not covered (C06), there is a corner of the input whose x and y are both not extreme.", "quantifier": "for all vertices that are not all on a line and all numbers of bins; exact arithmetic, and f32 and f64 on robust inputs and on grids", "why_tests_cant": "the known failures need particular positions and orders; tests cannot show that inputs of this shape never fail", "anchors": ["src/triangulation.rs:wrap_and_triangulate_2d_normalized_vertices", "src/triangulation.rs:create_initial_triangles", "src/triangulation.rs:should_swap_diagonals", "src/triangulation.rs:filter_triangles"]}
{"id": "C80", "title": "What is always covered, and which constraints are always accepted", "statement": "For every input, a point that has a vertex strictly inside each of its four quadrants is covered by a successful triangulation without constraints. More generally a point strictly inside the convex hull is covered if, for each diagonal direction, there is a vertex inside the quadrant at that point or the corners of the input in that direction have an extreme coordinate (C79); so a point of the convex hull that is not covered has an empty quadrant in a direction in which some corner of the input is not extreme. Constraints that do not cross, do not pass through vertices, and have a vertex in each closed quadrant of all their points (except directions with extreme corners) are accepted; if they form closed borders the result covers exactly the region that they enclose.", "quantifier": "for all inputs, orders and numbers of bins; exact arithmetic, and f32 and f64 on robust inputs and on grids", "why_tests_cant": "the region that is not covered depends on the order in which the vertices are inserted; the guarantee is for all orders and all points", "anchors": ["src/triangulation.rs:wrap_and_triangulate_2d_normalized_vertices", "src/triangulation.rs:should_swap_diagonals", "src/triangulation.rs:filter_triangles", "src/constrained_triangulation.rs:apply_constraints"]}
{"id": "C81", "title": "The only cause of failed insertions and of circles that are not empty", "statement": "If after each insertion every point strictly inside the convex hull of the vertices inserted so far is in a finite triangle, then the search finds a place for every vertex, all insertions succeed, and the result is a Delaunay triangulation. The other way around, whenever the run without constraints fails or returns a triangle with a vertex strictly inside its circumcircle, there was a stage at which a point strictly inside the convex hull of the vertices so far was in no finite triangle: the search and the swaps have no other defect. The condition holds if after each insertion the corners of the vertices so far have an extreme coordinate (C79); with one bin these are the ends of the input.", "quantifier": "for all inputs, orders and numbers of bins; exact arithmetic, and f32 and f64 on robust inputs and on grids", "why_tests_cant": "failures depend on the whole history of insertions; a test shows a single history and cannot show that nothing else goes wrong in any history", "anchors": ["src/triangulation.rs:wrap_and_triangulate_2d_normalized_vertices", "src/triangulation.rs:find_vertex_placement", "src/triangulation.rs:should_swap_diagonals", "src/triangulation.rs:restore_delaunay_triangulation"]}
{"id": "C82", "title": "Constraints that cross few edges leave a constrained Delaunay triangulation", "statement": "If the triangulation without constraints covers the convex hull and is Delaunay, and every constraint properly crosses at most two edges of the mesh built from the constraints before it, then the run with constraints succeeds and its result is constrained Delaunay: every created edge is tested after the last change of its triangles. The other way around, whenever the mesh violates the local Delaunay condition there is a first constraint after which it does; this constraint crosses at least three edges of the mesh before it, and all violations are at edges that its insertion created. Two such runs on the same points and border constraints, in any order, return the same triangles unless a vertex that can be seen from a triangle is on its circumcircle (C69). In general an edge that is there before and after some insertions stays locally Delaunay.", "quantifier": "for all inputs, constraints that do not cross or pass through vertices, and numbers of bins; exact arithmetic, and f32 and f64 on robust inputs and on grids", "why_tests_cant": "the history of swaps and the list of remembered triangle pairs depend on the order of the crossed edges; tests show single histories", "anchors": ["src/constrained_triangulation.rs:apply_constraints", "src/constrained_triangulation.rs:remove_crossed_edges", "src/constrained_triangulation.rs:restore_delaunay_triangulation_constrained", "src/constrained_triangulation.rs:constrained_should_swap_diagonals", "src/constrained_triangulation.rs:update_edges_data"]}
{"id": "C83", "title": "The number of triangles is at most 2n - 2 - b, with equality when the convex hull is covered", "statement": "For n different positions (at least two), b of them on the border of the convex hull, the triangulation has at most 2n - 2 - b triangles. It has exactly 2n - 2 - b when its triangles cover the convex hull, in particular when its outer sides pass the hull test of C74, and then every position is a corner of a triangle. So no order of the vertices and no number of bins gives more triangles than a run that covers the convex hull, and all such runs give the same number. A position is on the border if a line through it has all positions on one side; for a result that covers the convex hull these are the positions that are not strictly inside the lines of the hull.", "quantifier": "for all inputs and numbers of bins for which the run succeeds; exact arithmetic, and f32 and f64 on robust inputs and on grids", "why_tests_cant": "a lost or doubled triangle far from the checked points changes the number only; tests compare single numbers", "anchors": ["src/triangulation.rs:triangulation_from_2d_vertices", "src/triangulation.rs:wrap_and_triangulate_2d_normalized_vertices", "src/triangulation.rs:split_triangle_into_three_triangles", "src/triangulation.rs:split_quad_into_four_triangles", "src/triangulation.rs:filter_triangles"]}
{"id": "C84", "title": "Every recorded snapshot is well-formed, and the last one shows the output", "statement": "With the debug context, every recorded snapshot refers only to things that exist: vertices of its triangles are input vertices or the four artificial ones, every triangle has an input vertex, ids reported as changed are triangles of the snapshot, the vertex of a split is an input vertex, and except for the snapshot of the filter the neighbors are triangles of the snapshot. The snapshot of the filter has input vertices only. If everything is recorded, the last snapshot of a successful run is the one of the filter and its triangles are the output. (The neighbors of the snapshot of the filter are indices into the mesh before the filter; a witness is given.)", "quantifier": "for all inputs that the id type can hold, all constraints, all debug configurations, all arithmetics and all outcomes, also errors and panics", "why_tests_cant": "snapshots are only looked at by hand in the debugger; a dangling id appears only for the input and the step where it is drawn", "anchors": ["src/debug.rs:push_snapshot_event", "src/debug.rs:push_snapshot", "src/triangulation.rs:split_triangle_into_three_triangles", "src/triangulation.rs:split_quad_into_four_triangles", "src/triangulation.rs:check_and_swap_quad_diagonal", "src/constrained_triangulation.rs:swap_quad_diagonal", "src/constrained_triangulation.rs:cdt_filter_triangles"]}
{"id": "C85", "title": "The triangles reported as changed are all triangles that changed", "statement": "If everything is recorded, a triangle that a snapshot does not report as changed is the same as in the snapshot before it, with the same neighbors; after a split of a triangle or of a quad it has the same vertices (a witness shows that its neighbors may differ). The filter adds no triangle.", "quantifier": "for all inputs that the id type can hold, all constraints, all arithmetics and all outcomes", "why_tests_cant": "a wrong list of changed triangles has no effect on the output, it only misleads the reader of the debugger", "anchors": ["src/debug.rs:push_snapshot_event", "src/triangulation.rs:split_triangle_into_three_triangles", "src/triangulation.rs:split_quad_into_four_triangles", "src/triangulation.rs:check_and_swap_quad_diagonal", "src/constrained_triangulation.rs:swap_quad_diagonal", "src/constrained_triangulation.rs:cdt_filter_triangles"]}
{"id": "C86", "title": "The visual debugger draws every recorded snapshot, completely and in the right place", "statement": "Whatever snapshots a run has recorded, the viewer of the examples draws each of them without failing, in every display mode whose batch size is not zero. With a batch size of zero it fails on every snapshot that has a triangle. As gizmos it draws a strip for every (changed) triangle, as meshes the lines of all triangles in numbered batches of the given size, as contour the sides between input vertices that are constraints in either direction, as interior the others. The lines of a triangle are exactly those that stand for its sides: segments between input vertices and segments towards artificial vertices; gizmos and meshes agree. Labels name the corners and stand at the corner, or at the tip (or between the two tips) drawn for an artificial vertex. The rectangle around the changes is the smallest one around the input vertices of the changed triangles.", "quantifier": "for all inputs that the id type can hold, all constraints, all debug configurations, all snapshots, all display modes with a positive batch size and all arithmetics; the rectangle and the directions of the tips in exact arithmetic with coordinates that do not exceed the largest number", "why_tests_cant": "the viewer is an interactive program without tests; which corners are artificial, and so which branch is taken, varies from triangle to triangle", "anchors": ["examples/src/debugger.rs:update_triangles_debug_view", "examples/src/debugger/gizmos.rs:draw_triangles_debug_data_gizmos", "examples/src/debugger/gizmos.rs:draw_triangle_gizmo", "examples/src/debugger/meshes.rs:spawn_all_as_mesh_batches", "examples/src/debugger/meshes.rs:spawn_contour_and_interior_meshes", "examples/src/debugger/label.rs:spawn_label", "examples/src/debugger/infinite.rs:extrapolated_vertex_from_semi_infinite_edge", "src/infinite.rs:collect_infinite_triangle_vertices"]}
{"id": "C87", "title": "The keys of the visual debugger move over all snapshots and never fail while there is one", "statement": "With at least one snapshot the cursor stays on a snapshot whatever keys are pressed, forward and back undo each other, pressing forward shows the snapshots one after the other and starts again, and from any state the keys lead to every combination of display modes without moving the cursor. Started on the first snapshot, a sequence of keys makes the viewer panic exactly when there is no snapshot and the left arrow is pressed. Asking for the first snapshot never panics and shows it. Asking for the last snapshot panics exactly when there is none, otherwise the last one is shown.", "quantifier": "for all lists of snapshots and all sequences of keys", "why_tests_cant": "sequences of keys and lists of snapshots are unbounded", "anchors": ["examples/src/debugger.rs:advance_cursor", "examples/src/debugger.rs:move_back_cursor", "examples/src/debugger.rs:set_cursor_to_first_snapshot", "examples/src/debugger.rs:set_cursor_to_last_snapshot", "examples/src/debugger.rs:current_snapshot", "examples/src/debugger.rs:update_triangles_debug_index", "examples/src/debugger.rs:switch_triangles_draw_mode", "examples/src/debugger.rs:switch_label_mode", "examples/src/debugger.rs:switch_vertex_label_mode"]}
{"id": "C88", "title": "The loaders of polylines produce valid constraints", "statement": "The loader of the examples, the benchmarks and the profiling program yields the points of all parts in order. Its constraints are exactly the pairs of consecutive points of a part, each once; they name two different existing points. It panics exactly when the first part has no points. On what it produces the constrained triangulation never panics because of a constraint that names a missing vertex (C65).", "quantifier": "for all lists of parts whose points the id type can number; the last claim in exact arithmetic for inputs as in C65", "why_tests_cant": "the loader is only run on a few files; the numbering depends on the lengths of all parts before", "anchors": ["examples/examples/cdt_real_data.rs:setup", "benchmarks/examples/cdt_benchmark.rs:main", "profiling/examples/cdt_real_data.rs:main", "src/constrained_triangulation.rs:constrained_triangulation_from_2d_vertices"]}
{"id": "C89", "title": "The recorded snapshots follow the course of the algorithm", "statement": "A successful run that records everything records: the insertion of the first vertex of the processing order at step 0; for each further vertex in that order, one step per vertex, either nothing (the vertex was merged) or the split of a triangle or quad at that vertex followed by swaps only, all with the number of the step; in a constrained run a snapshot before the constraints, for each constraint in the order given and one step per constraint swaps only, and a snapshot after the constraints; finally the filter. A run that fails records no filter. Whatever is recorded, no vertex is reported as split twice, the first one never is, and the splits follow the processing order. Recording only the filter gives exactly one snapshot, which holds the result; recording before, after and filter gives exactly these three; fewer than three vertices record nothing.", "quantifier": "for all inputs, constraints, arithmetics, fuels, binnings and forced ends; the statements about several configurations for all configurations", "why_tests_cant": "the order of the snapshots depends on which vertices are merged and on the swaps, which differ from input to input; the snapshots have no tests", "anchors": ["src/debug.rs:push_snapshot_event", "src/debug.rs:advance_step", "src/triangulation.rs:wrap_and_triangulate_2d_normalized_vertices", "src/triangulation.rs:split_triangle_into_three_triangles", "src/triangulation.rs:split_quad_into_four_triangles", "src/triangulation.rs:restore_delaunay_triangulation", "src/constrained_triangulation.rs:apply_constraints", "src/constrained_triangulation.rs:swap_quad_diagonal", "src/constrained_triangulation.rs:cdt_filter_triangles"]}
{"id": "C90", "title": "The video player shows the triangulation of its current frame and fails only in one situation", "statement": "The example that plays a video starts exactly if the file has a frame and the constrained triangulation of every frame succeeds. Whatever happens afterwards (timer, keys, keys of the viewer, change of mode) the index is that of a frame, and the screen shows the vertices, constraints and the triangulation of exactly this frame: nothing for fewer than three vertices, otherwise the one recorded snapshot, whose triangles are the result. The player panics exactly if the left arrow of the viewer is pressed while a frame with fewer than three vertices is shown (a witness is given). Playing shows the frames cyclically; forward and back undo each other; the number keys move by 1000 and 100, cyclically forward and clamped back. The contour is drawn from the constraints in the file, so that sides at merged duplicates are not drawn as contour (a witness is given).", "quantifier": "for all videos whose frames the id type can hold, all sequences of events, all arithmetics", "why_tests_cant": "the player is interactive and untested; sequences of events are unbounded, and frames without vertices occur only in some videos", "anchors": ["examples/examples/bad_apple.rs:setup", "examples/examples/bad_apple.rs:next_frame", "examples/examples/bad_apple.rs:switch_frame_mode", "examples/src/debugger.rs:new_with_constrained_edges", "examples/src/debugger.rs:move_back_cursor", "src/constrained_triangulation.rs:constrained_triangulation_from_2d_vertices"]}
{"id": "C91", "title": "Every recorded snapshot is a triangulation", "statement": "In exact arithmetic, for separated vertices: every snapshot recorded before the filter, in the middle of the swaps around an inserted vertex or of the swaps for a constraint as well as between them, has symmetric adjacency, only clockwise triangles (the unbounded ones included), and its triangles tile the plane: a point in general position is in exactly one of them. The snapshot of the filter shows bounded triangles of such a tiling. This holds for every configuration of the recording, every forced end, all constraints (also meeting or crossing ones, or indices out of range), and for the snapshots kept in the error when the run fails.", "quantifier": "for all ordered fields with exact arithmetic, all separated inputs, all lists of constraints, all configurations of the debug context; for f32 and f64, all robust inputs and grids", "why_tests_cant": "intermediate states are visible only with the debug feature, which has no tests; the number of swaps is unbounded", "anchors": ["src/debug.rs:push_snapshot_event", "src/triangulation.rs:check_and_swap_quad_diagonal", "src/triangulation.rs:restore_delaunay_triangulation", "src/constrained_triangulation.rs:swap_quad_diagonal", "src/constrained_triangulation.rs:remove_crossed_edges", "src/constrained_triangulation.rs:restore_delaunay_triangulation_constrained", "src/constrained_triangulation.rs:apply_constraints"]}
{"id": "C92", "title": "What the edges of a Delaunay result join", "statement": "Let a result cover the convex hull and have no two neighboring triangles that violate the Delaunay condition (the test of C74; always so for framed points and one bin). Then its edges join: any two vertices on a circle with no other vertex in or on it; any two vertices whose diametral disc contains no other vertex (the Gabriel graph); every vertex and each of its nearest neighbors; the ends of every shortest connection between a set of vertices and the others (so every shortest spanning tree with different lengths is made of edges of the result); and every vertex can be reached from every other one along edges. Conversely every edge has a circle through its ends with no vertex inside.", "quantifier": "for all ordered fields with exact arithmetic, all separated inputs whose result passes the test; also in f32 and f64 for robust inputs and grids", "why_tests_cant": "the statement ranges over all circles and all sets of vertices; the tests compare images of a few inputs", "anchors": ["src/triangulation.rs:triangulation_from_2d_vertices", "src/triangulation.rs:restore_delaunay_triangulation", "src/triangulation.rs:should_swap_diagonals", "src/triangulation.rs:filter_triangles"]}
{"id": "C93", "title": "What the edges of a constrained Delaunay result join", "statement": "Let a constrained result be locally Delaunay apart from its constraints (C59; always so for framed points, one bin and constraints that cross at most one edge each). Then any two vertices that see each other (no vertex and no point of a constraint between them, the segment inside the result) are joined by an edge if there is a circle through them outside of which all other vertices are that can be seen from a point between them. In particular if their diametral disc contains no other vertex.", "quantifier": "for all ordered fields with exact arithmetic, all separated inputs, all lists of constraints that do not cross; also in f32 and f64 for robust inputs and grids", "why_tests_cant": "the statement ranges over all pairs of vertices, all circles and all lines of sight; the tests compare images of a few inputs", "anchors": ["src/constrained_triangulation.rs:constrained_triangulation_from_2d_vertices", "src/constrained_triangulation.rs:restore_delaunay_triangulation_constrained", "src/constrained_triangulation.rs:remove_crossed_edges"]}
{"id": "C94", "title": "Interpolation and nearest-vertex search in a Delaunay result", "statement": "Let a result cover the convex hull and have no two neighboring triangles that violate the Delaunay condition (the test of C74; always so for framed points and one bin). Then (1) of all ways to write a point as a weighted mean of input vertices, the corners of the output triangle that contains the point have the least mean squared distance to it; (2) for every query point q, a vertex that is not nearest to q is joined by an edge to a vertex nearer to q. So walking along edges to nearer vertices ends at a vertex nearest to q, from every start, after fewer steps than there are vertices.", "quantifier": "for all ordered fields with exact arithmetic, all separated inputs whose result passes the test, all query points; also in f32 and f64 for robust inputs and grids", "why_tests_cant": "the statement ranges over all points of the plane and all weights; the tests compare images of a few inputs", "anchors": ["src/triangulation.rs:triangulation_from_2d_vertices", "src/triangulation.rs:restore_delaunay_triangulation", "src/triangulation.rs:should_swap_diagonals", "src/triangulation.rs:filter_triangles"]}
{"id": "C95", "title": "No triangulation has a larger smallest angle than a Delaunay result", "statement": "A result that passes the test of C74 (always so for framed points and one bin) has the largest smallest angle: every lower bound for the angles of a triangulation of the convex hull with the same vertices is a lower bound for the angles of the result. A constrained result without neighboring triangles that violate the Delaunay condition (constraints excepted) has the largest smallest angle of all triangulations of its region with the same vertices that respect the constraints.", "quantifier": "for all ordered fields with exact arithmetic, all separated inputs whose result passes the test, all competing triangulations; also in f32 and f64 for robust inputs and grids", "why_tests_cant": "the statement compares the result with every other triangulation; their number is exponential in the number of vertices", "anchors": ["src/triangulation.rs:triangulation_from_2d_vertices", "src/triangulation.rs:restore_delaunay_triangulation", "src/triangulation.rs:should_swap_diagonals", "src/constrained_triangulation.rs:constrained_triangulation_from_2d_vertices"]}
{"id": "C96", "title": "No triangulation has smaller enclosing circles than a Delaunay result", "statement": "A result that passes the test of C74 (always so for framed points and one bin) has the smallest enclosing circles: if all triangles of a covering of the convex hull by triangles between the vertices fit in circles of some radius, each in one, so do all triangles of the result. The same holds for a constrained result without neighboring triangles that violate the Delaunay condition (constraints excepted), compared with all triangulations of its region that respect the constraints.", "quantifier": "for all ordered fields with exact arithmetic, all separated inputs whose result passes the test, all competing coverings, all radii; also in f32 and f64 for robust inputs and grids", "why_tests_cant": "the statement compares the result with every other covering by triangles, of which there are exponentially many", "anchors": ["src/triangulation.rs:triangulation_from_2d_vertices", "src/triangulation.rs:restore_delaunay_triangulation", "src/triangulation.rs:should_swap_diagonals", "src/constrained_triangulation.rs:constrained_triangulation_from_2d_vertices"]}
{"id": "C97", "title": "The number of triangles of a region is counted at its vertices", "statement": "In exact arithmetic, for separated vertices and non-crossing constraints that form the border of a region (with holes and several parts): choose any direction that is not parallel to a line through two positions. Every successful constrained run has as many triangles as there are ways into the region: pairs of a position and one of the two senses of the direction such that one is in the region at first when leaving the position that way. Each position inside counts twice, one outside never, one on the border by its angle. So the number of triangles does not depend on the order of the input, the bins, repeated vertices, merged vertices or on which diagonals are chosen: every list of clockwise triangles between the positions that do not overlap, contain no other position and cover the same region has as many triangles as the result, also for results without constraints. The same in f32 and f64 on robust inputs and grids.", "quantifier": "for all ordered fields with exact arithmetic, all separated inputs, all non-crossing borders, all oblique directions, all other triangulations of the region; for f32 and f64, all robust inputs and grids", "why_tests_cant": "a lost or a doubled triangle of a large input is not noticed without an independent count; other triangulations cannot be enumerated", "anchors": ["src/constrained_triangulation.rs:constrained_triangulation_from_2d_vertices", "src/constrained_triangulation.rs:cdt_filter_triangles", "src/triangulation.rs:triangulation_from_2d_vertices", "src/triangulation.rs:filter_triangles"]}
{"id": "C98", "title": "Triangles never come back, and every swap adds one triangle at the inserted vertex", "statement": "In every arithmetic an insertion only creates triangles at the inserted vertex: a triangle of a later mesh none of whose vertices was inserted meanwhile was already in the earlier mesh, at the same index and with the same order of vertices. So a run that is forced to end at step k returns, in the same order, all triangles of the complete result whose vertices were inserted before step k. In exact arithmetic on separated vertices, a split leaves three triangles at the inserted vertex (four for a vertex on an edge) and every swap of a diagonal that follows adds exactly one: an insertion swaps as many diagonals as its vertex has triangles afterwards, minus three or four. This can be read off the recorded snapshots, with and without constraints, also in f32 and f64 on robust inputs and grids.", "quantifier": "for all arithmetics, inputs, bins, steps (first part); for all ordered fields with exact arithmetic and separated inputs, and f32/f64 on robust inputs and grids (second part)", "why_tests_cant": "compares runs that stop at different steps and counts swaps of every insertion; a swap that touches other triangles can still end in a right result", "anchors": ["src/triangulation.rs:split_triangle_into_three_triangles", "src/triangulation.rs:split_quad_into_four_triangles", "src/triangulation.rs:check_and_swap_quad_diagonal", "src/triangulation.rs:restore_delaunay_triangulation"]}
{"id": "C99", "title": "A change of the input changes the result only close to it", "statement": "Take two results in general position that pass the test of C74 (every side of the convex hull is an edge of the result, every two neighbors are locally Delaunay, no four positions on an empty circle). A triangle occurs in one if and only if it occurs in the other, as soon as the two inputs agree on its corners and on the positions inside its circle. If the second input has one more position Q, the triangles of the second result away from Q are exactly those of the first whose circle does not contain Q; inside the old convex hull the triangles that disappear fill the same region as the new ones at Q, and outside of it every new triangle is at Q. This holds whatever the orders of the vertices, the numbers of bins and (in rounded arithmetic) the number formats of the two runs.", "quantifier": "for all ordered fields with exact arithmetic and separated inputs whose results pass the test, all framed inputs in general position, and f32/f64 on robust inputs and grids, also between formats", "why_tests_cant": "compares the results of two different runs for all pairs of inputs that agree on a circle, in any order of insertion", "anchors": ["src/triangulation.rs:triangulation_from_2d_vertices", "src/triangulation.rs:restore_delaunay_triangulation", "src/triangulation.rs:should_swap_diagonals", "src/triangulation.rs:filter_triangles"]}
{"id": "C100", "title": "Additional constraints and vertices change a constrained result only where they are", "statement": "Take two constrained runs with closed borders (C57) that both end locally Delaunay (C59): the second one has all vertices of the first and perhaps more, its constraints cover those of the first, and they enclose no point that the first ones do not enclose (for example one more hole). A triangle of the first result whose inside is met by no constraint of the second input, and in or on whose circle there is no additional vertex, is also a triangle of the second result if it is in the new region, and only then. Every inner point of a triangle that is new in the second result lies in a triangle of the first result that is met by a new constraint or has an additional vertex in or on its circle. The first result has no vertex on the circle of a triangle that sees it. The vertices and constraints may be numbered and ordered differently, and the runs may use different float types.", "quantifier": "for all ordered fields with exact arithmetic and separated inputs whose constrained results are locally Delaunay; f32/f64 on robust inputs and grids, also between formats", "why_tests_cant": "compares two runs on different inputs for all pairs of inputs; a swap too many far away from the change shows in no test of a single result", "anchors": ["src/constrained_triangulation.rs:constrained_triangulation_from_2d_vertices", "src/constrained_triangulation.rs:apply_constraints", "src/constrained_triangulation.rs:restore_delaunay_triangulation_constrained", "src/constrained_triangulation.rs:remove_crossed_edges", "src/constrained_triangulation.rs:cdt_filter_triangles"]}
{"id": "C101", "title": "Triangulations of planar vertices are Delaunay in space", "statement": "For vertices of a plane in space with unit normal, the triangles that the 3d entry points return turn clockwise as seen from the tip of the normal, and no point of space is strictly inside two of them; this also holds with constraints. If every side that belongs to one triangle only has all vertices on one side and no triangle has the corner of a neighbor inside a sphere through its own corners, then every sphere through the corners of a triangle, wherever its center is in space, has no vertex inside, such spheres exist, and every point of a triangle between vertices is in a triangle of the result. For vertices that contain the corners of a rectangle around the others and one bin there is always a result, and it has these properties without test.", "quantifier": "for all planes over the reals with separated planar coordinates; f32/f64 for planes parallel to two axes and robust inputs or grids", "why_tests_cant": "quantifies over all spheres in space and all points of a plane; the tests of the crate for 3d input compare one list of triangles", "anchors": ["src/triangulation.rs:triangulation_from_3d_planar_vertices", "src/triangulation.rs:transform_to_2d_planar_coordinate_system", "src/constrained_triangulation.rs:constrained_triangulation_from_3d_planar_vertices"]}
{"id": "C102", "title": "The result does not depend on the coordinate system", "statement": "Take vertices no four of which are on an empty circle, and the same vertices turned, scaled and moved, in any order, with any bin counts and in any number formats. If both results pass the test of C74, they are the same triangles, turned, scaled and moved; for mirrored vertices they are the mirrored triangles with the opposite orientation. With constraints that enclose a region the same holds for turned, scaled and moved constraints and results that are locally Delaunay. For vertices in a plane of space the triangles depend neither on the order of the vertices, although the first two define the axes of the plane, nor on the number format, and the opposite normal reverses them.", "quantifier": "for all similarities of the plane and all vertex lists in exact arithmetic with separated vertices and results that pass the test; f32/f64 for robust inputs or grids; in space all planes over the reals, planes parallel to two axes in f32/f64", "why_tests_cant": "quantifies over all rotations, scalings, translations and reflections; symbolic infinite vertices, the bounding square, bins and the frame of the plane all depend on the coordinate axes", "anchors": ["src/triangulation.rs:triangulation_from_2d_vertices", "src/triangulation.rs:triangulation_from_3d_planar_vertices", "src/triangulation.rs:transform_to_2d_planar_coordinate_system", "src/constrained_triangulation.rs:constrained_triangulation_from_2d_vertices"]}
{"id": "C103", "title": "The number of triangles decides whether the convex hull is covered", "statement": "For n different positions, b of them on the border of the convex hull, a result that has triangles covers the convex hull if and only if it has 2n - 2 - b triangles. No set of triangles between the vertices that do not overlap and contain no other vertex has more, whoever computed it. So of two results for the same vertices, in any order, with any bins and in any formats, one of which covers the convex hull, the other does if and only if it has as many triangles.", "quantifier": "for all ordered fields with exact arithmetic, all separated inputs and successful runs, all other sets of triangles; for f32 and f64, all robust inputs and grids", "why_tests_cant": "an equivalence over all inputs between a global geometric fact and a number; a test can only compare numbers for some inputs", "anchors": ["src/triangulation.rs:triangulation_from_2d_vertices", "src/triangulation.rs:wrap_and_triangulate_2d_normalized_vertices"]}
{"id": "C104", "title": "Constrained triangulations of planar vertices are constrained Delaunay in space", "statement": "For vertices of a plane in space with unit normal and constraints between them: if no triangle of a result has, beyond a side that is no constraint, the corner of a neighbor inside a sphere through its own corners, then no sphere through the corners of a triangle, wherever its center is in space, has a vertex inside that can be seen from a point of the triangle (without passing a vertex or a constraint and without leaving the triangles). If the constraints form the border of a region, the areas of the triangles, measured in space, add up to the area of the region, measured from any vertex. For vertices that contain the corners of a rectangle around the others, one bin and constraints that each cross at most one edge there is always a result, and it is constrained Delaunay in space without test.", "quantifier": "for all planes over the reals with separated planar coordinates and all constraints; f32/f64 for planes parallel to two axes and robust inputs or grids", "why_tests_cant": "quantifies over all spheres and all lines of sight in space; the tests of the crate have no constrained 3d input that is checked for it", "anchors": ["src/constrained_triangulation.rs:constrained_triangulation_from_3d_planar_vertices", "src/triangulation.rs:transform_to_2d_planar_coordinate_system", "src/constrained_triangulation.rs:apply_constraints"]}

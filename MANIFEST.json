{
 "claims": [
  {
   "property": "C01",
   "status": "proved",
   "theorems": [
    "Grassfire.C01_near_zero"
   ],
   "note": "exact arithmetic"
  },
  {
   "property": "C02",
   "status": "proved",
   "theorems": [
    "Grassfire.C02_is_close_raises",
    "Grassfire.C02_is_close_refl",
    "Grassfire.C02_is_close_symm",
    "Grassfire.C02_weak_is_weakest",
    "Grassfire.C02_asymmetric_not_symmetric",
    "Grassfire.C02_all_close"
   ],
   "note": "reflexive, symmetric, raising; asymmetric method shown not symmetric"
  },
  {
   "property": "C03",
   "status": "proved",
   "theorems": [
    "Grassfire.C03_find_gte"
   ],
   "note": ""
  },
  {
   "property": "C04",
   "status": "proved",
   "theorems": [
    "Grassfire.C04_find_gt"
   ],
   "note": ""
  },
  {
   "property": "C05",
   "status": "partial",
   "theorems": [
    "Grassfire.C05_get_unique_times_partial",
    "Grassfire.C05_absolute_tolerance_violated",
    "Grassfire.C05_no_times_raises"
   ],
   "note": "the documented absolute tolerance is violated by the code (arguments swapped) and the empty case raises StopIteration under python 3: negations proved, the part that holds proved as _partial"
  },
  {
   "property": "C06",
   "status": "proved",
   "theorems": [
    "Grassfire.C06_groupby_cluster"
   ],
   "note": ""
  },
  {
   "property": "C07",
   "status": "proved",
   "theorems": [
    "Grassfire.C07_dimension_mismatch",
    "Grassfire.C07_elementwise",
    "Grassfire.C07_add_sub_cancel",
    "Grassfire.C07_div",
    "Grassfire.C07_dot_comm",
    "Grassfire.C07_dot_add",
    "Grassfire.C07_norm2",
    "Grassfire.C07_cross",
    "Grassfire.C07_rotate90"
   ],
   "note": ""
  },
  {
   "property": "C08",
   "status": "proved",
   "theorems": [
    "Grassfire.C08_unit",
    "Grassfire.C08_unit_2d"
   ],
   "note": ""
  },
  {
   "property": "C09",
   "status": "proved",
   "theorems": [
    "Grassfire.C09_bisector",
    "Grassfire.C09_bisector_opposite"
   ],
   "note": "over the reals"
  },
  {
   "property": "C10",
   "status": "proved",
   "theorems": [
    "Grassfire.C10_from_points_raises",
    "Grassfire.C10_exact",
    "Grassfire.C10_from_points"
   ],
   "note": ""
  },
  {
   "property": "C11",
   "status": "proved",
   "theorems": [
    "Grassfire.C11_at_time",
    "Grassfire.C11_at_time_add",
    "Grassfire.C11_through_ends",
    "Grassfire.C11_perpendicular",
    "Grassfire.C11_bisector",
    "Grassfire.C11_bisector_coefficients",
    "Grassfire.C11_y_at_x"
   ],
   "note": ""
  },
  {
   "property": "C12",
   "status": "proved",
   "theorems": [
    "Grassfire.C12_point",
    "Grassfire.C12_classification",
    "Grassfire.C12_symmetric",
    "Grassfire.C12_parallel"
   ],
   "note": ""
  },
  {
   "property": "C13",
   "status": "proved",
   "theorems": [
    "Grassfire.C13_wavefront_vertex",
    "Grassfire.C13_parallel_wavefronts"
   ],
   "note": ""
  },
  {
   "property": "C14",
   "status": "proved",
   "theorems": [
    "Grassfire.C14_get_intersection_always_raises",
    "Grassfire.C14_create_bevel_wavefront_never_succeeds"
   ],
   "note": "the code violates the expectation: it is proved that get_intersection always raises"
  },
  {
   "property": "C15",
   "status": "proved",
   "theorems": [
    "Grassfire.C15_round_trip",
    "Grassfire.C15_zero_scale",
    "Grassfire.C15_similarity"
   ],
   "note": ""
  },
  {
   "property": "C16",
   "status": "proved",
   "theorems": [
    "Grassfire.C16_get_box",
    "Grassfire.C16_unit_box",
    "Grassfire.C16_single_point"
   ],
   "note": ""
  },
  {
   "property": "C17",
   "status": "proved",
   "theorems": [
    "Grassfire.C17_position",
    "Grassfire.C17_area_quadratic"
   ],
   "note": ""
  },
  {
   "property": "C18",
   "status": "proved",
   "theorems": [
    "Grassfire.C18_ascending",
    "Grassfire.C18_exact",
    "Grassfire.C18_double_root",
    "Grassfire.C18_linear",
    "Grassfire.C18_band_invents_root"
   ],
   "note": ""
  },
  {
   "property": "C19",
   "status": "proved",
   "theorems": [
    "Grassfire.C19_closest_approach",
    "Grassfire.C19_symmetric",
    "Grassfire.C19_meeting_time",
    "Grassfire.C19_parallel"
   ],
   "note": ""
  },
  {
   "property": "C20",
   "status": "proved",
   "theorems": [
    "Grassfire.C20_crash_time",
    "Grassfire.C20_no_crash",
    "Grassfire.C20_different_lines",
    "Grassfire.C20_no_line"
   ],
   "note": ""
  },
  {
   "property": "C21",
   "status": "proved",
   "theorems": [
    "Grassfire.C21_not_in_past",
    "Grassfire.C21_new_edge_event"
   ],
   "note": ""
  },
  {
   "property": "C22",
   "status": "partial",
   "theorems": [
    "Grassfire.C22_event_shape",
    "Grassfire.C22_flip_interior_partial",
    "Grassfire.C22_flip_of_wavefront_side",
    "Grassfire.C22_new_edge_event"
   ],
   "note": "shape proved in full; 'a flipped side is not a wavefront side' is violated for triangles below the tolerance (witness proved) and proved otherwise as _partial"
  },
  {
   "property": "C23",
   "status": "proved",
   "theorems": [
    "Grassfire.C23_orientation",
    "Grassfire.C23_tolerance_missed"
   ],
   "note": "outside the tolerance cases of the quadratic solver; inside them a witness of the violation is proved"
  },
  {
   "property": "C24",
   "status": "proved",
   "theorems": [
    "Grassfire.C24_stopped_none",
    "Grassfire.C24_event_not_stopped",
    "Grassfire.C24_loop_skips_stopped"
   ],
   "note": "computation of events and the event loop"
  },
  {
   "property": "C25",
   "status": "proved",
   "theorems": [
    "Grassfire.C25_left_at",
    "Grassfire.C25_left",
    "Grassfire.C25_before_first",
    "Grassfire.C25_past_fixed",
    "Grassfire.C25_needs_order"
   ],
   "note": ""
  },
  {
   "property": "C26",
   "status": "proved",
   "theorems": [
    "Grassfire.C26_pair",
    "Grassfire.C26_frame",
    "Grassfire.C26_consistent",
    "Grassfire.C26_twice"
   ],
   "note": ""
  },
  {
   "property": "C27",
   "status": "proved",
   "theorems": [
    "Grassfire.C27_terminates",
    "Grassfire.C27_fan",
    "Grassfire.C27_get_fan_terminates",
    "Grassfire.C27_get_fan",
    "Grassfire.C27_get_fan_needs_consistency"
   ],
   "note": ""
  },
  {
   "property": "C28",
   "status": "proved",
   "theorems": [
    "Grassfire.C28_linked",
    "Grassfire.C28_succeeds",
    "Grassfire.C28_past_fixed",
    "Grassfire.C28_frame"
   ],
   "note": ""
  },
  {
   "property": "C29",
   "status": "proved",
   "theorems": [
    "Grassfire.C29_common_node",
    "Grassfire.C29_existing_node",
    "Grassfire.C29_new_node",
    "Grassfire.C29_empty"
   ],
   "note": "exact arithmetic"
  },
  {
   "property": "C30",
   "status": "proved",
   "theorems": [
    "Grassfire.C30_attributes",
    "Grassfire.C30_on_both_wavefronts",
    "Grassfire.C30_same_direction",
    "Grassfire.C30_infinitely_fast",
    "Grassfire.C30_inf_fast_iff",
    "Grassfire.C30_opposed_iff"
   ],
   "note": "exact arithmetic; the meaning of the test for opposed wavefronts over the reals"
  },
  {
   "property": "C31",
   "status": "proved",
   "theorems": [
    "Grassfire.C31_compare_iff",
    "Grassfire.C31_refl",
    "Grassfire.C31_antisymm",
    "Grassfire.C31_trans",
    "Grassfire.C31_equal_congr",
    "Grassfire.C31_zero_iff",
    "Grassfire.C31_earlier_first",
    "Grassfire.C31_more_wavefront_first",
    "Grassfire.C31_add_ordered",
    "Grassfire.C31_first_is_earliest"
   ],
   "note": ""
  },
  {
   "property": "C32",
   "status": "proved",
   "theorems": [
    "Grassfire.C32_current",
    "Grassfire.C32_once",
    "Grassfire.C32_ordered"
   ],
   "note": "exact arithmetic; all executions from any state that satisfies Spec.Initial, which is what init_skeleton delivers (C52), with and without internal_only (C42)"
  },
  {
   "property": "C33",
   "status": "proved",
   "theorems": [
    "Grassfire.C33_monotone",
    "Grassfire.C33_pending",
    "Grassfire.C33_returned"
   ],
   "note": "exact arithmetic; all executions from any state that satisfies Spec.Initial, which is what init_skeleton delivers (C52), with and without internal_only (C42)"
  },
  {
   "property": "C34",
   "status": "proved",
   "theorems": [
    "Grassfire.C34_lives",
    "Grassfire.C34_returned"
   ],
   "note": "exact arithmetic; all executions from any state that satisfies Spec.Initial, which is what init_skeleton delivers (C52), with and without internal_only (C42)"
  },
  {
   "property": "C35",
   "status": "proved",
   "theorems": [
    "Grassfire.C35_bound",
    "Grassfire.C35_guard",
    "Grassfire.C35_return"
   ],
   "note": ""
  },
  {
   "property": "C36",
   "status": "proved",
   "theorems": [
    "Grassfire.C36_swept"
   ],
   "note": ""
  },
  {
   "property": "C37",
   "status": "proved",
   "theorems": [
    "Grassfire.C37_handle_event",
    "Grassfire.C37_run",
    "Grassfire.C37_event_loop",
    "Grassfire.C37_init_event_list",
    "Grassfire.C37_birth_data"
   ],
   "note": ""
  },
  {
   "property": "C38",
   "status": "partial",
   "theorems": [
    "Grassfire.C38_symmetric",
    "Grassfire.C38_edge_partial",
    "Grassfire.C38_split",
    "Grassfire.C38_three_sides",
    "Grassfire.C38_one_side",
    "Grassfire.C38_flip_partial",
    "Grassfire.C38_even_legs",
    "Grassfire.C38_edge_witness"
   ],
   "note": "`Mesh` (triangles not stopped form a consistent triangulation) implies the symmetric neighbour counts (C38_symmetric) and is kept by split events (C38_split), three-sided (C38_three_sides) and one-sided collapses (C38_one_side), even legs of a fan of one triangle (C38_even_legs), by edge events when the side is collapsible (link condition) and by flips when the two triangles have different apexes. C38_edge_witness shows the link condition is needed. The link condition holds in all states of executions on regions without holes (C71). Missing: regions with holes, events whose new vertex is infinitely fast, and larger parallel fans."
  },
  {
   "property": "C39",
   "status": "proved",
   "theorems": [
    "Grassfire.C39_after_loop",
    "Grassfire.C39_segments"
   ],
   "note": ""
  },
  {
   "property": "C40",
   "status": "partial",
   "theorems": [
    "Grassfire.C40_calc_skel_violated",
    "Grassfire.C40_general",
    "Grassfire.C40_mapped_back_partial",
    "Grassfire.C40_unstopped_not_mapped"
   ],
   "note": "violated for vertices that never stop (witness proved); proved for skeletons in which every vertex has stopped, so for every input in general position without exterior (C40_general)"
  },
  {
   "property": "C41",
   "status": "proved",
   "theorems": [
    "Grassfire.C41_rotation",
    "Grassfire.C41_groups",
    "Grassfire.C41_count"
   ],
   "note": "for all stars; the groups and the absence of failing assertions for consistent stars (Spec.StarOk)"
  },
  {
   "property": "C42",
   "status": "proved",
   "theorems": [
    "Grassfire.C42_filter",
    "Grassfire.C42_idempotent",
    "Grassfire.C42_initial"
   ],
   "note": "also: the filtered skeleton is a proper start of the event loop"
  },
  {
   "property": "C43",
   "status": "proved",
   "theorems": [
    "Grassfire.C43_offsets",
    "Grassfire.C43_zero",
    "Grassfire.C43_after_loop"
   ],
   "note": "exact arithmetic"
  },
  {
   "property": "C44",
   "status": "proved",
   "theorems": [
    "Grassfire.C44_internal_only_violated",
    "Grassfire.C44_distinct",
    "Grassfire.C44_nodup"
   ],
   "note": "distinct for all executions from what init_skeleton delivers (C52); violated with internal_only=True: complete run of a rectangle"
  },
  {
   "property": "C45",
   "status": "partial",
   "theorems": [
    "Grassfire.C45_values",
    "Grassfire.C45_vectors_partial",
    "Grassfire.C45_diagonal_swapped",
    "Grassfire.C45_negative"
   ],
   "note": "violated for diagonal matrices with the larger entry second and for negative eigenvalues (both proved); values proved, vectors in the remaining cases"
  },
  {
   "property": "C46",
   "status": "proved",
   "theorems": [
    "Grassfire.C46_r_squared_range",
    "Grassfire.C46_r_squared_line",
    "Grassfire.C46_r_squared_degenerate"
   ],
   "note": ""
  },
  {
   "property": "C47",
   "status": "proved",
   "theorems": [
    "Grassfire.C47_init",
    "Grassfire.C47_event_loop",
    "Grassfire.C47_iteration",
    "Grassfire.C47_references"
   ],
   "note": "exact arithmetic; all executions from any state that satisfies Spec.Initial, which is what init_skeleton delivers (C52), with and without internal_only (C42)"
  },
  {
   "property": "C48",
   "status": "proved",
   "theorems": [
    "Grassfire.C48_chronological",
    "Grassfire.C48_lookup"
   ],
   "note": "exact arithmetic; all executions from any state that satisfies Spec.Initial, which is what init_skeleton delivers (C52), with and without internal_only (C42)"
  },
  {
   "property": "C49",
   "status": "proved",
   "theorems": [
    "Grassfire.C49_regress_fails",
    "Grassfire.C49_covariance_fails"
   ],
   "note": "python 3"
  },
  {
   "property": "C50",
   "status": "proved",
   "theorems": [
    "Grassfire.C50_mean",
    "Grassfire.C50_mean_empty",
    "Grassfire.C50_variance"
   ],
   "note": "exact arithmetic"
  },
  {
   "property": "C51",
   "status": "proved",
   "theorems": [
    "Grassfire.C51_files",
    "Grassfire.C51_unstopped"
   ],
   "note": "exact arithmetic. C51_unstopped: TypeError; C51_files: what the two files hold otherwise"
  },
  {
   "property": "C52",
   "status": "proved",
   "theorems": [
    "Grassfire.C52_initial",
    "Grassfire.C52_neighbours",
    "Grassfire.C52_triangles",
    "Grassfire.C52_order"
   ],
   "note": "for all triangulations, consistent or not; python identity of triangles assumed injective"
  },
  {
   "property": "C53",
   "status": "proved",
   "theorems": [
    "Grassfire.C53_rings"
   ],
   "note": "for all triangulations that meet the contract of the external package tri (Spec.DtOk)"
  },
  {
   "property": "C54",
   "status": "proved",
   "theorems": [
    "Grassfire.C54_faults"
   ],
   "note": "for all triangulations that meet the contract of the external package tri (Spec.DtOk)"
  },
  {
   "property": "C55",
   "status": "proved",
   "theorems": [
    "Grassfire.C55_completed",
    "Grassfire.C55_faults",
    "Grassfire.C55_shrink_check",
    "Grassfire.C55_no_shrink",
    "Grassfire.C55_degenerate"
   ],
   "note": "exact arithmetic; the external triangulate is a parameter: consistent (Spec.DtOk), its vertices at the given points; output=False, pause=False"
  },
  {
   "property": "C56",
   "status": "proved",
   "theorems": [
    "Grassfire.C56_nodes",
    "Grassfire.C56_segments"
   ],
   "note": "exact arithmetic; segments of vertices that never stop are not in input coordinates (C40, also proved for a complete run)"
  },
  {
   "property": "C57",
   "status": "proved",
   "theorems": [
    "Grassfire.C57_shared"
   ],
   "note": "exact arithmetic; triangulations that meet the contract of the external package tri (Spec.DtOk) and whose edges have exact lengths (Spec.ExactLengths: always with real numbers)"
  },
  {
   "property": "C58",
   "status": "proved",
   "theorems": [
    "Grassfire.C58_input_lines"
   ],
   "note": "exact arithmetic; triangulations that meet the contract of the external package tri (Spec.DtOk) and whose edges have exact lengths (Spec.ExactLengths: always with real numbers)"
  },
  {
   "property": "C59",
   "status": "proved",
   "theorems": [
    "Grassfire.C59_on_wavefronts",
    "Grassfire.C59_straight"
   ],
   "note": "exact arithmetic; triangulations that meet the contract of the external package tri (Spec.DtOk) and whose edges have exact lengths (Spec.ExactLengths: always with real numbers); vertices between parallel lines created by events are not covered (their position depends on the node)"
  },
  {
   "property": "C60",
   "status": "proved",
   "theorems": [
    "Grassfire.C60_offset_line",
    "Grassfire.C60_calc_skel"
   ],
   "note": "exact arithmetic; triangulations that meet the contract of the external package tri (Spec.DtOk) and whose edges have exact lengths (Spec.ExactLengths: always with real numbers)"
  },
  {
   "property": "C61",
   "status": "proved",
   "theorems": [
    "Grassfire.C61_edge"
   ],
   "note": "new vertex not infinitely fast (otherwise the parallel handlers follow); not a loop of two vertices, where the code links the new vertex to itself; exact arithmetic"
  },
  {
   "property": "C62",
   "status": "proved",
   "theorems": [
    "Grassfire.C62_split"
   ],
   "note": "new vertices not infinitely fast (otherwise the parallel handlers follow); exact arithmetic"
  },
  {
   "property": "C63",
   "status": "proved",
   "theorems": [
    "Grassfire.C63_edge_continuous",
    "Grassfire.C63_split_continuous"
   ],
   "note": "exact arithmetic; that vertices are on their wavefronts is C59; that the vertices meet at the event time is what C19-C22 say about the events"
  },
  {
   "property": "C64",
   "status": "proved",
   "theorems": [
    "Grassfire.C64_one_triangle",
    "Grassfire.C64_two_triangle",
    "Grassfire.C64_three_triangle",
    "Grassfire.C64_hull_edge"
   ],
   "note": "Exact arithmetic. One, two, three wavefront sides and hull triangles; interior triangles are C23. The hypotheses on the time 0 (python truth value of a number) and on the clustering tolerance are stated in the theorems."
  },
  {
   "property": "C65",
   "status": "proved",
   "theorems": [
    "Grassfire.C65_named_side",
    "Grassfire.C65_three_sides",
    "Grassfire.C65_three_sides_wrong",
    "Grassfire.C65_infinite_flip"
   ],
   "note": "Exact arithmetic. C65_three_sides_wrong is the witness for the last sentence: an edge event of a side of squared length 8."
  },
  {
   "property": "C66",
   "status": "partial",
   "theorems": [
    "Grassfire.C66_events_current_partial",
    "Grassfire.C66_handled_partial"
   ],
   "note": "Proved for executions whose iterations are ordinary: no infinitely fast vertex is made (parallel wavefronts), the link conditions of C38 hold, neighbours of a triangle that vanishes with all sides have events. Missing: iterations in which parallel wavefronts meet (flips within a fan). A triangle that never had an event may have got new wavefront sides since; the definition Certified says so. For polygons without holes C71 supplies the link conditions. In general position these conditions are met, also with holes, and the pending events are current without exceptions: C90_ordinary, C90_current."
  },
  {
   "property": "C67",
   "status": "partial",
   "theorems": [
    "Grassfire.C67_shape_partial"
   ],
   "note": "For ordinary executions, see C66. Immediate events may name two sides; the loop then raises. For polygons without holes C71 supplies the link conditions. In general position the conditions are met: C90_ordinary, and every event happens as announced: C90_happens."
  },
  {
   "property": "C68",
   "status": "partial",
   "theorems": [
    "Grassfire.C68_one_triangle_partial",
    "Grassfire.C68_two_triangle_partial",
    "Grassfire.C68_three_triangle_partial"
   ],
   "note": "For ordinary executions, see C66, and triangles with finite, not infinitely fast vertices that have had an event; tolerances as in C64. Missing: parallel wavefronts, hull triangles. For polygons without holes C71 supplies the link conditions. In general position the conditions are met, also with holes: C90_ordinary, C90_exact."
  },
  {
   "property": "C69",
   "status": "partial",
   "theorems": [
    "Grassfire.C69_linked_partial",
    "Grassfire.C69_check_active_triangles_partial",
    "Grassfire.C69_check_wavefront_partial"
   ],
   "note": "For ordinary executions (see C66) whose events are plain: the vertices concerned have not been stopped before, except at a side where a neighbour vanished as a whole. Missing: parallel wavefronts, events at vertices stopped before. For polygons without holes C71 supplies the link conditions. In general position the conditions are met, also with holes: C90_ordinary, C90_linked, C90_checks."
  },
  {
   "property": "C70",
   "status": "proved",
   "theorems": [
    "Grassfire.C70_mesh",
    "Grassfire.C70_linked",
    "Grassfire.C70_constrained",
    "Grassfire.C70_calc_skel"
   ],
   "note": "Proved for every triangulation that meets DtMesh (the contract of the external package tri: mutual neighbours, stars in order, constraints between finite vertices). It gives the start conditions of C66-C69 for calc_skel."
  },
  {
   "property": "C71",
   "status": "partial",
   "theorems": [
    "Grassfire.C71_link_condition",
    "Grassfire.C71_execution",
    "Grassfire.C71_start",
    "Grassfire.C71_internal",
    "Grassfire.C71_calc_skel"
   ],
   "note": "Forest (by ranks) and roundness around vertices are kept by edge, split and flip events and by the collapse of whole triangles; they imply the link conditions. Missing: iterations that make an infinitely fast vertex, triangles that vanish as a whole next to a triangle without event (Calm says so), and polygons with holes, for which the link condition would need the planar embedding. In general position the link conditions hold with holes as well: C90_ordinary."
  },
  {
   "property": "C72",
   "status": "proved",
   "theorems": [
    "Grassfire.C72_event",
    "Grassfire.C72_execution",
    "Grassfire.C72_internal",
    "Grassfire.C72_calc_skel"
   ],
   "note": "Proved for all events, including parallel fans, without link conditions. The part about calc_skel assumes DtMesh and DtRegions (contract of the external package tri: RegionatedTriangleIterator gives neighbours over unconstrained edges the same depth)."
  },
  {
   "property": "C73",
   "status": "proved",
   "theorems": [
    "Grassfire.C73_even_legs",
    "Grassfire.C73_three_sides",
    "Grassfire.C73_left_leg",
    "Grassfire.C73_right_leg",
    "Grassfire.C73_single"
   ],
   "note": "Contracts for every fan, state and time in exact arithmetic. The node is an existing one (where one of the vertices started or was stopped before) or a single new one at the place stated. Fans of two triangles with equally long outer legs (flip_pair) and the choice of the pivot in parallel3 are not covered."
  },
  {
   "property": "C74",
   "status": "proved",
   "theorems": [
    "Grassfire.C74_bisectors",
    "Grassfire.C74_wavefront_links",
    "Grassfire.C74_active_triangles",
    "Grassfire.C74_kinetic_vertices",
    "Grassfire.C74_orientation",
    "Grassfire.C74_same_location",
    "Grassfire.C74_read_only",
    "Grassfire.C74_event_loop"
   ],
   "note": "Exact characterisation (if and only if) of every check of events/check.py, and what follows for the start of event_loop."
  },
  {
   "property": "C75",
   "status": "proved",
   "theorems": [
    "Grassfire.C75_init",
    "Grassfire.C75_node_to_node",
    "Grassfire.C75_on_wavefronts",
    "Grassfire.C75_equidistant",
    "Grassfire.C75_same_location",
    "Grassfire.C75_segments"
   ],
   "note": "Hypotheses are about the input (ExactLengths, ClearAngles, NoSpikes) and about the events of the run (Exact)."
  },
  {
   "property": "C76",
   "status": "proved",
   "theorems": [
    "Grassfire.C76_degenerate",
    "Grassfire.C76_orientation"
   ],
   "note": "C76_degenerate: a root of the area is seen by compute_collapse_time, for 0, 1, 2 and 3 wavefront edges, under the explicit hypothesis ClearMotion that excludes the motions that the tolerances misjudge; C76_orientation: the sign of the area until the event. Exact arithmetic."
  },
  {
   "property": "C77",
   "status": "proved",
   "theorems": [
    "Grassfire.C77_upright",
    "Grassfire.C77_between",
    "Grassfire.C77_check"
   ],
   "note": "C77_upright (at the iterations), C77_between (at all moments between them), C77_check (the check of C74 accepts). The hypotheses are in SteadyExecution and say exactly which runs are excluded; a complete run meets them (wedge_steady)."
  },
  {
   "property": "C78",
   "status": "proved",
   "theorems": [
    "Grassfire.C78_computed",
    "Grassfire.C78_immediate",
    "Grassfire.C78_split"
   ],
   "note": "C78_computed (compute_collapse_time), C78_immediate (compute_new_edge_collapse_event), C78_split. ClearMotion, Solvable and SharpAt say which motions are excluded; triangles of all four types meet them."
  },
  {
   "property": "C79",
   "status": "proved",
   "theorems": [
    "Grassfire.C79_visualize",
    "Grassfire.C79_output_skel",
    "Grassfire.C79_silent",
    "Grassfire.C79_output",
    "Grassfire.C79_pause",
    "Grassfire.C79_output_kdt",
    "Grassfire.C79_output_vertices",
    "Grassfire.C79_kdt_vertex"
   ],
   "note": "C79_visualize, C79_output_skel, C79_silent, C79_output, C79_pause, C79_output_kdt, C79_output_vertices, C79_kdt_vertex. Rows are modelled, not their text nor the file system. pause=True raises NameError (raw_input); output_kdt raises AttributeError for every skeleton with a triangle."
  },
  {
   "property": "C80",
   "status": "proved",
   "theorems": [
    "Grassfire.C80_crossing_bisector"
   ],
   "note": "C80_crossing_bisector; writing the two files is left out of the model"
  },
  {
   "property": "C81",
   "status": "proved",
   "theorems": [
    "Grassfire.C81_signed_turn",
    "Grassfire.C81_corner_bisector"
   ],
   "note": "C81_signed_turn (reals; atan2 is the argument of a complex number), C81_corner_bisector"
  },
  {
   "property": "C82",
   "status": "proved",
   "theorems": [
    "Grassfire.C82_quadratic",
    "Grassfire.C82_linear",
    "Grassfire.C82_agree"
   ],
   "note": "C82_quadratic, C82_linear, C82_agree"
  },
  {
   "property": "C83",
   "status": "proved",
   "theorems": [
    "Grassfire.C83_unit_vector",
    "Grassfire.C83_is_quad",
    "Grassfire.C83_dart_witness",
    "Grassfire.C83_find_overlapping"
   ],
   "note": "C83_unit_vector, C83_is_quad, C83_dart_witness (is_quad accepts a dart), C83_find_overlapping"
  },
  {
   "property": "C84",
   "status": "proved",
   "theorems": [
    "Grassfire.C84_steady",
    "Grassfire.C84_happens",
    "Grassfire.C84_stopped",
    "Grassfire.C84_polygon"
   ],
   "note": "C84_steady (the execution is steady and plain), C84_happens, C84_stopped (triangles with stopped corners have an event to be handled at once), C84_polygon (polygons without holes: from conditions on the triangulation and the motions). The conditions on the motions (`ClearTriangle`, `SharpStep`) are hypotheses"
  },
  {
   "property": "C85",
   "status": "proved",
   "theorems": [
    "Grassfire.C85_total",
    "Grassfire.C85_sqrt",
    "Grassfire.C85_loose_end",
    "Grassfire.C85_short_edge",
    "Grassfire.C85_calc_skel"
   ],
   "note": "C85_total (with exact lengths), C85_sqrt (with a proper square root), C85_loose_end, C85_short_edge (what is needed), C85_calc_skel. What the package tri delivers (DtMesh, DtFrame) is a hypothesis"
  },
  {
   "property": "C86",
   "status": "proved",
   "theorems": [
    "Grassfire.C86_raises",
    "Grassfire.C86_gather",
    "Grassfire.C86_clear"
   ],
   "note": "C86_raises (which situations), C86_gather (the corners gather), C86_clear (two wavefront edges are never ambiguous when the motion is clear). A triangle whose corners do gather makes the function raise (example exGather): that is how the code behaves"
  },
  {
   "property": "C87",
   "status": "proved",
   "theorems": [
    "Grassfire.C87_progress",
    "Grassfire.C87_keeps",
    "Grassfire.C87_start",
    "Grassfire.C87_init_skeleton",
    "Grassfire.C87_loop",
    "Grassfire.C87_event_loop"
   ],
   "note": "C87_progress, C87_keeps (invariants), C87_start (init_event_list), C87_init_skeleton (where good starts come from), C87_loop, C87_event_loop. The hypotheses ask for general position of each event as it is taken, not of the input polygon alone; outside general position the code does raise: schedule_immediately on a triangle without event, assertion in a triangle next to stopped vertices, a collapsing pair of wavefront sides"
  },
  {
   "property": "C88",
   "status": "proved",
   "theorems": [
    "Grassfire.C88_event",
    "Grassfire.C88_degrees",
    "Grassfire.C88_forward",
    "Grassfire.C88_count",
    "Grassfire.C88_complete",
    "Grassfire.C88_init_skeleton"
   ],
   "note": "C88_event, C88_degrees, C88_forward, C88_count, C88_complete; C88_init_skeleton: what init_skeleton delivers for a proper triangulation, also after internal_only_skeleton, meets the condition on the start. General position of the events as they are taken is assumed, see C87; with nodes reused (C29) or several events at one place nodes of other degrees appear"
  },
  {
   "property": "C89",
   "status": "proved",
   "theorems": [
    "Grassfire.C89_together",
    "Grassfire.C89_components",
    "Grassfire.C89_connected",
    "Grassfire.C89_nodes",
    "Grassfire.C89_cycles",
    "Grassfire.C89_tree",
    "Grassfire.C89_piece"
   ],
   "note": "C89_together, C89_components, C89_connected, C89_nodes, C89_cycles, C89_tree, C89_piece. The relation between the number of corners, triangles and holes of the input triangulation is a hypothesis, as is general position of the events (C87, C88)"
  },
  {
   "property": "C90",
   "status": "proved",
   "theorems": [
    "Grassfire.C90_ordinary",
    "Grassfire.C90_current",
    "Grassfire.C90_linked",
    "Grassfire.C90_checks",
    "Grassfire.C90_sharp",
    "Grassfire.C90_exact",
    "Grassfire.C90_happens"
   ],
   "note": "C90_ordinary, C90_current, C90_linked, C90_checks, C90_sharp, C90_exact, C90_happens. General position of the events, and for the last three that tolerances do not blur anything, are hypotheses about the run (GenericEvents, Unblurred)"
  },
  {
   "property": "C91",
   "status": "proved",
   "theorems": [
    "Grassfire.C91_forward",
    "Grassfire.C91_inside",
    "Grassfire.C91_time",
    "Grassfire.C91_complete"
   ],
   "note": "C91_forward, C91_inside, C91_time, C91_complete. General position of the events and that tolerances do not blur anything are hypotheses about the run (GeneralRun, as in C90)"
  },
  {
   "property": "C92",
   "status": "proved",
   "theorems": [
    "Grassfire.C92_bound",
    "Grassfire.C92_event_loop",
    "Grassfire.C92_calc_skel"
   ],
   "note": "C92_bound, C92_event_loop, C92_calc_skel. General position is a hypothesis about the events of the run (GeneralInput), which does not say that there are finitely many. The bound is far from sharp: it is below 50000 for polygons of up to 13 corners; above that C92_bound still shows that the loop ends, but not that the guard is not reached"
  },
  {
   "property": "C93",
   "status": "proved",
   "theorems": [
    "Grassfire.C93_sides",
    "Grassfire.C93_triangles",
    "Grassfire.C93_cycles",
    "Grassfire.C93_tree",
    "Grassfire.C93_calc_skel"
   ],
   "note": "C93_sides, C93_triangles, C93_cycles, C93_tree, C93_calc_skel. The hypotheses about the polygon (DtForest, DtOnePiece, DtOnce) are conditions on the triangulation only; general position is as in C92"
  },
  {
   "property": "C94",
   "status": "proved",
   "theorems": [
    "Grassfire.C94_output_offsets",
    "Grassfire.C94_past",
    "Grassfire.C94_rings",
    "Grassfire.C94_zero",
    "Grassfire.C94_empty",
    "Grassfire.C94_calc_offsets"
   ],
   "note": "C94_past (all executions, incl. the handlers of parallel wavefronts), C94_rings, C94_zero, C94_empty, C94_calc_offsets, C94_output_offsets. That the rings do not cross themselves or each other is C97 and C98. Outside general position stop_kvertices may overwrite the stop time of a vertex that was stopped earlier, and then the vertex is on the wavefront for longer than it was (C94_past leaves room for it)"
  },
  {
   "property": "C95",
   "status": "proved",
   "theorems": [
    "Grassfire.C95_positive",
    "Grassfire.C95_zero",
    "Grassfire.C95_swept",
    "Grassfire.C95_shrinks",
    "Grassfire.C95_lines"
   ],
   "note": "C95_positive, C95_zero, C95_shrinks, C95_swept, C95_lines. Exact arithmetic; general position as in C90 and lone events as in C88"
  },
  {
   "property": "C96",
   "status": "proved",
   "theorems": [
    "Grassfire.C96_zero",
    "Grassfire.C96_clearance",
    "Grassfire.C96_disc",
    "Grassfire.C96_range"
   ],
   "note": "C96_zero, C96_clearance, C96_disc, C96_range. Exact arithmetic; general position as in C90 and lone events as in C88. The converse (all points at a distance of more than x from the boundary are inside the offset) is not claimed: it is false for straight skeletons at reflex corners"
  },
  {
   "property": "C97",
   "status": "proved",
   "theorems": [
    "Grassfire.C97_cross",
    "Grassfire.C97_touch"
   ],
   "note": "C97_cross, C97_touch. Exact arithmetic; general position as in C90 and lone events as in C88; the input may not overlap itself (dtWinding <= 1 everywhere)"
  },
  {
   "property": "C98",
   "status": "proved",
   "theorems": [
    "Grassfire.C98_apart",
    "Grassfire.C98_times",
    "Grassfire.C98_places",
    "Grassfire.C98_plane",
    "Grassfire.C98_simple"
   ],
   "note": "C98_apart, C98_times, C98_places, C98_plane, C98_simple. Exact arithmetic; general position as in C90 and lone events as in C88; the input may not overlap itself (dtWinding <= 1 everywhere). That two arcs whose vertices are at one place at the time of an event end or start there is not part of it: events at the same time at the same place that do not affect each other are not excluded by general position as defined in C90"
  },
  {
   "property": "C99",
   "status": "proved",
   "theorems": [
    "Grassfire.C99_roof",
    "Grassfire.C99_all",
    "Grassfire.C99_unique",
    "Grassfire.C99_slope"
   ],
   "note": "C99_roof, C99_all, C99_unique, C99_slope. Exact arithmetic; general position as in C90 and lone events as in C88; the input may not overlap itself (dtWinding <= 1 everywhere)"
  },
  {
   "property": "C100",
   "status": "proved",
   "theorems": [
    "Grassfire.C100_distance",
    "Grassfire.C100_arcs",
    "Grassfire.C100_meet"
   ],
   "note": "C100_arcs, C100_meet, C100_distance. Exact arithmetic; general position as in C90 and lone events as in C88; the input may not overlap itself (dtWinding <= 1 everywhere); arcs of vertices that are stopped at the time they start are single points and not covered as second arc"
  },
  {
   "property": "C101",
   "status": "proved",
   "theorems": [
    "Grassfire.C101_disc",
    "Grassfire.C101_boundary",
    "Grassfire.C101_drawing",
    "Grassfire.C101_inside",
    "Grassfire.C101_calc_skel"
   ],
   "note": "C101_disc, C101_boundary, C101_drawing, C101_inside, C101_calc_skel (complete run of calc_skel, examples: a wedge with its five segments and the pentagon with a notch). Exact arithmetic; general position as in C90 and lone events as in C88; the input may not overlap itself (dtWinding <= 1 everywhere). C101_calc_skel needs no bound on the number of iterations: it is about what is returned"
  },
  {
   "property": "C102",
   "status": "proved",
   "theorems": [
    "Grassfire.C102_shrink",
    "Grassfire.C102_calc_skel",
    "Grassfire.C102_segments",
    "Grassfire.C102_general",
    "Grassfire.C102_exterior_violated"
   ],
   "note": "C102_shrink, C102_calc_skel, C102_segments, C102_general; example: the wedge eight times as large. C102_exterior_violated: with the exterior the segments that do not end (C40) are not enlarged, so the condition that all vertices have stopped is needed. Exact arithmetic: with floats the enlarged points can be rounded"
  },
  {
   "property": "C103",
   "status": "proved",
   "theorems": [
    "Grassfire.C103_same_order",
    "Grassfire.C103_segments",
    "Grassfire.C103_order_matters"
   ],
   "note": "C103_same_order, C103_segments; C103_order_matters: the witness for different lists. The numbering is a function on all numbers, and the order is compared on all of them. That the segments of two runs with different orders are the same set up to direction in general position is not proved"
  },
  {
   "property": "C104",
   "status": "proved",
   "theorems": [
    "Grassfire.C104_events",
    "Grassfire.C104_calc_skel"
   ],
   "note": "C104_events, C104_calc_skel; examples: the pentagon with a notch and the wedge with the triangles in the opposite order. Ids are different for different triangles. The condition (UntiedRun) is about the states at the start of the iterations of one of the runs; C103_order_matters shows that it is needed. The queue is modelled by its contract (DESIGN.md)"
  },
  {
   "property": "C105",
   "status": "proved",
   "theorems": [
    "Grassfire.C105_deeper",
    "Grassfire.C105_enough",
    "Grassfire.C105_limit"
   ],
   "note": "C105_deeper, C105_enough; C105_limit shows that the limit does matter (the rectangle 4 by 2 needs one call). Only the calls of handle_parallel_fan by itself are counted; all other calls of the code have a depth that does not depend on the input and are not counted. That a limit that is large enough exists is not part of the property"
  },
  {
   "property": "C106",
   "status": "proved",
   "theorems": [
    "Grassfire.C106_at_least",
    "Grassfire.C106_height",
    "Grassfire.C106_offset",
    "Grassfire.C106_medial",
    "Grassfire.C106_lasts",
    "Grassfire.C106_same",
    "Grassfire.C106_segments",
    "Grassfire.C106_axis",
    "Grassfire.C106_calc_skel",
    "Grassfire.C106_places",
    "Grassfire.C106_inradius"
   ],
   "note": "C106_calc_skel, C106_height, C106_at_least, C106_offset, C106_lasts, C106_medial, C106_segments, C106_axis, C106_same, C106_places, C106_inradius. General position (GeneralRun / GeneralInput and LoneEvents) is a condition on the run, and the condition that only the edges of the polygon are constrained (OnlyEdges) excludes segments drawn inside it. Missing: that the two lines of a vertex differ (two edges of the input may be in line), and C106_axis for the finitely many times at which an event is handled"
  },
  {
   "property": "C107",
   "status": "proved",
   "theorems": [
    "Grassfire.C107_run",
    "Grassfire.C107_segments",
    "Grassfire.C107_skeleton",
    "Grassfire.C107_half"
   ],
   "note": "C107_skeleton, C107_run (events; with exceptions), C107_segments. Exact numbers: with floats a turn changes no rounding of products and sums of two numbers, but the order of summation can change. The triangulation is assumed to turn with the points, also its three points at infinity"
  },
  {
   "property": "C108",
   "status": "proved",
   "theorems": [
    "Grassfire.C108_run",
    "Grassfire.C108_skeleton",
    "Grassfire.C108_calc"
   ],
   "note": "C108_run, C108_skeleton, C108_calc. Events that compare equal in the queue (same time and same id) are outside of the model; for a run that fails nothing is said"
  },
  {
   "property": "C109",
   "status": "proved",
   "theorems": [
    "Grassfire.C109_run",
    "Grassfire.C109_calc_skel",
    "Grassfire.C109_segments",
    "Grassfire.C109_any"
   ],
   "note": "C109_calc_skel, C109_any, C109_run (events), C109_segments. Labels are numbers or None in the model; other objects are not. The triangulation is assumed not to use the labels"
  }
 ]
}
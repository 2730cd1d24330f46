{
 "C01": [
  "proved",
  "exact arithmetic"
 ],
 "C02": [
  "proved",
  "reflexive, symmetric, raising; asymmetric method shown not symmetric"
 ],
 "C05": [
  "partial",
  "the documented absolute tolerance is violated by the code (arguments swapped) and the empty case raises StopIteration under python 3: negations proved, the part that holds proved as _partial"
 ],
 "C09": [
  "proved",
  "over the reals"
 ],
 "C14": [
  "proved",
  "the code violates the expectation: it is proved that get_intersection always raises"
 ],
 "C22": [
  "partial",
  "shape proved in full; 'a flipped side is not a wavefront side' is violated for triangles below the tolerance (witness proved) and proved otherwise as _partial"
 ],
 "C23": [
  "proved",
  "outside the tolerance cases of the quadratic solver; inside them a witness of the violation is proved"
 ],
 "C24": [
  "proved",
  "computation of events and the event loop"
 ],
 "C40": [
  "partial",
  "violated for vertices that never stop (witness proved); proved for skeletons in which every vertex has stopped, so for every input in general position without exterior (C40_general)"
 ],
 "C29": [
  "proved",
  "exact arithmetic"
 ],
 "C30": [
  "proved",
  "exact arithmetic; the meaning of the test for opposed wavefronts over the reals"
 ],
 "C32": [
  "proved",
  "exact arithmetic; all executions from any state that satisfies Spec.Initial, which is what init_skeleton delivers (C52), with and without internal_only (C42)"
 ],
 "C33": [
  "proved",
  "exact arithmetic; all executions from any state that satisfies Spec.Initial, which is what init_skeleton delivers (C52), with and without internal_only (C42)"
 ],
 "C34": [
  "proved",
  "exact arithmetic; all executions from any state that satisfies Spec.Initial, which is what init_skeleton delivers (C52), with and without internal_only (C42)"
 ],
 "C47": [
  "proved",
  "exact arithmetic; all executions from any state that satisfies Spec.Initial, which is what init_skeleton delivers (C52), with and without internal_only (C42)"
 ],
 "C48": [
  "proved",
  "exact arithmetic; all executions from any state that satisfies Spec.Initial, which is what init_skeleton delivers (C52), with and without internal_only (C42)"
 ],
 "C44": [
  "proved",
  "distinct for all executions from what init_skeleton delivers (C52); violated with internal_only=True: complete run of a rectangle"
 ],
 "C45": [
  "partial",
  "violated for diagonal matrices with the larger entry second and for negative eigenvalues (both proved); values proved, vectors in the remaining cases"
 ],
 "C43": [
  "proved",
  "exact arithmetic"
 ],
 "C49": [
  "proved",
  "python 3"
 ],
 "C50": [
  "proved",
  "exact arithmetic"
 ],
 "C51": [
  "proved",
  "exact arithmetic. C51_unstopped: TypeError; C51_files: what the two files hold otherwise"
 ],
 "C41": [
  "proved",
  "for all stars; the groups and the absence of failing assertions for consistent stars (Spec.StarOk)"
 ],
 "C42": [
  "proved",
  "also: the filtered skeleton is a proper start of the event loop"
 ],
 "C52": [
  "proved",
  "for all triangulations, consistent or not; python identity of triangles assumed injective"
 ],
 "C53": [
  "proved",
  "for all triangulations that meet the contract of the external package tri (Spec.DtOk)"
 ],
 "C54": [
  "proved",
  "for all triangulations that meet the contract of the external package tri (Spec.DtOk)"
 ],
 "C55": [
  "proved",
  "exact arithmetic; the external triangulate is a parameter: consistent (Spec.DtOk), its vertices at the given points; output=False, pause=False"
 ],
 "C56": [
  "proved",
  "exact arithmetic; segments of vertices that never stop are not in input coordinates (C40, also proved for a complete run)"
 ],
 "C57": [
  "proved",
  "exact arithmetic; triangulations that meet the contract of the external package tri (Spec.DtOk) and whose edges have exact lengths (Spec.ExactLengths: always with real numbers)"
 ],
 "C58": [
  "proved",
  "exact arithmetic; triangulations that meet the contract of the external package tri (Spec.DtOk) and whose edges have exact lengths (Spec.ExactLengths: always with real numbers)"
 ],
 "C59": [
  "proved",
  "exact arithmetic; triangulations that meet the contract of the external package tri (Spec.DtOk) and whose edges have exact lengths (Spec.ExactLengths: always with real numbers); vertices between parallel lines created by events are not covered (their position depends on the node)"
 ],
 "C60": [
  "proved",
  "exact arithmetic; triangulations that meet the contract of the external package tri (Spec.DtOk) and whose edges have exact lengths (Spec.ExactLengths: always with real numbers)"
 ],
 "C61": [
  "proved",
  "new vertex not infinitely fast (otherwise the parallel handlers follow); not a loop of two vertices, where the code links the new vertex to itself; exact arithmetic"
 ],
 "C62": [
  "proved",
  "new vertices not infinitely fast (otherwise the parallel handlers follow); exact arithmetic"
 ],
 "C63": [
  "proved",
  "exact arithmetic; that vertices are on their wavefronts is C59; that the vertices meet at the event time is what C19-C22 say about the events"
 ],
 "C38": [
  "partial",
  "`Mesh` (triangles not stopped form a consistent triangulation) implies the symmetric neighbour counts (C38_symmetric) and is kept by split events (C38_split), three-sided (C38_three_sides) and one-sided collapses (C38_one_side), even legs of a fan of one triangle (C38_even_legs), by edge events when the side is collapsible (link condition) and by flips when the two triangles have different apexes. C38_edge_witness shows the link condition is needed. The link condition holds in all states of executions on regions without holes (C71). Missing: regions with holes, events whose new vertex is infinitely fast, and larger parallel fans."
 ],
 "C64": [
  "proved",
  "Exact arithmetic. One, two, three wavefront sides and hull triangles; interior triangles are C23. The hypotheses on the time 0 (python truth value of a number) and on the clustering tolerance are stated in the theorems."
 ],
 "C65": [
  "proved",
  "Exact arithmetic. C65_three_sides_wrong is the witness for the last sentence: an edge event of a side of squared length 8."
 ],
 "C66": [
  "partial",
  "Proved for executions whose iterations are ordinary: no infinitely fast vertex is made (parallel wavefronts), the link conditions of C38 hold, neighbours of a triangle that vanishes with all sides have events. Missing: iterations in which parallel wavefronts meet (flips within a fan). A triangle that never had an event may have got new wavefront sides since; the definition Certified says so. For polygons without holes C71 supplies the link conditions. In general position these conditions are met, also with holes, and the pending events are current without exceptions: C90_ordinary, C90_current."
 ],
 "C67": [
  "partial",
  "For ordinary executions, see C66. Immediate events may name two sides; the loop then raises. For polygons without holes C71 supplies the link conditions. In general position the conditions are met: C90_ordinary, and every event happens as announced: C90_happens."
 ],
 "C68": [
  "partial",
  "For ordinary executions, see C66, and triangles with finite, not infinitely fast vertices that have had an event; tolerances as in C64. Missing: parallel wavefronts, hull triangles. For polygons without holes C71 supplies the link conditions. In general position the conditions are met, also with holes: C90_ordinary, C90_exact."
 ],
 "C69": [
  "partial",
  "For ordinary executions (see C66) whose events are plain: the vertices concerned have not been stopped before, except at a side where a neighbour vanished as a whole. Missing: parallel wavefronts, events at vertices stopped before. For polygons without holes C71 supplies the link conditions. In general position the conditions are met, also with holes: C90_ordinary, C90_linked, C90_checks."
 ],
 "C70": [
  "proved",
  "Proved for every triangulation that meets DtMesh (the contract of the external package tri: mutual neighbours, stars in order, constraints between finite vertices). It gives the start conditions of C66-C69 for calc_skel."
 ],
 "C72": [
  "proved",
  "Proved for all events, including parallel fans, without link conditions. The part about calc_skel assumes DtMesh and DtRegions (contract of the external package tri: RegionatedTriangleIterator gives neighbours over unconstrained edges the same depth)."
 ],
 "C71": [
  "partial",
  "Forest (by ranks) and roundness around vertices are kept by edge, split and flip events and by the collapse of whole triangles; they imply the link conditions. Missing: iterations that make an infinitely fast vertex, triangles that vanish as a whole next to a triangle without event (Calm says so), and polygons with holes, for which the link condition would need the planar embedding. In general position the link conditions hold with holes as well: C90_ordinary."
 ],
 "C73": [
  "proved",
  "Contracts for every fan, state and time in exact arithmetic. The node is an existing one (where one of the vertices started or was stopped before) or a single new one at the place stated. Fans of two triangles with equally long outer legs (flip_pair) and the choice of the pivot in parallel3 are not covered."
 ],
 "C74": [
  "proved",
  "Exact characterisation (if and only if) of every check of events/check.py, and what follows for the start of event_loop."
 ],
 "C75": [
  "proved",
  "Hypotheses are about the input (ExactLengths, ClearAngles, NoSpikes) and about the events of the run (Exact)."
 ],
 "C76": [
  "proved",
  "C76_degenerate: a root of the area is seen by compute_collapse_time, for 0, 1, 2 and 3 wavefront edges, under the explicit hypothesis ClearMotion that excludes the motions that the tolerances misjudge; C76_orientation: the sign of the area until the event. Exact arithmetic."
 ],
 "C77": [
  "proved",
  "C77_upright (at the iterations), C77_between (at all moments between them), C77_check (the check of C74 accepts). The hypotheses are in SteadyExecution and say exactly which runs are excluded; a complete run meets them (wedge_steady)."
 ],
 "C78": [
  "proved",
  "C78_computed (compute_collapse_time), C78_immediate (compute_new_edge_collapse_event), C78_split. ClearMotion, Solvable and SharpAt say which motions are excluded; triangles of all four types meet them."
 ],
 "C79": [
  "proved",
  "C79_visualize, C79_output_skel, C79_silent, C79_output, C79_pause, C79_output_kdt, C79_output_vertices, C79_kdt_vertex. Rows are modelled, not their text nor the file system. pause=True raises NameError (raw_input); output_kdt raises AttributeError for every skeleton with a triangle."
 ],
 "C80": [
  "proved",
  "C80_crossing_bisector; writing the two files is left out of the model"
 ],
 "C81": [
  "proved",
  "C81_signed_turn (reals; atan2 is the argument of a complex number), C81_corner_bisector"
 ],
 "C82": [
  "proved",
  "C82_quadratic, C82_linear, C82_agree"
 ],
 "C83": [
  "proved",
  "C83_unit_vector, C83_is_quad, C83_dart_witness (is_quad accepts a dart), C83_find_overlapping"
 ],
 "C84": [
  "proved",
  "C84_steady (the execution is steady and plain), C84_happens, C84_stopped (triangles with stopped corners have an event to be handled at once), C84_polygon (polygons without holes: from conditions on the triangulation and the motions). The conditions on the motions (`ClearTriangle`, `SharpStep`) are hypotheses"
 ],
 "C85": [
  "proved",
  "C85_total (with exact lengths), C85_sqrt (with a proper square root), C85_loose_end, C85_short_edge (what is needed), C85_calc_skel. What the package tri delivers (DtMesh, DtFrame) is a hypothesis"
 ],
 "C86": [
  "proved",
  "C86_raises (which situations), C86_gather (the corners gather), C86_clear (two wavefront edges are never ambiguous when the motion is clear). A triangle whose corners do gather makes the function raise (example exGather): that is how the code behaves"
 ],
 "C87": [
  "proved",
  "C87_progress, C87_keeps (invariants), C87_start (init_event_list), C87_init_skeleton (where good starts come from), C87_loop, C87_event_loop. The hypotheses ask for general position of each event as it is taken, not of the input polygon alone; outside general position the code does raise: schedule_immediately on a triangle without event, assertion in a triangle next to stopped vertices, a collapsing pair of wavefront sides"
 ],
 "C88": [
  "proved",
  "C88_event, C88_degrees, C88_forward, C88_count, C88_complete; C88_init_skeleton: what init_skeleton delivers for a proper triangulation, also after internal_only_skeleton, meets the condition on the start. General position of the events as they are taken is assumed, see C87; with nodes reused (C29) or several events at one place nodes of other degrees appear"
 ],
 "C89": [
  "proved",
  "C89_together, C89_components, C89_connected, C89_nodes, C89_cycles, C89_tree, C89_piece. The relation between the number of corners, triangles and holes of the input triangulation is a hypothesis, as is general position of the events (C87, C88)"
 ],
 "C90": [
  "proved",
  "C90_ordinary, C90_current, C90_linked, C90_checks, C90_sharp, C90_exact, C90_happens. General position of the events, and for the last three that tolerances do not blur anything, are hypotheses about the run (GenericEvents, Unblurred)"
 ],
 "C91": [
  "proved",
  "C91_forward, C91_inside, C91_time, C91_complete. General position of the events and that tolerances do not blur anything are hypotheses about the run (GeneralRun, as in C90)"
 ],
 "C92": [
  "proved",
  "C92_bound, C92_event_loop, C92_calc_skel. General position is a hypothesis about the events of the run (GeneralInput), which does not say that there are finitely many. The bound is far from sharp: it is below 50000 for polygons of up to 13 corners; above that C92_bound still shows that the loop ends, but not that the guard is not reached"
 ],
 "C93": [
  "proved",
  "C93_sides, C93_triangles, C93_cycles, C93_tree, C93_calc_skel. The hypotheses about the polygon (DtForest, DtOnePiece, DtOnce) are conditions on the triangulation only; general position is as in C92"
 ],
 "C94": [
  "proved",
  "C94_past (all executions, incl. the handlers of parallel wavefronts), C94_rings, C94_zero, C94_empty, C94_calc_offsets, C94_output_offsets. That the rings do not cross themselves or each other is C97 and C98. Outside general position stop_kvertices may overwrite the stop time of a vertex that was stopped earlier, and then the vertex is on the wavefront for longer than it was (C94_past leaves room for it)"
 ],
 "C95": [
  "proved",
  "C95_positive, C95_zero, C95_shrinks, C95_swept, C95_lines. Exact arithmetic; general position as in C90 and lone events as in C88"
 ],
 "C96": [
  "proved",
  "C96_zero, C96_clearance, C96_disc, C96_range. Exact arithmetic; general position as in C90 and lone events as in C88. The converse (all points at a distance of more than x from the boundary are inside the offset) is not claimed: it is false for straight skeletons at reflex corners"
 ],
 "C97": [
  "proved",
  "C97_cross, C97_touch. Exact arithmetic; general position as in C90 and lone events as in C88; the input may not overlap itself (dtWinding <= 1 everywhere)"
 ],
 "C98": [
  "proved",
  "C98_apart, C98_times, C98_places, C98_plane, C98_simple. Exact arithmetic; general position as in C90 and lone events as in C88; the input may not overlap itself (dtWinding <= 1 everywhere). That two arcs whose vertices are at one place at the time of an event end or start there is not part of it: events at the same time at the same place that do not affect each other are not excluded by general position as defined in C90"
 ],
 "C99": [
  "proved",
  "C99_roof, C99_all, C99_unique, C99_slope. Exact arithmetic; general position as in C90 and lone events as in C88; the input may not overlap itself (dtWinding <= 1 everywhere)"
 ],
 "C100": [
  "proved",
  "C100_arcs, C100_meet, C100_distance. Exact arithmetic; general position as in C90 and lone events as in C88; the input may not overlap itself (dtWinding <= 1 everywhere); arcs of vertices that are stopped at the time they start are single points and not covered as second arc"
 ],
 "C101": [
  "proved",
  "C101_disc, C101_boundary, C101_drawing, C101_inside, C101_calc_skel (complete run of calc_skel, examples: a wedge with its five segments and the pentagon with a notch). Exact arithmetic; general position as in C90 and lone events as in C88; the input may not overlap itself (dtWinding <= 1 everywhere). C101_calc_skel needs no bound on the number of iterations: it is about what is returned"
 ],
 "C102": [
  "proved",
  "C102_shrink, C102_calc_skel, C102_segments, C102_general; example: the wedge eight times as large. C102_exterior_violated: with the exterior the segments that do not end (C40) are not enlarged, so the condition that all vertices have stopped is needed. Exact arithmetic: with floats the enlarged points can be rounded"
 ],
 "C103": [
  "proved",
  "C103_same_order, C103_segments; C103_order_matters: the witness for different lists. The numbering is a function on all numbers, and the order is compared on all of them. That the segments of two runs with different orders are the same set up to direction in general position is not proved"
 ],
 "C104": [
  "proved",
  "C104_events, C104_calc_skel; examples: the pentagon with a notch and the wedge with the triangles in the opposite order. Ids are different for different triangles. The condition (UntiedRun) is about the states at the start of the iterations of one of the runs; C103_order_matters shows that it is needed. The queue is modelled by its contract (DESIGN.md)"
 ],
 "C105": [
  "proved",
  "C105_deeper, C105_enough; C105_limit shows that the limit does matter (the rectangle 4 by 2 needs one call). Only the calls of handle_parallel_fan by itself are counted; all other calls of the code have a depth that does not depend on the input and are not counted. That a limit that is large enough exists is not part of the property"
 ],
 "C106": [
  "proved",
  "C106_calc_skel, C106_height, C106_at_least, C106_offset, C106_lasts, C106_medial, C106_segments, C106_axis, C106_same, C106_places, C106_inradius. General position (GeneralRun / GeneralInput and LoneEvents) is a condition on the run, and the condition that only the edges of the polygon are constrained (OnlyEdges) excludes segments drawn inside it. Missing: that the two lines of a vertex differ (two edges of the input may be in line), and C106_axis for the finitely many times at which an event is handled"
 ],
 "C107": [
  "proved",
  "C107_skeleton, C107_run (events; with exceptions), C107_segments. Exact numbers: with floats a turn changes no rounding of products and sums of two numbers, but the order of summation can change. The triangulation is assumed to turn with the points, also its three points at infinity"
 ],
 "C108": [
  "proved",
  "C108_run, C108_skeleton, C108_calc. Events that compare equal in the queue (same time and same id) are outside of the model; for a run that fails nothing is said"
 ],
 "C109": [
  "proved",
  "C109_calc_skel, C109_any, C109_run (events), C109_segments. Labels are numbers or None in the model; other objects are not. The triangulation is assumed not to use the labels"
 ]
}
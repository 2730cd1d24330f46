{"id": "C01", "title": "near_zero is exactly the absolute 1e-10 tolerance test", "statement": "near_zero(v) returns True if and only if |v| <= 1e-10, and it never raises; the relative tolerance it also passes never changes the answer.", "quantifier": "every number v", "why_tests_cant": "The set of numbers is unbounded; a test samples a few values near the threshold and cannot show that the relative part never matters.", "anchors": ["src/grassfire/calc.py: near_zero", "src/grassfire/calc.py: is_close"]}
{"id": "C02", "title": "is_close is a reflexive, symmetric test that rejects bad parameters", "statement": "is_close raises ValueError exactly when a tolerance is negative or the method name is unknown; otherwise it is reflexive for all four methods, symmetric for 'weak', 'strong' and 'average', and closeness by any of the other methods implies 'weak' closeness. The 'asymmetric' method is not symmetric.", "quantifier": "all pairs of numbers, all tolerances, all method names", "why_tests_cant": "The claim is about all pairs and all tolerance values.", "anchors": ["src/grassfire/calc.py: is_close", "src/grassfire/calc.py: all_close"]}
{"id": "C03", "title": "find_gte returns the earliest time that is not in the past", "statement": "find_gte(times, x) returns None iff no (non-None) entry is >= x; otherwise it returns an entry of the list that is >= x and no entry >= x is smaller. None entries are ignored and the order of the list is irrelevant.", "quantifier": "every list of optional times and every x", "why_tests_cant": "All lists of all lengths and orders.", "anchors": ["src/grassfire/collapse.py: find_gte"]}
{"id": "C04", "title": "find_gt returns the earliest time strictly in the future", "statement": "find_gt(times, x) returns None iff no entry exceeds x by more than the 1e-10 tolerance; otherwise it returns the smallest entry that exceeds x by more than the tolerance. A returned time is always > x.", "quantifier": "every list of optional times and every x", "why_tests_cant": "All lists of all lengths and orders.", "anchors": ["src/grassfire/collapse.py: find_gt"]}
{"id": "C05", "title": "get_unique_times clusters times", "statement": "For a non-empty list of times get_unique_times returns an ascending, duplicate-free selection of the input times that starts with the minimum, such that every input time is represented by an output time not larger than it and within the clustering tolerance. The documented tolerance is absolute (1e-7); an empty list of times gives an empty list.", "quantifier": "every list of optional times", "why_tests_cant": "Ranges over all lists; the swap of the two tolerances is invisible on the usual test values.", "anchors": ["src/grassfire/calc.py: get_unique_times", "src/grassfire/calc.py: all_close_clusters"]}
{"id": "C06", "title": "groupby_cluster partitions the indices in order", "statement": "groupby_cluster returns index groups that are non-empty, whose concatenation is exactly 0..n-1 in order, whose members all have both coordinates within 1e-10 of the first point of their group, and which are maximal (the first point of the next group is not near the first point of the group). On an empty list it raises StopIteration.", "quantifier": "every list of points", "why_tests_cant": "All lists of all lengths.", "anchors": ["src/grassfire/calc.py: groupby_cluster"]}
{"id": "C07", "title": "Vector arithmetic is dimension checked and obeys the vector laws", "statement": "add/sub/mul/div on vectors of unequal dimension raise ValueError, otherwise they work element-wise with the dimension preserved; add and sub are inverse, dot is symmetric and bilinear, norm2(v)=dot(v,v)>=0, division by a zero component raises ZeroDivisionError, cross works only for dimensions 2 and 3 and is antisymmetric; rotate90ccw and rotate90cw are mutually inverse, preserve norms and are orthogonal to the input.", "quantifier": "all vectors of all dimensions over exact arithmetic", "why_tests_cant": "All dimensions and all values.", "anchors": ["src/grassfire/vectorops.py: add, sub, mul, div, dot, norm2, cross, rotate90ccw, rotate90cw, make_vector", "src/grassfire/line2d.py: add, sub, mul, div, dot, rotate90ccw, rotate90cw"]}
{"id": "C08", "title": "unit yields the unit vector in the same direction", "statement": "unit(v) raises ZeroDivisionError iff v is the zero vector; otherwise it has norm 1 and norm(v) * unit(v) = v; for 2D vectors the Line2 normalisation behaves the same.", "quantifier": "all non-empty vectors (exact real arithmetic)", "why_tests_cant": "All vectors.", "anchors": ["src/grassfire/vectorops.py: unit, norm, norm2, dist", "src/grassfire/line2d.py: unit, norm"]}
{"id": "C09", "title": "bisector gives the velocity that follows both moving edges", "statement": "For unit vectors u1, u2 that are not opposite, vectorops.bisector(u1,u2) is a vector b with b.u1 = b.u2 = 1 (so a point moving with velocity b keeps up with both edges that move with unit speed along u1 and u2), and |b| >= 1; for (nearly) opposite vectors it returns (0,0).", "quantifier": "all pairs of 2D unit vectors (exact real arithmetic)", "why_tests_cant": "All angles; numeric tests only check a few.", "anchors": ["src/grassfire/vectorops.py: bisector, angle_unit"]}
{"id": "C10", "title": "Line2.from_points builds the line through both points with the left side positive", "statement": "Line2.from_points(p,q) raises ZeroDivisionError iff p = q; otherwise the result has a unit normal, both points have signed distance 0, and the signed distance of r is twice the signed area of (p,q,r) divided by |pq| (hence positive iff r is left of p->q).", "quantifier": "all pairs of points p,q and all r (exact real arithmetic)", "why_tests_cant": "All points in the plane, including the axis-parallel special cases of the construction.", "anchors": ["src/grassfire/line2d.py: coefficients_from_points, Line2.from_points, Line2.normalize, Line2.signed_distance"]}
{"id": "C11", "title": "A wavefront line moves with unit speed to its left", "statement": "For a line l with unit normal, l.at_time(t) has the same normal and signed_distance(l.at_time(t), p) = signed_distance(l, p) - t; at_time(0) is l and at_time(s).at_time(t) = at_time(s+t). l.through lies on l, ends() lie on l, perpendicular(p) passes through p at right angles.", "quantifier": "all lines, all times, all points (exact real arithmetic)", "why_tests_cant": "All lines and times.", "anchors": ["src/grassfire/line2d.py: Line2.at_time, Line2.translated, Line2.through, Line2.ends, Line2.perpendicular, Line2.bisector, y_at_x"]}
{"id": "C12", "title": "Line intersection is classified correctly", "statement": "LineLineIntersector classifies two lines into exactly one of point / line / no intersection; when it says point, result is the only point lying on both lines; when it says line or no-intersection the determinant of the normals is within 1e-10 of zero; the classification does not depend on the order of the two lines, and two exactly coincident lines are classified as line, exactly parallel disjoint lines (offset more than tolerance) as no intersection.", "quantifier": "all pairs of lines (exact real arithmetic)", "why_tests_cant": "All pairs of lines.", "anchors": ["src/grassfire/line2d.py: LineLineIntersector"]}
{"id": "C13", "title": "A kinetic vertex computed from two wavefronts stays on both of them forever", "statement": "For two unit-normal wavefronts that are not parallel, WaveFrontIntersector.get_bisector returns velocity b and get_intersection_at_t(t) returns the point p(t) that lies on both lines at time t, with p(t) = p(0) + t*b for every t.", "quantifier": "all pairs of non-parallel wavefronts and all times t (exact real arithmetic)", "why_tests_cant": "Every time t and every pair of wavefronts.", "anchors": ["src/grassfire/line2d.py: WaveFrontIntersector.get_bisector, get_intersection_at_t, WaveFront"]}
{"id": "C14", "title": "WaveFrontIntersector.get_intersection is usable", "statement": "Calling WaveFrontIntersector.get_intersection() on non-parallel wavefronts returns their intersection at time 0. (Violated: it always raises TypeError because a mandatory argument is missing, and create_bevel_wavefront fails with it.)", "quantifier": "all pairs of wavefronts", "why_tests_cant": "There is no test; the failure is for every input.", "anchors": ["src/grassfire/line2d.py: WaveFrontIntersector.get_intersection, create_bevel_wavefront"]}
{"id": "C15", "title": "Scaling to the unit box and back is lossless", "statement": "For a transform with non-zero scale backward(forward(p)) = p and forward(backward(p)) = p; forward divides all distances by the same scale factor; with scale zero forward raises ZeroDivisionError.", "quantifier": "all transforms and all points (exact real arithmetic)", "why_tests_cant": "All points.", "anchors": ["src/grassfire/transform.py: Transform.forward, Transform.backward"]}
{"id": "C16", "title": "Every input point is mapped into the unit box", "statement": "For every non-empty point list that is not a single repeated point, get_box is the tight bounding box, and get_transform(get_box(pts)).forward maps each point into [-1,1]x[-1,1], so that the coordinate-range check of calc_skel passes; an empty list raises AssertionError and a single repeated point makes forward raise ZeroDivisionError. With shrink=False the check passes iff the box is inside [-2,2]^2.", "quantifier": "every non-empty list of points", "why_tests_cant": "All lists of points.", "anchors": ["src/grassfire/transform.py: get_box, get_transform", "src/grassfire/__init__.py: calc_skel"]}
{"id": "C17", "title": "The area of a kinetic triangle is the quadratic that the event code uses", "statement": "area_collapse_time_coeff of three moving vertices returns (A,B,C) such that for every time t, A t^2 + B t + C is twice the signed area of the triangle spanned by the three positions at t.", "quantifier": "all triples of kinetic vertices and all times t", "why_tests_cant": "Every t and every triple.", "anchors": ["src/grassfire/collapse.py: area_collapse_time_coeff", "src/grassfire/primitives.py: KineticVertex.position_at"]}
{"id": "C18", "title": "The quadratic solver neither invents nor misses roots", "statement": "solve_quadratic(A,B,C) returns its roots in ascending order; when |A|>1e-10 the number of results is 0, 1 or 2; the result is exactly the set of real roots when the reduced discriminant is > 1e-10 or < -1e-10; and in the remaining tolerance cases every returned value has a residual of at most |A|*1e-10 (quadratic) respectively |A| x^2 (linear). (In the band between -1e-10 and 0 a value is returned although there is no real root.)", "quantifier": "all real coefficients", "why_tests_cant": "All coefficients.", "anchors": ["src/grassfire/collapse.py: solve_quadratic, area_collapse_times"]}
{"id": "C19", "title": "collapse_time_edge is the moment of closest approach", "statement": "When the relative velocity of two kinetic vertices is not negligible, collapse_time_edge returns the time at which their distance is minimal over all times, it does not depend on the order of the arguments, and if the two ever meet it is the meeting time; otherwise it returns -1.", "quantifier": "all pairs of kinetic vertices, all times", "why_tests_cant": "Minimum over all real t.", "anchors": ["src/grassfire/collapse.py: collapse_time_edge", "src/grassfire/primitives.py: KineticVertex.distance2_at"]}
{"id": "C20", "title": "vertex_crash_time is the moment a vertex hits a moving edge", "statement": "If the edge end points carry the same supporting line, the line's normal has unit length and the line contains the edge's start origin, then a returned time t satisfies: the apex at time t has signed distance 0 to the line moved to time t; when None is returned the apex does not approach or leave the line except within tolerance. If the supporting lines differ an AssertionError is raised.", "quantifier": "all apexes and wavefront edges (exact real arithmetic)", "why_tests_cant": "All vertices and times.", "anchors": ["src/grassfire/collapse.py: vertex_crash_time"]}
{"id": "C21", "title": "No event is ever scheduled in the past", "statement": "Whatever triangle compute_collapse_time is called on with reference time now (and sieve find_gte or find_gt), a returned event has time >= now.", "quantifier": "all triangles of all types (0,1,2,3 wavefront sides, infinite), all vertex motions, all now", "why_tests_cant": "All triangles and all numeric values including all tolerance branches.", "anchors": ["src/grassfire/collapse.py: compute_collapse_time, compute_event_0triangle, compute_event_1triangle, compute_event_2triangle, compute_event_3triangle, compute_event_inftriangle, compute_new_edge_collapse_event"]}
{"id": "C22", "title": "Every event is well formed", "statement": "A returned event names its own triangle, its recorded type is the number of wavefront sides of the triangle, its kind is edge, flip or split, its list of sides is non-empty, duplicate free and contained in {0,1,2}; edge events have one or three sides unless the triangle is the special case checked by the handlers; split events name exactly one side and it is a wavefront side; flip events name exactly one side, and that side is not a wavefront side.", "quantifier": "all triangles, all now", "why_tests_cant": "All numeric cases; the last clause fails only for triangles smaller than the tolerance.", "anchors": ["src/grassfire/collapse.py: compute_event_0triangle, compute_event_1triangle, compute_event_2triangle, compute_event_3triangle, compute_event_inftriangle", "src/grassfire/events/flip.py: handle_flip_event", "src/grassfire/events/split.py: handle_split_event"]}
{"id": "C23", "title": "An interior triangle keeps its orientation until its event", "statement": "If a triangle without wavefront sides is counter-clockwise at time now and its event is scheduled at T, then (outside the tolerance cases of the quadratic solver) the triangle is counter-clockwise at every time in [now, T), and if no event is returned it stays counter-clockwise forever.", "quantifier": "all interior triangles, all now, all t in [now,T)", "why_tests_cant": "Continuum of times; needs the intermediate value theorem / root completeness, not sampling.", "anchors": ["src/grassfire/collapse.py: compute_event_0triangle, area_collapse_times, solve_quadratic, find_gte"]}
{"id": "C24", "title": "Stopped triangles never get events", "statement": "compute_collapse_time on a triangle that has been stopped returns None and leaves the triangle unchanged; and the event loop never handles an event for a triangle that is already stopped.", "quantifier": "all triangles; all executions of the event loop", "why_tests_cant": "All executions.", "anchors": ["src/grassfire/collapse.py: compute_collapse_time", "src/grassfire/events/loop.py: event_loop"]}
{"id": "C25", "title": "Neighbour look-up in time returns the neighbour valid at that time", "statement": "After any sequence of left/right assignments with non-decreasing times, left_at(t) / right_at(t) return the last neighbour assigned at a time <= t, None before the first assignment, and left/right return the most recent assignment.", "quantifier": "all sequences of assignments with non-decreasing times, all t", "why_tests_cant": "Histories of unbounded length.", "anchors": ["src/grassfire/primitives.py: KineticVertex.left, right, left_at, right_at"]}
{"id": "C26", "title": "An edge flip keeps the triangulation consistent", "statement": "If two triangles share an edge consistently, flip replaces the pair by the pair sharing the other diagonal: the four boundary edges keep their outside neighbours (wavefront edges included) and these neighbours point back, the two triangles are neighbours of each other across the new diagonal, orientation order is kept, all other triangles and all other pointers are untouched, and flipping again restores the triangulation with the two triangle objects exchanged; hence a consistent triangulation stays consistent.", "quantifier": "all triangulations, all interior edges", "why_tests_cant": "All triangulations of any size.", "anchors": ["src/grassfire/events/flip.py: flip", "src/grassfire/events/parallel.py: flip"]}
{"id": "C27", "title": "Replacing a vertex in its fan terminates and replaces exactly the fan", "statement": "replace_kvertex terminates on every triangulation (even an inconsistent one), and on success (provided that no triangle has the old vertex twice) the visited triangles are pairwise distinct and form the chain of neighbours around the old vertex that ends at a wavefront edge, each of them has the new vertex in the place of the old one, and no other triangle, no other vertex slot and no neighbour pointer has changed. get_fan returns this chain and terminates on consistent triangulations (not on all inconsistent ones).", "quantifier": "all triangulation states, start triangles and vertices", "why_tests_cant": "Any fan size and arbitrary (possibly corrupt) neighbour relations.", "anchors": ["src/grassfire/events/lib.py: replace_kvertex, get_fan"]}
{"id": "C28", "title": "Linking two wavefront vertices makes them point at each other", "statement": "After update_circ(l, r, now), l.right is r and r.left is l (whichever of the two is not None), look-ups for earlier times are unchanged, and no other vertex is changed.", "quantifier": "all pairs of vertices and histories", "why_tests_cant": "All states.", "anchors": ["src/grassfire/events/lib.py: update_circ", "src/grassfire/primitives.py: KineticVertex.left, right"]}
{"id": "C29", "title": "Stopping vertices makes them end in one common node", "statement": "After stop_kvertices(V, now) with non-empty V of kinetic vertices: every vertex of V has stops_at = now and the same stop node, that node is the returned node; it is new exactly when no vertex of V was already stopped or starts at now (within the tolerance), and then lies at the given position or at the average of the positions at time now (inside every half plane that contains these positions); other vertices are unchanged. For empty V without a position it raises ZeroDivisionError.", "quantifier": "all vertex sets and states", "why_tests_cant": "All sets of vertices.", "anchors": ["src/grassfire/events/lib.py: stop_kvertices"]}
{"id": "C30", "title": "A new kinetic vertex continues at the node along both wavefronts", "statement": "compute_new_kvertex returns a fresh vertex with starts_at = now and start_node the given node, changing nothing else; over the reals it is infinitely fast (velocity (0,0), staying at the node) iff the normals of the wavefronts make an angle of more than 179.999999 degrees or the wavefronts are parallel but do not coincide; for non-parallel wavefronts its position lies on both moving wavefronts at every time t, hence passes through the node if the wavefronts meet there now; for coinciding wavefronts it is at the node's position at time now and moves along their normal with unit speed.", "quantifier": "all pairs of wavefronts, nodes and times (exact real arithmetic)", "why_tests_cant": "All pairs of lines, all times.", "anchors": ["src/grassfire/events/lib.py: compute_new_kvertex, is_infinitely_fast"]}
{"id": "C31", "title": "Events are totally ordered", "statement": "compare_event_by_time is reflexive-zero, antisymmetric, transitive and total; it is 0 only for events with the same time, the same type and the same triangle; an earlier event always comes first and at equal times the triangle with more wavefront sides comes first.", "quantifier": "all triples of events", "why_tests_cant": "All triples.", "anchors": ["src/grassfire/events/loop.py: compare_event_by_time"]}
{"id": "C32", "title": "At most one pending event per triangle", "statement": "At every moment of the event loop, every event pending in the queue or in the immediate list is the current event of its triangle; hence no triangle has two pending events.", "quantifier": "all inputs, all event loop executions, every iteration", "why_tests_cant": "All executions of all lengths.", "anchors": ["src/grassfire/events/loop.py: event_loop, init_event_list", "src/grassfire/events/lib.py: replace_in_queue, schedule_immediately, replace_kvertex"]}
{"id": "C33", "title": "Time never runs backwards", "statement": "The times of the events handled by the event loop form a non-decreasing sequence, and the time returned by event_loop is the time of the last event taken.", "quantifier": "all inputs, all event loop executions", "why_tests_cant": "All executions of all lengths, all numeric branches of the event computation.", "anchors": ["src/grassfire/events/loop.py: event_loop, choose_next_event", "src/grassfire/collapse.py: compute_collapse_time", "src/grassfire/events/lib.py: schedule_immediately, replace_in_queue"]}
{"id": "C34", "title": "Every kinetic vertex has a consistent life span", "statement": "In every skeleton returned after the event loop, every kinetic vertex has a start time and a start node; it has a stop time iff it has a stop node; start time <= stop time; and start and stop nodes are recorded in the skeleton's list of nodes.", "quantifier": "all inputs, all event loop executions", "why_tests_cant": "All executions through all handlers.", "anchors": ["src/grassfire/events/loop.py: event_loop", "src/grassfire/events/edge.py: handle_edge_event, handle_edge_event_3sides, handle_edge_event_1side", "src/grassfire/events/split.py: handle_split_event", "src/grassfire/events/parallel.py: handle_parallel_fan, handle_parallel_edge_event_shorter_leg, handle_parallel_edge_event_even_legs, handle_parallel_edge_event_3tri", "src/grassfire/events/lib.py: stop_kvertices"]}
{"id": "C35", "title": "The event loop is bounded", "statement": "event_loop handles at most 50000 events: every run either returns or raises; a run that would need more raises ValueError.", "quantifier": "all inputs", "why_tests_cant": "Termination on every input.", "anchors": ["src/grassfire/events/loop.py: event_loop"]}
{"id": "C36", "title": "A normal return means that the interior has been swept completely", "statement": "If event_loop returns without exception then the queue is exhausted and every triangle that is finite and has only interior vertices has been stopped.", "quantifier": "all inputs, all executions", "why_tests_cant": "All executions.", "anchors": ["src/grassfire/events/loop.py: event_loop"]}
{"id": "C37", "title": "The skeleton only grows", "statement": "While events are handled no node, vertex or triangle is removed from the skeleton, existing list entries keep their place, a stopped triangle stays stopped, the start data of a vertex and the positions of nodes are never changed.", "quantifier": "all inputs, all executions, every pair of successive states", "why_tests_cant": "All executions.", "anchors": ["src/grassfire/events/*.py", "src/grassfire/primitives.py: Skeleton"]}
{"id": "C38", "title": "Neighbour relations stay symmetric", "statement": "If before an event every pair of active triangles is mutually adjacent (t lists u as often as u lists t) and active triangles only list active ones, then this also holds after the event (for three-sided edge events: provided every neighbour already has a computed event).", "quantifier": "all triangulations and all events", "why_tests_cant": "All triangulation states.", "anchors": ["src/grassfire/events/edge.py", "src/grassfire/events/split.py", "src/grassfire/events/flip.py", "src/grassfire/events/parallel.py"]}
{"id": "C39", "title": "Skeleton segments are exactly the traces of the kinetic vertices", "statement": "Skeleton.segments() returns, in the order of the vertices, exactly one segment per vertex whose start and stop node differ: from its start node to its stop node, or to its position at time 1000 when it never stopped; vertices with identical start and stop node are skipped.", "quantifier": "all skeletons", "why_tests_cant": "All skeletons of any size.", "anchors": ["src/grassfire/primitives.py: Skeleton.segments"]}
{"id": "C40", "title": "All segments are reported in the input coordinate system", "statement": "With a transform installed all end points returned by segments() are mapped back to input coordinates. (Violated: segments of never-stopped vertices are returned in the internal coordinates.)", "quantifier": "all skeletons with a transform", "why_tests_cant": "No test inspects geometry of unbounded segments.", "anchors": ["src/grassfire/primitives.py: Skeleton.segments", "src/grassfire/__init__.py: calc_skel"]}
{"id": "C41", "title": "The star of a vertex is split exactly at the constraints", "statement": "split_star returns non-empty groups whose concatenation is a rotation of the star around the vertex (nothing lost, nothing duplicated, order kept); when there is more than one group, the edge before the first and the edge after the last triangle of each group are constrained and no edge strictly inside a group is; for a geometrically consistent star (the edge ahead of a triangle is the edge behind the next one) no assertion fires.", "quantifier": "all stars of edges around a vertex", "why_tests_cant": "All star sizes and constraint patterns.", "anchors": ["src/grassfire/initialize.py: split_star"]}
{"id": "C42", "title": "internal_only_skeleton is a pure filter", "statement": "internal_only_skeleton keeps exactly the vertices and triangles marked internal, in order, and all nodes; applying it twice is the same as applying it once.", "quantifier": "all skeletons", "why_tests_cant": "All sizes.", "anchors": ["src/grassfire/initialize.py: internal_only_skeleton"]}
{"id": "C43", "title": "Offset curves consist of exactly the vertices alive at that time", "statement": "calc_offsets visits the times i*now/ct for i = 0..ct-1; for each it yields, in order, one line per vertex that has started, has not stopped before or at that time, and whose left neighbour at that time is known, connecting the vertex position with the position of its left neighbour at that same time.", "quantifier": "all skeletons, all now, all ct >= 1", "why_tests_cant": "All skeletons.", "anchors": ["src/grassfire/__init__.py: calc_offsets"]}
{"id": "C44", "title": "Vertex numbers are unique", "statement": "The info numbers of the vertices in the skeleton are pairwise distinct throughout the event loop when the skeleton was made with internal_only=False. (Violated for internal_only=True.)", "quantifier": "all inputs, all executions", "why_tests_cant": "All executions.", "anchors": ["src/grassfire/initialize.py: init_skeleton, internal_only_skeleton", "src/grassfire/events/lib.py: compute_new_kvertex", "src/grassfire/events/*.py"]}
{"id": "C45", "title": "eig_2x2 returns eigenvalues and eigenvectors", "statement": "For a 2x2 matrix with real non-negative eigenvalues (a covariance matrix), eig_2x2 returns exactly the eigenvalues, the first at least the second, together with non-zero vectors v with M v = lambda v in the same order (clear off-diagonal entry, or diagonal matrix). Violated by the code: for a diagonal matrix whose second entry is the larger one the two vectors are in the wrong order, and for a negative eigenvalue the returned absolute value is not an eigenvalue.", "quantifier": "all symmetric real 2x2 matrices", "why_tests_cant": "All matrices.", "anchors": ["src/grassfire/regression.py: eig_2x2"]}
{"id": "C46", "title": "r_squared is a correlation coefficient", "statement": "r_squared returns a value in [-1,1]; for point sets with variation in both coordinates its absolute value is 1 iff all points lie on one line; without variation in one coordinate it returns 0.", "quantifier": "all equally long coordinate lists (exact real arithmetic)", "why_tests_cant": "Cauchy-Schwarz over all lists.", "anchors": ["src/grassfire/calc.py: r_squared"]}
{"id": "C47", "title": "The event loop never leaves its own data structures", "statement": "Started on a skeleton delivered by init_skeleton, init_event_list and event_loop either return or raise a python exception: they never follow a reference to an object that does not exist, never walk around a vertex without end, and never add an event to the queue that compares equal to one already present (which OrderedSequence does not support).", "quantifier": "all initial skeletons, all event loop executions", "why_tests_cant": "All executions of all lengths through all handlers.", "anchors": ["src/grassfire/events/loop.py: event_loop, init_event_list", "src/grassfire/events/lib.py: replace_kvertex, schedule_immediately, replace_in_queue", "src/grassfire/events/parallel.py: handle_parallel_fan"]}
{"id": "C48", "title": "Histories of neighbours are chronological in every reachable state", "statement": "At every moment of the event loop, the left and right histories of every kinetic vertex consist of intervals that follow each other without gap in non-decreasing order, none starts in the future and the last is open; hence left_at/right_at (used by output_offsets) give the neighbour valid at any time.", "quantifier": "all inputs, all event loop executions, every iteration, all query times", "why_tests_cant": "All executions of all lengths.", "anchors": ["src/grassfire/primitives.py: KineticVertex.left, right, left_at, right_at", "src/grassfire/events/lib.py: update_circ", "src/grassfire/events/loop.py: event_loop"]}
{"id": "C49", "title": "The regression helpers cannot be used under python 3", "statement": "regress, are_residuals_near_zero, cov and pcov raise for every input: ValueError or TypeError, because the lazy zip object is asked for its length.", "quantifier": "all lists of points, all lists of numbers, all given means", "why_tests_cant": "A test shows the exception for one input; the claim is that no input avoids it.", "anchors": ["src/grassfire/regression.py: regress, are_residuals_near_zero, cov, pcov, _SP"]}
{"id": "C50", "title": "mean and variance", "statement": "mean of a non-empty list lies between any lower and upper bound of its elements and the deviations from it add up to zero; it raises ValueError for the empty list. variance raises for fewer than two elements, is otherwise non-negative, and is zero iff all elements are equal.", "quantifier": "all lists of numbers (exact arithmetic)", "why_tests_cant": "All lists.", "anchors": ["src/grassfire/regression.py: mean, variance"]}
{"id": "C51", "title": "output_offsets fails when a vertex never stops", "statement": "When some kinetic vertex is present from the start and never stops, output_offsets raises TypeError for every number of offsets (it compares None with a number), although calc_offsets handles the same skeleton. When every vertex stops, it succeeds, and the first file has exactly the lines of calc_offsets, the second one the lines from each vertex on the wavefront to its right neighbour at that time.", "quantifier": "all skeletons with such a vertex, all times, all numbers of offsets", "why_tests_cant": "All skeletons.", "anchors": ["src/grassfire/inout.py: output_offsets", "src/grassfire/__init__.py: calc_offsets"]}
{"id": "C52", "title": "init_skeleton delivers a well-formed start of the event loop", "statement": "For every triangulation: when init_skeleton returns, every stored reference refers to an existing object; all kinetic vertices have started at time 0 at a node of the skeleton and have not stopped, with neighbours assigned at time 0; they are numbered 1, 2, ...; no triangle occurs twice or has an event; the skeleton has one triangle for each triangle of the triangulation apart from the three with two infinite corners, ordered by the start of their first corner (from bottom to top, then from left to right); neighbours of its triangles are triangles of the skeleton and the relation is mutual.", "quantifier": "all triangulations (consistent or not)", "why_tests_cant": "All triangulations of all inputs; the event loop relies on it for every input.", "anchors": ["src/grassfire/initialize.py: init_skeleton", "src/grassfire/initialize.py: rotate_until_not_in_candidates", "src/grassfire/initialize.py: check_ktriangles"]}
{"id": "C53", "title": "Initially the kinetic vertices form rings", "statement": "For a consistent triangulation: when init_skeleton returns, for every kinetic vertex the left neighbour of its right neighbour and the right neighbour of its left neighbour are the vertex itself, and neighbours in the ring have the wavefront between them in common.", "quantifier": "all consistent triangulations", "why_tests_cant": "All triangulations.", "anchors": ["src/grassfire/initialize.py: init_skeleton"]}
{"id": "C54", "title": "init_skeleton terminates and leaves no corner unset", "statement": "For a consistent triangulation init_skeleton comes to an end (the rotation around a vertex in rotate_until_not_in_candidates does not run forever) and either raises a python exception or delivers a skeleton in which all three corners of every triangle refer to a kinetic vertex or the centroid.", "quantifier": "all consistent triangulations", "why_tests_cant": "All triangulations; non-termination is not observable.", "anchors": ["src/grassfire/initialize.py: init_skeleton", "src/grassfire/initialize.py: rotate_until_not_in_candidates"]}
{"id": "C55", "title": "calc_skel returns the outcome of a complete run or raises", "statement": "For every input: when calc_skel returns a skeleton it is the outcome of a complete execution of init_event_list and event_loop on what init_skeleton (and internal_only_skeleton) delivered; otherwise it has raised a python exception: it neither runs forever nor follows a missing reference. With shrink=True the check that all start points are within [-2,2] never fails (provided not all points coincide; then it raises ZeroDivisionError, and AssertionError without points); with shrink=False it raises AssertionError as soon as one vertex starts outside of that square.", "quantifier": "all inputs, all consistent triangulations, both values of shrink and internal_only", "why_tests_cant": "All inputs; non-termination is not observable.", "anchors": ["src/grassfire/__init__.py: calc_skel", "src/grassfire/transform.py: get_transform"]}
{"id": "C56", "title": "The nodes and segments of a computed skeleton", "statement": "The skeleton that calc_skel returns carries the transform from the box of the input to the unit square (none with shrink=False), its first nodes are the vertices of the triangulation, at their places and with their info, and segments() on it never raises: it gives one segment per vertex whose start and stop node differ, from start to stop node in input coordinates.", "quantifier": "all inputs for which calc_skel returns", "why_tests_cant": "All inputs and all executions of the event loop.", "anchors": ["src/grassfire/__init__.py: calc_skel", "src/grassfire/primitives.py: Skeleton.segments"]}
{"id": "C57", "title": "Neighbouring vertices share a wavefront", "statement": "At every moment of every execution from what init_skeleton delivers, whatever vertex is or ever was the left neighbour of a kinetic vertex (at any time in its history) is a kinetic vertex whose right wavefront is the left wavefront of that vertex; and the same with left and right exchanged. So the rings of vertices follow the wavefronts through all edge, split, parallel and flip events.", "quantifier": "all consistent triangulations, all executions of the event loop, all vertices and all entries of their histories", "why_tests_cant": "The invariant ranges over all sequences of events; tests look at final segments only.", "anchors": ["src/grassfire/events/edge.py: handle_edge_event", "src/grassfire/events/split.py: handle_split_event", "src/grassfire/events/parallel.py: handle_parallel_fan", "src/grassfire/events/lib.py: update_circ"]}
{"id": "C58", "title": "All vertices move between lines of input edges", "statement": "In all executions every kinetic vertex is between two lines; these are the lines of its left and right wavefront, and each of them is the line of a constrained edge of the triangulation, with a normal of unit length that points to the left of that edge. No event makes up a line.", "quantifier": "all consistent triangulations, all executions, all vertices", "why_tests_cant": "All sequences of events.", "anchors": ["src/grassfire/initialize.py: init_skeleton", "src/grassfire/events/lib.py: compute_new_kvertex"]}
{"id": "C59", "title": "Vertices stay on their wavefronts", "statement": "In all executions: a kinetic vertex that is not infinitely fast and whose two lines are not parallel (within the tolerance of near_zero) is at every time t at signed distance exactly t from the lines of both input edges, so its trace is on the bisector of the two edges. The same for an input vertex between two collinear edges.", "quantifier": "all consistent triangulations, all executions, all vertices, all times", "why_tests_cant": "Continuous time, all executions.", "anchors": ["src/grassfire/events/lib.py: compute_new_kvertex", "src/grassfire/line2d.py: WaveFrontIntersector.get_bisector", "src/grassfire/initialize.py: init_skeleton"]}
{"id": "C60", "title": "Offset lines are parallel to input edges at the right distance", "statement": "Every line that calc_offsets produces for time t after a complete run (also: of calc_skel) belongs to one input edge: each of its two ends, if its vertex is not infinitely fast and not between parallel wavefronts, is at signed distance exactly t from the line of that edge. So the offset lines are parallel to input edges, at the distance that was asked for.", "quantifier": "all inputs for which calc_skel returns, all offset times, all offset lines", "why_tests_cant": "All inputs and executions; distances are not checked by tests.", "anchors": ["src/grassfire/__init__.py: calc_offsets", "src/grassfire/__init__.py: calc_skel"]}
{"id": "C61", "title": "Contract of an edge event", "statement": "When handle_edge_event handles the collapse of a side and the new vertex is not infinitely fast: both vertices of the side get stops_at = time of the event and the same stop node; exactly one vertex is made, starting at that time and node, with the left line and wavefront of the one and the right line and wavefront of the other, with the left neighbour of the one and the right neighbour of the other as neighbours, which get it as neighbour in turn; at most one node is made; no other attribute of any vertex changes and no earlier neighbour is forgotten.", "quantifier": "all states and events on which the handler returns, with neighbours that exist and no loop of two vertices", "why_tests_cant": "All states; tests do not look at untouched vertices.", "anchors": ["src/grassfire/events/edge.py: handle_edge_event", "src/grassfire/events/lib.py: stop_kvertices, compute_new_kvertex, update_circ"]}
{"id": "C62", "title": "Contract of a split event", "statement": "When handle_split_event handles a vertex v that hits the side v1 v2 and the new vertices are not infinitely fast: only v is stopped; two vertices are made at one node: one between the left wavefront of v and the wavefront of the side with neighbours v.left and v2, one between the wavefront of the side and the right wavefront of v with neighbours v1 and v.right; the four neighbours get them as neighbours in turn; no other attribute of any vertex changes and no earlier neighbour is forgotten.", "quantifier": "all states and events on which the handler returns, with neighbours that exist", "why_tests_cant": "All states; tests do not look at untouched vertices.", "anchors": ["src/grassfire/events/split.py: handle_split_event", "src/grassfire/events/lib.py: stop_kvertices, compute_new_kvertex, update_circ"]}
{"id": "C63", "title": "The wavefront does not jump in an event", "statement": "If the two vertices of a collapsing side are at one point at the time of the event, then the new vertex is at that point at that time, and so is the skeleton node if it is newly made. If the splitting vertex is on the wavefront of the opposite side at the time of the event, then both new vertices are where it is at that time, and so is the node if it is newly made.", "quantifier": "all states and events on which the handlers return; vertices on their wavefronts (C59), crossing unit-speed wavefronts", "why_tests_cant": "All states and real-valued positions.", "anchors": ["src/grassfire/events/edge.py: handle_edge_event", "src/grassfire/events/split.py: handle_split_event", "src/grassfire/events/lib.py: compute_new_kvertex"]}
{"id": "C64", "title": "No wavefront side vanishes unnoticed", "statement": "If, at a time u that the time sieve admits, a wavefront side of a not stopped triangle vanishes (its ends meet), or the apex of a triangle with one wavefront side is on the moving support line of that side, then compute_collapse_time gives the triangle an event, and not later than u. For an infinite triangle with the wavefront side on the hull the event is an edge event of that side at exactly u.", "quantifier": "all triangles with 1, 2 or 3 wavefront sides and hull triangles, all times, both sieves; vertices in uniform motion, relative speeds above the tolerance; for 2 sides the time is not within the 1e-7 clustering tolerance after a past time, for 3 sides not the time 0", "why_tests_cant": "All positions, velocities and times.", "anchors": ["src/grassfire/collapse.py: compute_event_1triangle, compute_event_2triangle, compute_event_3triangle, compute_event_inftriangle, compute_collapse_time"]}
{"id": "C65", "title": "The side that an event names", "statement": "At the time of the event: a flip event of a finite triangle names the longest of its sides that are not wavefronts; an edge event with one side names the shortest side of the triangle, or (one wavefront side, and only that has a collapse time) the wavefront side; three wavefront sides that vanish together are all named, at that time; a flip event of an infinite triangle names the shorter of the two sides at the infinite vertex. For three wavefront sides that do not vanish together the named side need not be the shortest.", "quantifier": "all triangles, times and sieves for which an event is computed", "why_tests_cant": "All positions, velocities and times.", "anchors": ["src/grassfire/collapse.py: compute_event_0triangle, compute_event_1triangle, compute_event_2triangle, compute_event_3triangle, compute_event_inftriangle"]}
{"id": "C66", "title": "Pending events describe the triangles as they are", "statement": "Between two iterations of the event loop, each triangle of the skeleton that has not been stopped has either a pending event that collapse.py computes from its present vertices and neighbours (not from those of an earlier moment), or none, and then nothing is to be expected of it. Hence the event that is handled next fits the triangle it is handled for.", "quantifier": "all executions from a consistent triangulation, after any number of iterations", "why_tests_cant": "The event of a triangle is computed long before it is handled, any number of events of other triangles replace its vertices and neighbours meanwhile; a stale event shows only when it is handled.", "anchors": ["src/grassfire/events/lib.py: replace_kvertex, replace_in_queue, schedule_immediately", "src/grassfire/events/loop.py: event_loop, init_event_list"]}
{"id": "C67", "title": "Handlers get events that fit", "statement": "When a split event is handled, the side that is hit is a wavefront edge at that moment; split and flip events name one side; edge events from the queue name one side or all three; the recorded triangle type is the present number of wavefront edges.", "quantifier": "all executions from a consistent triangulation, every handled event of a triangle that has not been stopped", "why_tests_cant": "Depends on the whole history between the computation of the event and its handling.", "anchors": ["src/grassfire/events/split.py: handle_split_event", "src/grassfire/events/loop.py: event_loop"]}
{"id": "C68", "title": "No vanishing side is passed over", "statement": "Between NOW and the time of the event that is handled next, no wavefront side of a triangle that has not been stopped vanishes, and no apex crosses the support line of the single wavefront side of its triangle.", "quantifier": "all executions from a consistent triangulation, all iterations, all live triangles with one, two or three wavefront sides, all times between NOW + 1e-10 and the next event", "why_tests_cant": "All times in between and all states that executions can lead to.", "anchors": ["src/grassfire/events/loop.py: event_loop", "src/grassfire/collapse.py: compute_collapse_time"]}
{"id": "C69", "title": "Vertices and triangles agree about the wavefront", "statement": "In every state between two iterations of the event loop, the sides without neighbour of the triangles that have not been stopped are exactly the links between the running vertices: each such side runs from a to b with a.right is b and b.left is a (unless both ends have been stopped because a neighbouring triangle vanished as a whole); each running corner has exactly one such side towards v.right and one from v.left; going around a vertex from triangle to triangle comes to an end. Consequently check_active_triangles never fails, and check_wavefront_links and check_kinetic_vertices do not fail when no side has two stopped ends.", "quantifier": "all executions from a consistent start, all iterations, all triangles and vertices", "why_tests_cant": "An invariant over all event orders; the two representations are updated in different places (update_circ and replace_kvertex), and the checks in the code are switched off.", "anchors": ["src/grassfire/events/check.py: check_wavefront_links, check_active_triangles, check_kinetic_vertices", "src/grassfire/events/edge.py: handle_edge_event", "src/grassfire/events/split.py: handle_split_event", "src/grassfire/events/flip.py: handle_flip_event"]}
{"id": "C70", "title": "The skeleton starts as a consistent triangulation", "statement": "When init_skeleton returns for a consistent triangulation, the triangles of the skeleton form a consistent triangulation: their corners are different, neighbours share a side in opposite directions and point to each other, also where the three triangles with two infinite corners were taken out and the three infinite vertices were replaced by one. The sides without neighbour are exactly the constrained ones, their ends point to each other with left and right, and going around a kinetic vertex comes to an end. So every run of calc_skel starts from a state as C66-C69 require.", "quantifier": "all consistent triangulations, all triangles, sides and vertices", "why_tests_cant": "All shapes of hull, all orders of triangles and stars, including hull vertices at which several triangles are taken out.", "anchors": ["src/grassfire/initialize.py: init_skeleton, rotate_until_not_in_candidates"]}
{"id": "C71", "title": "Regions without holes stay regions without holes", "statement": "When the neighbours of the triangles of a region form a forest and connected triangles with a common corner are connected around this corner (a polygon without holes), then so do they after every event, also after splits and flips. In such a region every side that an event collapses satisfies the link condition and every side that is flipped has two different apexes, so the consistency of the triangulation (C38) and the freshness of events (C66-C68) need no assumption about the triangles around the side. init_skeleton delivers such a region for polygons without holes.", "quantifier": "all triangulations, all executions from a region without holes without infinitely fast vertices, all iterations", "why_tests_cant": "A topological invariant of all reachable triangulations; the code never checks it and violating it corrupts the triangulation silently (C38_edge_witness).", "anchors": ["src/grassfire/events/edge.py: handle_edge_event", "src/grassfire/events/flip.py: handle_flip_event", "src/grassfire/events/split.py: handle_split_event", "src/grassfire/initialize.py: init_skeleton", "src/grassfire/__init__.py: calc_skel"]}
{"id": "C72", "title": "Events stay inside the region", "statement": "When no neighbour pointer leads out of a set of triangles, handling an event of a triangle of this set, of whatever kind (edge, flip, split, parallel fans, infinitely fast vertices), leaves all other triangles untouched, schedules no event for another triangle and creates no pointer that leads out of the set. The triangles that internal_only_skeleton keeps are such a set, so calc_skel with internal_only=True handles only events of triangles inside the polygon and returns the triangles outside exactly as init_skeleton made them.", "quantifier": "all states, all closed sets of triangles, all events, all executions; all triangulations for calc_skel", "why_tests_cant": "The handlers follow neighbour pointers and vertex links over unbounded fans and recurse into further events; any of these could reach a triangle outside.", "anchors": ["src/grassfire/__init__.py: calc_skel", "src/grassfire/initialize.py: internal_only_skeleton, init_skeleton", "src/grassfire/events/loop.py: event_loop", "src/grassfire/events/parallel.py: handle_parallel_fan"]}
{"id": "C73", "title": "An infinitely fast vertex collapses the shorter leg of its fan", "statement": "When an infinitely fast vertex has appeared, handle_parallel_fan compares the two outer legs of its fan of triangles. If one leg is shorter (by more than the tolerance of near_zero), exactly the triangle of that leg is stopped; exactly its far end and the infinitely fast vertex are stopped, at the current time and at one node, which when new lies where the far end is; one new vertex starts there, between the wavefront beyond the far end and the wavefront of the infinitely fast vertex on the other side of the fan. A single triangle with equally long legs ends with all three vertices at the point half-way between the ends of the legs. A triangle with three wavefront sides that is handed to handle_parallel_edge_event_3tri ends where the slower one of the two other vertices is.", "quantifier": "all fans, states, times, directions of the fan and positions (exact arithmetic, abstract square root)", "why_tests_cant": "Which leg is collapsed decides where the nodes of the skeleton lie; a test sees one fan, and in symmetric fans both choices give the same picture.", "anchors": ["src/grassfire/events/parallel.py:70-245", "src/grassfire/events/parallel.py:248-364", "src/grassfire/events/parallel.py:404-454", "src/grassfire/events/parallel.py:457-539"]}
{"id": "C74", "title": "The consistency checks accept exactly the consistent states", "statement": "Each function of events/check.py returns if and only if the state has the property the function is named after, and changes nothing: check_wavefront_links - the ends of every side without neighbour of every triangle that has not been stopped point to each other; check_active_triangles - no such triangle has a stopped neighbour; check_kinetic_vertices - no such triangle has a stopped kinetic corner; check_bisectors - the end of no wavefront side moves to the right of the side; check_active_triangles_orientation - the corners of triangles turn left, those of triangles with an infinite corner right (both up to the tolerance of near_zero); at_same_location - all positions agree with the first in x and in y up to the tolerance. Consequently, when event_loop returns, wavefront sides and triangles were oriented like this when it started.", "quantifier": "all states, lists of triangles and times (exact arithmetic)", "why_tests_cant": "The checks are the tests of the project itself: a check that looks at the wrong vertex or side accepts broken states, and no test notices because the states of the tests are not broken.", "anchors": ["src/grassfire/events/check.py:9-89", "src/grassfire/events/loop.py:275-276"]}
{"id": "C75", "title": "The arcs of the skeleton run from node to node", "statement": "Every kinetic vertex that is not infinitely fast is in its start node at its start time, and once it has been stopped it is in its stop node at its stop time, so every arc of the skeleton that segments() returns is the path of the vertex. It is on the wavefronts of both its input edges all the time, so both end nodes are equally far from the two input edges, at the distances given by the start and stop time, and at_same_location confirms it. This holds for what init_skeleton delivers, and at every moment of every execution in which angles between input edges are not nearly but not exactly 0 or 180 degrees, the vertices that an event stops together are at the same place, a vertex that splits a side is on its wavefront, and no infinitely fast vertex appears.", "quantifier": "all triangulations with exact edge lengths, all depths, numbers of iterations and executions with exact events", "why_tests_cant": "The tests assert this for the finished skeletons of some inputs and with a tolerance; whether a node that is averaged, reused or moved by a later event still lies on the path of an earlier vertex depends on the sequence of events.", "anchors": ["src/grassfire/events/lib.py:29-160", "src/grassfire/events/edge.py:55-330", "src/grassfire/events/split.py:64-230", "src/grassfire/test/test_grassfire.py:395-403"]}
{"id": "C76", "title": "Triangles do not turn over before their event", "statement": "When the three corners of a triangle, with any number of wavefront edges, come in line at some time from now on, compute_collapse_time returns an event for it, not later than that time. So a triangle that is counter-clockwise now stays counter-clockwise until its event, and for ever when it has none, and at its event it is at worst degenerate. Excepted are motions that the tolerances misjudge: relative velocities, coefficients and discriminants that are almost but not zero, edges that vanish almost but not quite together.", "quantifier": "all moving triangles and times", "why_tests_cant": "A test looks at given triangles at given moments; which of the different cases of the code (none, one, two or three wavefront edges, equal roots, no roots) misses a collapse needs the whole range of motions.", "anchors": ["src/grassfire/collapse.py:24-960"]}
{"id": "C77", "title": "No triangle is ever turned over", "statement": "While the event loop runs, the triangles of the skeleton that have not been stopped and have no infinite corner are never turned over: at every moment, also between the events, their corners are in counter-clockwise order or in line, and before the next event strictly in counter-clockwise order unless they are always in line. So check_active_triangles_orientation has nothing to complain about. This holds from a counter-clockwise triangulation on, for steady executions: exact arithmetic, vertices that are said to meet do meet, flips happen when the apex is on the side, the link conditions hold, no parallel wavefronts meet, and no motion is one that the tolerances misjudge.", "quantifier": "all triangulations, all numbers of iterations of steady executions, all moments", "why_tests_cant": "Tests look at the triangulation at some moments of some runs; that the queue always holds the earliest collapse of every triangle, after any sequence of events, is a statement about all runs and all moments.", "anchors": ["src/grassfire/events/loop.py:1-558", "src/grassfire/events/edge.py:59-330", "src/grassfire/events/split.py:64-260", "src/grassfire/events/flip.py:1-72", "src/grassfire/events/check.py:1-89"]}
{"id": "C78", "title": "What events announce does happen", "statement": "The event computed for a triangle without infinite corner tells the truth: at its time the ends of every side that is named by an edge event are at the same place, the apex of a split event is on the wavefront edge that is named (hence at that distance of its line), and the apex of a flip event is on the side to be flipped. The event made for the neighbour of a triangle of which a side has vanished names exactly the sides that have vanished. This holds when the motion of the triangle is not one that the tolerances misjudge and the square roots at the time of the event are good enough.", "quantifier": "all triangles with three kinetic, not infinitely fast corners, all numbers of wavefront edges, all times at which the event is computed, both sieves", "why_tests_cant": "The four functions choose among candidate times and sides with tolerances; that no branch announces something that does not happen is a claim about all motions.", "anchors": ["src/grassfire/collapse.py:105-825", "src/grassfire/collapse.py:884-961"]}
{"id": "C79", "title": "Output shows the state, and what pause and output do", "statement": "In every state that the event loop reaches, `visualize` succeeds and draws exactly the live triangles, the vertices that move and the traces of all vertices at the places where they are at that time; `output_skel` writes for every vertex of the skeleton one row, from node to node for those that have stopped. The other columns (neighbours, event times, numbers in the queue, lengths, arrows of length 0.01) show the state as well. `calc_skel` with `output=True` delivers the same skeleton as without, except that it raises a TypeError exactly when some vertex never stops and starts not later than the last time for which offsets are drawn; with `pause=True` it never returns under python 3.", "quantifier": "all executions, all times of drawing, all inputs and triangulations", "why_tests_cant": "Whether drawing can fail, and whether it shows what there is, depends on every state that the event loop can reach.", "anchors": ["src/grassfire/inout.py:12-330", "src/grassfire/__init__.py:27-112", "src/grassfire/events/loop.py:225-262"]}
{"id": "C80", "title": "compute_crossing_bisector", "statement": "For two wavefront lines that cross, the vector runs from the place where they cross at the start to the place where the two wavefronts cross at the given time; for (almost) parallel lines NotImplementedError is raised.", "quantifier": "all pairs of lines with unit normals, all times", "why_tests_cant": "The claim is about all pairs of directions, including almost parallel ones.", "anchors": ["src/grassfire/events/split.py:12-61"]}
{"id": "C81", "title": "Turn and bisector at a corner", "statement": "signed_turn is the angle by which the direction turns at a corner: positive to the left, negative to the right, 0 straight on, π going back. get_bisector makes equal angles, at most right ones, with both legs and lies between them, is zero exactly when the legs are opposite and raises ZeroDivisionError exactly when a leg has length zero.", "quantifier": "all triples of points", "why_tests_cant": "The claim is about all triples, including degenerate ones.", "anchors": ["src/grassfire/events/edge.py:13-52"]}
{"id": "C82", "title": "The second quadratic solver", "statement": "solve_quadratic_whatevery finds exactly the roots of a quadratic equation, the same as solve_quadratic where that one does not use its tolerance, except for A x² = 0 where it raises ZeroDivisionError although 0 is a root.", "quantifier": "all coefficients", "why_tests_cant": "Cancellation-free formulas branch on the sign of B; that both branches deliver the roots is a claim about all coefficients.", "anchors": ["src/grassfire/collapse.py:1009-1038"]}
{"id": "C83", "title": "Helpers of the initialisation", "statement": "make_unit_vector delivers the normal of the support line of the same edge and fails for the same edges. is_quad tells whether three of the four turns of a closed ring of four points go the same way; it accepts a ring that is not convex. find_overlapping_triangle finds the first triangle that reaches across the line of the first edge.", "quantifier": "all triangulations, sides, lists of points and edges", "why_tests_cant": "Two functions compute the same normal in two ways; that they agree is a claim about all edges.", "anchors": ["src/grassfire/initialize.py:11-113"]}
{"id": "C84", "title": "Without blurring by tolerances everything happens exactly", "statement": "If wavefronts that meet are not parallel and no tolerance blurs anything (the corners of a triangle are in line only at its event, sides are not almost zero, events are at the same time or clearly apart), then every event happens exactly as announced: the sides that an edge event names have length zero, the vertex of a split event lies on the wavefront of the side, the two sides of a flip are as the code takes them. Hence no triangle is ever turned over, vertices and triangles tell the same, and on polygons without holes none arises.", "quantifier": "all triangulations, all executions of the event loop that satisfy the stated conditions on the input and the motions", "why_tests_cant": "The earlier theorems on executions ask for what happens at events; that it follows from conditions on the motion alone is a claim about all executions.", "anchors": ["src/grassfire/events/loop.py:22-170", "src/grassfire/events/loop.py:225-515", "src/grassfire/events/edge.py:57-342", "src/grassfire/events/split.py:64-286", "src/grassfire/events/flip.py:11-72", "src/grassfire/collapse.py:117-960"]}
{"id": "C85", "title": "init_skeleton does not raise", "statement": "For every consistent triangulation of points within three infinite vertices in which at least two constrained edges, of positive length, end at every vertex, init_skeleton delivers a skeleton: no assertion fails, no division by zero happens, every list gets linked, the search for the triangles next to the three outer ones succeeds. Conversely it never delivers one when fewer than two constrained edges end at some vertex, or when the ends of a constrained edge coincide. With shrink=True calc_skel then always gets as far as the events.", "quantifier": "all triangulations", "why_tests_cant": "The assertions and searches of init_skeleton depend on the whole triangulation; that none of them fails is a claim about all inputs.", "anchors": ["src/grassfire/initialize.py: init_skeleton", "src/grassfire/initialize.py: make_support_line", "src/grassfire/initialize.py: split_star", "src/grassfire/initialize.py: rotate_until_not_in_candidates", "src/grassfire/initialize.py: check_ktriangles", "src/grassfire/__init__.py: calc_skel"]}
{"id": "C86", "title": "compute_collapse_time raises only in ambiguous situations", "statement": "For a triangle of which no corner is infinitely fast and whose wavefront edges end at vertices that share the line of the edge, compute_collapse_time raises nothing but ValueError, and only when it is ambiguous what happens: all three corners of a triangle without wavefront edge gather within 2e-5 of each other now or later, or at some time a triangle with two wavefront edges has two shortest sides, equally long within 1e-10, and a longer one. The latter does not occur when the tolerances do not misjudge the motion of the triangle.", "quantifier": "all triangles, times and both sieves", "why_tests_cant": "The function has some forty branches with assertions, list.index calls, square roots and explicit raises; that only two of them can fire, and exactly in what geometric situation, is a claim about all motions.", "anchors": ["src/grassfire/collapse.py: compute_collapse_time", "src/grassfire/collapse.py: compute_event_0triangle", "src/grassfire/collapse.py: compute_event_1triangle", "src/grassfire/collapse.py: compute_event_2triangle", "src/grassfire/collapse.py: compute_event_3triangle", "src/grassfire/collapse.py: compute_event_inftriangle", "src/grassfire/collapse.py: vertex_crash_time"]}
{"id": "C87", "title": "In general position the event loop raises no exception of its own accord", "statement": "Start from a mesh that is joined properly, with every vertex between two unit, crossing lines (what init_skeleton makes of a proper triangulation is such a start). Suppose every event taken from the queue is one of general position: a wavefront edge vanishes alone or with the last triangle of its part, a vertex hits a wavefront edge from within, or a side between two triangles is flipped; the lines of each new vertex are not within the tolerances of parallel, and a new vertex keeps some distance to its neighbours. Then every iteration of event_loop completes, unless it is ambiguous what happens to one of the triangles the event changes, which raises ValueError: no assertion fails, no attribute of None is used, nothing is divided by zero. No vertex ever becomes infinitely fast, neighbours stay mutual and wavefront edges stay shared. When no event is ambiguous, event_loop ends in one of three ways: normally with an empty queue, with ValueError from the guard of 50000 iterations, or with ValueError from the final check because a triangle was left over.", "quantifier": "all initial states, all numbers of iterations, all sequences of events", "why_tests_cant": "The handlers contain dozens of assertions, fan walks over links and list.index calls; that none of them can fail in general position depends on invariants of the whole mesh over runs of any length.", "anchors": ["src/grassfire/events/loop.py: event_loop", "src/grassfire/events/loop.py: init_event_list", "src/grassfire/events/edge.py: handle_edge_event", "src/grassfire/events/edge.py: handle_edge_event_3sides", "src/grassfire/events/split.py: handle_split_event", "src/grassfire/events/flip.py: handle_flip_event", "src/grassfire/events/lib.py: update_circ", "src/grassfire/events/lib.py: replace_kvertex", "src/grassfire/events/lib.py: replace_in_queue", "src/grassfire/events/lib.py: schedule_immediately", "src/grassfire/events/lib.py: compute_new_kvertex"]}
{"id": "C88", "title": "In general position every inner node of the skeleton joins exactly three arcs", "statement": "In an execution in general position (as in C87) in which every event happens on its own (a triangle with three wavefront edges vanishes as a whole, and the corners of a triangle that vanishes did not start within 1e-10 of that moment), every event that is not a flip removes one triangle and makes one node, at which exactly three arcs meet, at least one of them ending there; flips and events of stopped triangles leave the skeleton alone. So every node made by the event loop has degree three, no arc ends at an input node, every arc ends at a node made later than the one where it begins, the number of nodes plus the number of remaining triangles is constant, and the number of arcs is determined. When all triangles have vanished, every arc joins two different nodes of the skeleton, segments() delivers one segment for each, and with T triangles and A wavefront vertices at the start there are T inner nodes and (A + 3T)/2 arcs (2n - 3 arcs and n - 2 inner nodes for a simple polygon).", "quantifier": "all initial states, all numbers of iterations, all sequences of events", "why_tests_cant": "The count of arcs and nodes of the result is the outcome of a run of any length through all handlers; tests count the segments of a few polygons.", "anchors": ["src/grassfire/events/loop.py: event_loop", "src/grassfire/events/edge.py: handle_edge_event", "src/grassfire/events/edge.py: handle_edge_event_3sides", "src/grassfire/events/split.py: handle_split_event", "src/grassfire/events/flip.py: handle_flip_event", "src/grassfire/events/lib.py: stop_kvertices", "src/grassfire/events/lib.py: compute_new_kvertex", "src/grassfire/primitives.py: Skeleton.segments", "src/grassfire/initialize.py: init_skeleton"]}
{"id": "C89", "title": "The skeleton is connected like the triangulation, and is a tree for a polygon without holes", "statement": "In an execution in general position in which every event happens on its own (as in C88), nodes of the input hang together through arcs and remaining triangles after any number of events if and only if they did at the start. When all triangles have vanished, two input nodes are connected by arcs of the skeleton if and only if they hung together in the triangulation, and every node is connected with an input node. If the triangulation is in one piece the skeleton is a connected graph; if moreover all arcs begin at different nodes, the number of independent cycles equals the number of holes (h in: triangles = corners - 2 + 2h); without holes the skeleton is a tree, and no two arcs join the same nodes.", "quantifier": "all initial states, all numbers of iterations, all sequences of events", "why_tests_cant": "Connectedness and absence of cycles of the output are global graph properties over runs of any length; examples test them for single polygons only.", "anchors": ["src/grassfire/events/loop.py: event_loop", "src/grassfire/events/edge.py: handle_edge_event", "src/grassfire/events/edge.py: handle_edge_event_3sides", "src/grassfire/events/split.py: handle_split_event", "src/grassfire/events/flip.py: handle_flip_event", "src/grassfire/events/lib.py: replace_kvertex", "src/grassfire/primitives.py: Skeleton"]}
{"id": "C90", "title": "In general position pending events are current, the wavefront is linked, and the run is exact", "statement": "Executions whose events are as in general position (C87) need no further condition for what C66-C69 and C84 say: whatever happens around a side that vanishes is as the handlers expect, also for polygons with holes. After each iteration, the pending event of each triangle that has not been stopped is the one that compute_collapse_time finds for the triangle as it is now, and when none is pending then compute_collapse_time has found nothing for the triangle as it is now; the wavefront as the vertices tell it is the one as the triangles tell it; the checks of events/check.py pass. When moreover no tolerance blurs anything, no triangle is turned over, every arc runs from node to node along the wavefronts of its two input edges, all corners of remaining triangles are running, and what an event announces does happen.", "quantifier": "all triangulations, all runs of init_skeleton and the event loop with internal_only, all numbers of iterations", "why_tests_cant": "The claim is about every iteration of runs of any length and about the internal state between iterations; tests see the result of a few polygons.", "anchors": ["src/grassfire/events/loop.py: event_loop", "src/grassfire/events/lib.py: replace_in_queue, update_circ", "src/grassfire/events/edge.py: handle_edge_event", "src/grassfire/events/split.py: handle_split_event", "src/grassfire/events/check.py: check_active_triangles, check_wavefront_links, check_kinetic_vertices", "src/grassfire/collapse.py: compute_collapse_time"]}
{"id": "C91", "title": "In general position the wavefront moves inwards and the loop ends only when nothing is left", "statement": "For runs in general position (C90) with internal_only: the wavefront edges never turn round, neither at the events nor between them: the two ends of every wavefront edge are in the order of the input edge from which it comes, so that the remaining triangles are on the side to which the wavefront moves, and the third corner of a triangle at a wavefront edge has not been passed by it. The time of an event is bounded: whatever point one takes, the loop does not move on to a time by which the wavefronts of all the input edges (as lines) have passed the point. When no event is left, all the triangles inside the polygon have been stopped: the loop does not end with a part of the polygon left over.", "quantifier": "all triangulations, all runs of init_skeleton and the event loop with internal_only, all numbers of iterations, all points of time between events, all points of the plane", "why_tests_cant": "Whether an event is missed for some polygon cannot be seen from the polygons that are tested; the claim follows from the sum of the areas of all remaining triangles, at all times.", "anchors": ["src/grassfire/events/loop.py: event_loop, choose_next_event", "src/grassfire/events/edge.py: handle_edge_event", "src/grassfire/events/split.py: handle_split_event", "src/grassfire/events/flip.py: handle_flip_event", "src/grassfire/initialize.py: init_skeleton", "src/grassfire/collapse.py: compute_collapse_time"]}
{"id": "C92", "title": "In general position the event loop ends and calc_skel delivers a complete skeleton", "statement": "For inputs in general position with internal_only: the event loop does not go on for ever. With t triangles inside the polygon and v vertices at the start there are at most 2t + 2t*C((v+3t)/2, 3) iterations, flips included. When this number is below the guard of 50000 iterations, event_loop returns with all triangles stopped: the checks of the bisectors and of the orientation at the start, the guard, and the check for triangles left over at the end do not fail. So calc_skel with shrink delivers a skeleton in which every arc runs from a node to a later node, with one node per triangle added to those of the input and (v+3t)/2 arcs, each of which is a segment. The only other result is a ValueError, and then the code could not decide what happens to a triangle at the start or at an event reached (two sides of equal length at the collapse, Ambiguous in C87).", "quantifier": "all triangulations, all inputs in general position, all numbers of iterations", "why_tests_cant": "Termination is a claim about all inputs: flip events do not remove a triangle, and whether the same triangle can be flipped for ever cannot be seen from finitely many runs.", "anchors": ["src/grassfire/__init__.py: calc_skel", "src/grassfire/events/loop.py: event_loop, init_event_list", "src/grassfire/events/flip.py: handle_flip_event", "src/grassfire/events/edge.py: handle_edge_event", "src/grassfire/events/split.py: handle_split_event", "src/grassfire/events/check.py"]}
{"id": "C93", "title": "The skeleton of a simple polygon is a tree with 2n-3 arcs", "statement": "For a triangulation with internal_only: init_skeleton makes exactly one kinetic vertex per constrained side of the triangles inside, and n + (sides with a neighbour) = 3 (triangles). If the triangles inside are in one piece and form a forest (no holes), a polygon with n corners has n-2 triangles. In general position, when all the triangles have vanished and the boundary does not meet itself, the skeleton has as many independent cycles as the triangles with their common sides (so as many as there are holes); for a simple polygon it is a tree with 2n-3 arcs and 2n-2 nodes in which no two arcs join the same nodes. So calc_skel with shrink on a simple polygon in general position with at most 13 corners delivers a tree with 2n-3 segments, or raises a ValueError because it cannot decide what happens to a triangle.", "quantifier": "all triangulations, all polygons, all inputs in general position", "why_tests_cant": "That the result is a tree with the right number of arcs for every simple polygon is a counting argument over all triangulations and event sequences.", "anchors": ["src/grassfire/__init__.py: calc_skel", "src/grassfire/initialize.py: init_skeleton, internal_only_skeleton", "src/grassfire/events/loop.py: event_loop"]}
{"id": "C94", "title": "The past of the wavefront is never rewritten, and the offset curves are closed", "statement": "In every execution, what is done when an event is handled is done at the time of the event: vertices that are made start then, and of the other vertices neither the start nor what left_at and right_at tell about earlier times changes, and a stop time that is set is the time of the event. In general position the wavefront at any time that the loop has gone past is told right by the vertices afterwards: left_at and right_at lead from vertices on the wavefront (started, not stopped) to vertices on the wavefront and are inverse to each other, so it consists of closed rings; every side of these is not empty, parallel to the edge of the input it belongs to, in the same direction, at the distance of the offset; at time 0 the sides are exactly the constrained sides of the triangles inside; after the end nothing is left. So calc_offsets yields, at each of its times, exactly one line that begins and one that ends at every vertex on the wavefront, at the same point, and no others. The two files of output_offsets show the same lines in opposite directions.", "quantifier": "all executions; all runs in general position, all times, all numbers of offsets", "why_tests_cant": "It quantifies over all event sequences and all real times between the events; unit tests look at the offsets of a few polygons at a few times.", "anchors": ["src/grassfire/__init__.py: calc_offsets", "src/grassfire/primitives.py: left_at, right_at", "src/grassfire/events/lib.py: stop_kvertices, compute_new_kvertex, update_circ", "src/grassfire/events/loop.py: event_loop"]}
{"id": "C95", "title": "The offsets shrink: the area inside the wavefront falls from that of the input to nothing by what the wavefront sweeps over", "statement": "In general position, take the area inside the offset curve of distance x, summed with the shoelace formula over the sides from left_at(x) to the vertex, over all vertices that are on the wavefront at x. At x = 0 it is the area of the triangles inside the input; it is positive as long as there is a wavefront and zero afterwards; it gets strictly less from every x to every greater x', over any number of events (no event creates or loses area: what vanishes has zero area, a flip exchanges the diagonal of a quadrilateral, and new vertices start where the old ones are); between two events the loss is exactly the area of the trapezoids that the sides sweep over at unit speed, (x' - x) times the mean of the lengths of each side at x and x'. The lines that calc_offsets yields are exactly these sides.", "quantifier": "all runs in general position, all times that the loop has gone past, all pairs of times", "why_tests_cant": "Conservation of area over all event sequences and monotonicity between all pairs of real times; tests compare a few offsets of a few polygons.", "anchors": ["src/grassfire/__init__.py: calc_offsets", "src/grassfire/events/edge.py: handle_edge_event, handle_edge_event_3sides, handle_edge_event_1side", "src/grassfire/events/split.py: handle_split_event", "src/grassfire/events/flip.py: handle_flip_event, flip", "src/grassfire/events/lib.py: compute_new_kvertex, replace_kvertex"]}
{"id": "C96", "title": "An offset keeps its distance: a point inside the offset curve of distance x has a disc of radius x around it inside the input", "statement": "In general position: the winding number of the wavefront at time 0 around any point is that of the boundary of the input. For all 0 <= x <= x' that the loop has gone past and all points o, o' at a distance of at most x' - x, the winding number of the wavefront at x' around o' is at most that of the wavefront at x around o: whatever is inside at x' has been inside, with everything within distance x' - x, at x. So the disc of radius x around a point inside the offset at distance x is inside the input. Winding numbers are never negative, and when the input winds at most once around every point, so does each offset.", "quantifier": "all runs in general position, all pairs of times that the loop has gone past, all points of the plane", "why_tests_cant": "A statement about all points and all pairs of times over all event sequences; tests can compare some offsets of some polygons at sample points.", "anchors": ["src/grassfire/__init__.py: calc_offsets", "src/grassfire/events/edge.py: handle_edge_event, handle_edge_event_3sides, handle_edge_event_1side", "src/grassfire/events/split.py: handle_split_event", "src/grassfire/events/flip.py: handle_flip_event, flip", "src/grassfire/events/lib.py: compute_new_kvertex, replace_kvertex", "src/grassfire/vectorops.py, line2d.py, initialize.py: speed of the wavefront lines"]}
{"id": "C97", "title": "The wavefront does not cross itself", "statement": "In general position, when the boundary of the input winds around no point more than once: at no time that the loop has gone past do two different sides of the wavefront (from left_at to the vertex) have a point between their ends in common, other than two sides that run along each other in opposite directions (as they may at time 0). Between the times of events, a point between the ends of a side is not on any other side at all, ends included.", "quantifier": "all runs in general position, all times that the loop has gone past, all pairs of sides", "why_tests_cant": "Crossings of any two sides at any real time over all event sequences; the code itself never looks for crossings of sides that are not in one triangle.", "anchors": ["src/grassfire/__init__.py: calc_offsets", "src/grassfire/events/edge.py: handle_edge_event, handle_edge_event_3sides, handle_edge_event_1side", "src/grassfire/events/split.py: handle_split_event", "src/grassfire/events/flip.py: handle_flip_event, flip", "src/grassfire/events/lib.py: compute_new_kvertex, replace_kvertex", "src/grassfire/vectorops.py, line2d.py, initialize.py: speed of the wavefront lines"]}
{"id": "C98", "title": "The skeleton is a plane graph and the offsets between events are simple polygons", "statement": "In general position, when the boundary of the input winds around no point more than once: no place is passed by two vertices at different times, so that two arcs of the skeleton can only meet where both vertices are at the same time; that time is 0 or the time of an event. At all other times different vertices of the wavefront are at different places and two sides of the wavefront have at most a common vertex as common point: the wavefront consists of simple polygons that do not touch each other. The sides of the wavefront at time x keep a distance of at least x' - x from all points inside the wavefront at any later time x'.", "quantifier": "all runs in general position, all pairs of times that the loop has gone past, all pairs of vertices and sides", "why_tests_cant": "Any two arcs and any two sides at all real times over all event sequences; the code never compares arcs or sides that are not in one triangle, tests can only draw some skeletons.", "anchors": ["src/grassfire/__init__.py: calc_skel, calc_offsets", "src/grassfire/events/edge.py: handle_edge_event, handle_edge_event_3sides, handle_edge_event_1side", "src/grassfire/events/split.py: handle_split_event", "src/grassfire/events/flip.py: handle_flip_event, flip", "src/grassfire/events/lib.py: compute_new_kvertex, replace_kvertex", "src/grassfire/vectorops.py, line2d.py, initialize.py: speed of the wavefront lines"]}
{"id": "C99", "title": "The skeleton is a roof: the wavefront passes every point inside the input once, at its distance to the line of an edge", "statement": "In general position, when the boundary of the input winds around no point more than once: for every point inside the input that is not inside the wavefront any more at time x' there is exactly one time T up to x' such that the point is inside the wavefront at all times before T and not inside at all times after T. T is the distance of the point to the line of an edge of the input, measured to the inside; unless T is the time of an event, the point is at T on a side of the wavefront that is parallel to this edge at distance T and runs in its direction. When the event loop has ended, there is such a time for every point inside the input. The times of two points differ by at most their distance.", "quantifier": "all runs in general position, all points of the plane, all times that the loop has gone past", "why_tests_cant": "A statement about all points inside any input; tests can look at the height of the nodes of some skeletons.", "anchors": ["src/grassfire/__init__.py: calc_skel, calc_offsets", "src/grassfire/events/edge.py: handle_edge_event, handle_edge_event_3sides, handle_edge_event_1side", "src/grassfire/events/split.py: handle_split_event", "src/grassfire/events/flip.py: handle_flip_event, flip", "src/grassfire/events/lib.py: compute_new_kvertex, replace_kvertex", "src/grassfire/vectorops.py, line2d.py, initialize.py: speed of the wavefront lines"]}
{"id": "C100", "title": "Arcs of the skeleton meet nowhere but at their ends", "statement": "In general position, when the boundary of the input winds around no point more than once: no inner point of the arc of a vertex (a place where the vertex is after its start and before its stop) is on the arc of another vertex, the ends of that arc included; this also holds at the times of events. Where two arcs meet, the vertices are there at the same time and the place is an end of both arcs. The places of two vertices at times x and x' have a distance of at least |x - x'|.", "quantifier": "all runs in general position, all pairs of vertices of the skeleton, all times of the one and of the other", "why_tests_cant": "A statement about all points of all pairs of arcs of the skeleton of any input; the meeting points of interest are at the times of events, where parts of the wavefront far from the event might touch an arc.", "anchors": ["src/grassfire/__init__.py: calc_skel", "src/grassfire/primitives.py: Skeleton.segments", "src/grassfire/events/edge.py: handle_edge_event, handle_edge_event_3sides, handle_edge_event_1side", "src/grassfire/events/split.py: handle_split_event", "src/grassfire/events/flip.py: handle_flip_event, flip", "src/grassfire/events/lib.py: compute_new_kvertex, stop_kvertices"]}
{"id": "C101", "title": "The segments of the skeleton are a drawing without crossings inside the input", "statement": "In general position, when the boundary of the input winds around no point more than once: when the event loop has ended, Skeleton.segments returns one line segment for every kinetic vertex, mapped back to the coordinates of the input; none of them is a single point; two of them have no common point but end points of both; every point of a segment, other than the one where it begins, is strictly inside the input and on none of its edges. The place of a vertex at time x, ends of its arc included, has a distance of at least x from all the edges of the input, and the open disc of radius x around it is inside the input. So what calc_skel with shrink delivers for such an input, if it delivers anything, is such a drawing.", "quantifier": "all inputs in general position that do not overlap themselves, all pairs of segments, all points of segments, all edges of the input", "why_tests_cant": "A statement about all points of all pairs of segments of the result, for any input; a test would check single results.", "anchors": ["src/grassfire/__init__.py: calc_skel", "src/grassfire/primitives.py: Skeleton.segments", "src/grassfire/transform.py: Transform.backward, get_transform", "src/grassfire/events/edge.py: handle_edge_event, handle_edge_event_3sides, handle_edge_event_1side", "src/grassfire/events/split.py: handle_split_event", "src/grassfire/events/lib.py: compute_new_kvertex, stop_kvertices"]}
{"id": "C102", "title": "Enlarging and shifting the input enlarges and shifts the skeleton", "statement": "With shrink, calc_skel does not depend on the scale and the place of the input: for points that are enlarged a > 0 times and shifted by b, the triangulation gets the same points, the same exception is raised if one is raised, and otherwise the same events happen at the same times and give the same nodes, vertices and triangles; only the transform differs, and it leads to the enlarged and shifted places. Skeleton.segments then returns the enlarged and shifted segments when all vertices have stopped, so for every input in general position.", "quantifier": "all lists of points, all factors a > 0, all shifts b, all triangulation functions, with and without the exterior", "why_tests_cant": "A relation between the results for infinitely many pairs of inputs, in exact arithmetic, through every function of the event loop; a test compares single pairs, and with floats only approximately.", "anchors": ["src/grassfire/__init__.py: calc_skel", "src/grassfire/transform.py: get_box, get_transform, Transform.forward, Transform.backward", "src/grassfire/primitives.py: Skeleton.segments", "src/grassfire/events/loop.py: event_loop"]}
{"id": "C103", "title": "Of python's ids of the triangles only their order influences the skeleton", "statement": "Events at the same time with triangles of the same type are ordered by id(triangle), the address of the triangle in memory. If two runs of calc_skel on the same input number the triangles differently but in the same order, they raise the same exception or return the same skeleton, with the last event at the same time, and Skeleton.segments returns the same list. If the order differs the list can differ: the ridge of a rectangle of 4 by 2 is returned in one direction or the other, so the result of a program is not determined by its input.", "quantifier": "all inputs, all triangulation functions, all pairs of numberings of the triangles with the same order, with and without shrink and exterior", "why_tests_cant": "The addresses are chosen by the python interpreter; a test sees one choice per run, and cannot compare all of them.", "anchors": ["src/grassfire/events/loop.py: compare_event_by_time", "src/grassfire/events/loop.py: event_loop, init_event_list", "src/grassfire/__init__.py: calc_skel"]}
{"id": "C104", "title": "Without ties the result does not depend on where the triangles are in memory", "statement": "If in every iteration of the event loop that takes an event from the queue only one event comes first by its time and the type of its triangle, then python's ids of the triangles have no influence at all: for every two numberings of the triangles the same exception is raised, or the last event is at the same time and the skeletons are equal but for the ids.", "quantifier": "all inputs without ties between events, all triangulation functions, all pairs of numberings of the triangles, with and without shrink and exterior", "why_tests_cant": "The addresses are chosen by the python interpreter and cannot be controlled by a test; the statement is about all of them, through every function of the event loop.", "anchors": ["src/grassfire/events/loop.py: compare_event_by_time, choose_next_event, event_loop, init_event_list", "src/grassfire/events/lib.py: replace_kvertex, schedule_immediately", "src/grassfire/__init__.py: calc_skel"]}
{"id": "C105", "title": "The recursion limit decides only whether RecursionError is raised", "statement": "handle_parallel_fan calls itself, so how far calc_skel gets depends on the recursion limit of python and on how deep the caller already is. For every two limits the result is the same - the same exception, or the same time and skeleton - unless RecursionError is raised: no handler, assertion or fallback of the code lets a run with less room end in another way.", "quantifier": "all inputs, all triangulation functions, all pairs of recursion limits, with and without shrink and exterior", "why_tests_cant": "A test runs at one depth of the stack; that an exhausted stack is never swallowed and never changes a skeleton is about all limits and all points in the run at which the stack is exhausted.", "anchors": ["src/grassfire/events/parallel.py: handle_parallel_fan", "src/grassfire/events/edge.py: handle_edge_event", "src/grassfire/events/split.py: handle_split_event", "src/grassfire/events/loop.py: event_loop", "src/grassfire/__init__.py: calc_skel"]}
{"id": "C106", "title": "The skeleton of a convex polygon is its medial axis", "statement": "For a convex polygon in general position: the wavefront passes each point inside at the time that is the distance of the point to the line of the nearest edge; at time x the points more than x away from all edges are inside the wavefront, and no point less than x away from an edge is; there is wavefront as long as there is room; every point of every segment of the skeleton (but the one where it begins) has the distance to the lines of the two edges of its vertex in common, and no edge is nearer; conversely a point inside that has two nearest edges which are not parallel is the place of a vertex of the wavefront at that time, unless an event is handled at that time. So the heights depend only on the polygon, not on its triangulation, and with two triangulations the wavefronts have vertices at the same places; and the last vertex is stopped at the centre of a largest circle that fits into the polygon, at the time that is its radius.", "quantifier": "all convex polygons in general position, all their triangulations, all numbers of iterations, all times, all points inside", "why_tests_cant": "A test compares a few polygons with a medial axis computed by another program; the property is about every convex polygon, every triangulation and every point.", "anchors": ["src/grassfire/__init__.py: calc_skel", "src/grassfire/events/loop.py: event_loop", "src/grassfire/initialize.py: init_skeleton", "src/grassfire/primitives.py: Skeleton.segments"]}
{"id": "C107", "title": "A polygon turned by a quarter turn gets its skeleton turned by a quarter turn", "statement": "When calc_skel succeeds on points, it succeeds on the points turned by a quarter turn around the origin (provided the turned points are triangulated as the points are). The last event has the same time; each node and each vertex is the turned one and keeps its number; the segments are the turned segments, in the same order, with the same numbers at their ends. No branch of the code - the special cases for horizontal and vertical lines, the box, the shrinking, the comparison of coordinates and the sort by (y, x) - prefers one of the axes. From one and the same state also the exceptions are the same.", "quantifier": "all inputs, all triangulations, all flags, all executions", "why_tests_cant": "A test turns a few polygons; the claim is about every polygon and every branch, in particular the special cases for lines parallel to an axis, which swap roles under the turn.", "anchors": ["src/grassfire/__init__.py: calc_skel", "src/grassfire/line2d.py: coefficients_from_points", "src/grassfire/transform.py: get_box, get_transform", "src/grassfire/initialize.py: init_skeleton", "src/grassfire/events/*", "src/grassfire/primitives.py: Skeleton.segments"]}
{"id": "C108", "title": "The order in which the skeleton lists its triangles has no influence", "statement": "When the events run to an end from a start without events, they do so with the list of triangles in every other order, end at the same time and leave the same vertices, nodes and segments, with the same numbers; only the identities of the event objects differ. In particular the sort of the triangles by (y, x) of their first corner in init_skeleton has no influence on the result of calc_skel.", "quantifier": "all starts without events, all permutations of the triangles, all executions", "why_tests_cant": "There are n! orders, and the order decides the order in which the queue is filled; a test tries a few.", "anchors": ["src/grassfire/initialize.py:692", "src/grassfire/events/loop.py: init_event_list, event_loop", "src/grassfire/__init__.py: calc_skel"]}
{"id": "C109", "title": "The labels of the points are passed on and have no other influence", "statement": "The infos of the input points are labels of the user. With other labels calc_skel raises the same exception, or ends at the same time with the same skeleton; only the labels of the nodes differ, and they are the new ones. Skeleton.segments returns the same segments in the same order, each end with the new label; nodes inside have none. So the skeletons for any two labellings of the same points follow from the one in which every point is labelled with its own number.", "quantifier": "all inputs, all labellings, all flags, all executions", "why_tests_cant": "A label could be used as a key, compared or tested for truth (a label 0 is false in python) in any branch; a test tries some labels on some paths.", "anchors": ["src/grassfire/initialize.py: init_skeleton", "src/grassfire/__init__.py: calc_skel", "src/grassfire/primitives.py: SkeletonNode, Skeleton.segments", "src/grassfire/events/lib.py: stop_kvertices, compute_new_kvertex"]}

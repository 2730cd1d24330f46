# Formal model of grassfire — design

The code under study is `/repo/src/grassfire` (python, straight skeletons by a
kinetic triangulation).  The properties are listed in `properties.jsonl`
(C01...).  The model and the proofs are in `lean/Verif`.

## Trusted base

* Lean 4.33.0's kernel and Mathlib.  No axioms of our own; every property
  theorem depends on at most `propext`, `Classical.choice`, `Quot.sound`
  (checked with `#print axioms`).
* The hand translation python -> Lean.  Every model definition cites
  the file and lines it is translated from.
* **Numbers.**  Python floats are modelled by an arbitrary linearly ordered
  field `K` (`[Field K] [LinearOrder K] [IsStrictOrderedRing K]`), i.e. exact
  arithmetic.  `math.sqrt` is a class parameter `HasSqrt K` whose only assumed
  laws are `0 <= sqrt x` and `sqrt x * sqrt x = x` for `x >= 0` (class
  `SqrtLaws`; for moving wavefronts only `SqrtUnit`: the root of 1 is 1); the real numbers are an instance.  Rounding, overflow, inf and
  NaN are *not* modelled.  Results that only use comparisons (find_gte,
  get_box, event order, queue discipline, histories) need no field laws and
  therefore also hold for (non-NaN) floats.
* **Exceptions** are values: a python function that may raise is a function
  into `Except Err _`.  Division by zero, failed `assert`, `ValueError`,
  attribute access on `None` / on an `InfiniteVertex`, `list.index` misses are
  all modelled as errors.  When a python function raises in the middle of its
  work the partially updated state is not modelled (calc_skel delivers no
  skeleton then).
* **Objects with identity** (vertices, triangles, nodes, events, wavefronts)
  are numbers that index a heap; `is` is equality of numbers.
* **External packages** that are not part of the repository:
  * `tri` (Delaunay triangulation): `cw(i) = (i+2)%3`, `ccw(i) = (i+1)%3`,
    `orig(s) = (s+1)%3`, `dest(s) = (s+2)%3`, `apex(s) = s`,
    `Edge(t,s).segment = (t.vertices[ccw s], t.vertices[cw s])`.  The
    triangulation handed to `init_skeleton` is an input of the model.
  * `geompreds.orient2d`: the sign-exact 2x2 determinant.
  * `oseq.OrderedSequence`: a sequence sorted by the given comparison
    (`Verif/Queue.lean`, a sorted list). Adding an element that compares equal
    to one already present is outside of the contract: the model then ends with
    the fault `outside`.
* **Simplifications.** `update_circ` and `stop_kvertices` on an
  `InfiniteVertex` raise AttributeError in the model (python would create the
  attribute). `queue.discard(None)` raises AttributeError only when the queue
  is not empty. `handle_parallel_fan` is mutually recursive with the handlers it
  calls; the model takes the recursion limit as a parameter and raises RecursionError
  beyond it, as python does (every theorem is for all limits). The walks around a vertex
  (`replace_kvertex`) are `while` loops in python; the model gives them an amount of fuel and
  ends with the fault `nonTermination` when it is used up; C27 and C47 prove that this
  never happens.
* **Where executions start.** The executions that C32-C36, C44, C47 and C48 speak about start in any
  state that satisfies `Spec.Initial` (`Verif/Spec/Invariants.lean`): valid references, start time 0,
  no events, ... C52 proves that `init_skeleton` delivers such a state whenever it returns, and C42
  that this remains so with `internal_only=True`. The numbering 1..n (`Spec.Numbered`, needed for C44) is
  delivered by `init_skeleton`, but not with `internal_only=True`.
* **The triangulation** is an arbitrary value of `Dt K` (`Verif/Initialize.lean`): positions, corners,
  neighbours, constrained sides, the stars delivered by `StarEdgeIterator` and the triangles at
  depth 1 according to `RegionatedTriangleIterator`. Where a theorem needs the triangulation
  to be consistent it says so (`Spec.DtOk`, `Spec.StarOk`).
* Of drawing and file output the rows are modelled (`Verif/Inout.lean`), not their text and not the file
  system; `pause=True` is modelled up to the call of `raw_input`, which python 3 does not have. Logging is not
  modelled.
* **A test of the translation** (no proof, and no theorem depends on it): the model is executable, and `tools/crosscheck`
  runs `calcSkel` with rational numbers on constrained Delaunay triangulations of many polygons: 28 drawn shapes (with
  three choices of the diagonals where four points are on a circle), 300 random rectilinear polygons, some with holes, and
  400 random polygons with edges of rational length, inside only and with the outside. No run ended with an exception, and
  for the 150 rectilinear ones that were done inside only, every segment is on the medial axis in the maximum norm and the
  segments form a connected figure with as many cycles as holes. These polygons are full of ties and of parallel
  wavefronts, so they exercise what the theorems about general position leave out.

## Layout

| module | models |
|---|---|
| `Verif/Py.lean` | exceptions, checked division, sqrt |
| `Verif/Calc.lean` | `calc.py` |
| `Verif/VectorOps.lean` | `vectorops.py` |
| `Verif/Line2d.lean` | `line2d.py` |
| `Verif/Transform.lean` | `transform.py` |
| `Verif/Primitives.lean` | `primitives.py` |
| `Verif/Collapse.lean` | `collapse.py` |
| `Verif/Queue.lean`, `Verif/Events/*.lean` | `events/*.py` (the heap is in `Verif/Primitives.lean`) |
| `Verif/Initialize.lean` | `initialize.py` |
| `Verif/CalcSkel.lean` | `__init__.py` |
| `Verif/Inout.lean` | `inout.py` (all but `output_offsets`, which is in `Verif/Offsets.lean`), `calc_skel` with `pause` and `output` |
| `Verif/Helpers.lean` | helpers of `split.py`, `edge.py`, `collapse.py`, `initialize.py` that the loop does not call |
| `Verif/Regression.lean` | `regression.py` |
| `Verif/Offsets.lean` | `calc_offsets` of `__init__.py`, `output_offsets` of `inout.py` |
| `Verif/Spec/*.lean` | independent specifications |
| `Verif/Props/*.lean` | the property theorems (and only these) with examples |

## Plan per property

| id | what is modelled | how it is proved |
|---|---|---|
| C01 | near_zero, is_close | case analysis on the "weak" test |
| C02 | is_close | case analysis, witness for asymmetry |
| C03 | find_gte | induction on the sorted list |
| C04 | find_gt | induction on the sorted list |
| C05 | get_unique_times, all_close_clusters | list induction; documented absolute tolerance and the empty case are violated (tolerances are passed in swapped order, `filter` object is always truthy in python 3): negations with witnesses, `_partial` for what holds |
| C06 | groupby_cluster | loop invariant |
| C07 | vectorops on lists | list induction |
| C08 | norm, unit | field algebra with the sqrt laws |
| C09 | bisector (real trigonometry) | half-angle formulas of Mathlib |
| C10 | coefficients_from_points, Line2 | case analysis + field algebra |
| C11 | Line2 | field algebra |
| C12 | LineLineIntersector | case analysis + field algebra |
| C13 | WaveFrontIntersector | field algebra for all t |
| C14 | WaveFrontIntersector.get_intersection | proves the negation |
| C15 | Transform | field algebra |
| C16 | get_box, get_transform, check in calc_skel | list induction |
| C17 | area_collapse_time_coeff | ring |
| C18 | solve_quadratic | completing the square |
| C19 | collapse_time_edge | completing the square |
| C20 | vertex_crash_time | field algebra |
| C21 | all compute_event_* | branch by branch, from C03/C04 |
| C22 | all compute_event_* | branch by branch; negation witness for the flip clause below tolerance, `_partial` otherwise |
| C23 | compute_event_0triangle | C17+C18+C03 and constant sign between roots |
| C24 | compute_collapse_time, event_loop | direct + loop invariant |
| C25 | left/right history | refinement to "last assignment <= t", induction over the assignments |
| C26 | flip on a heap | heap frame reasoning |
| C27 | replace_kvertex | decreasing number of occurrences of the old vertex |
| C28 | update_circ | from C25 |
| C29 | stop_kvertices | loop invariants |
| C30 | compute_new_kvertex | from C13 |
| C31 | compare_event_by_time | case analysis |
| C32-C34, C44, C47, C48 | the whole event state machine (all handlers) | one invariant (`InvL` in `Verif/Proofs/InvBasics.lean`) preserved by every function (`Inv*.lean`), induction over the iterations |
| C35-C37 | event_loop | induction over the iterations |
| C38 | neighbour symmetry | `Mesh` (Spec/Triangulation.lean) kept handler by handler (Props/Mesh.lean); edge events under the link condition, with a witness that it is needed |
| C39, C40 | Skeleton.segments | list induction; C40 violated: negation + partial |
| C41 | split_star | loop invariant |
| C42 | internal_only_skeleton | filter laws |
| C52-C54 | init_skeleton | the facts established by its loops and assertions (`Verif/Proofs/InitState.lean`), rotation of stars (C41) |
| C55, C56 | calc_skel | composition of init_skeleton (C52, C54), the event loop (C47, C48), growth (C37), life of vertices (C34), transform (C16) and segments (C39) |
| C57-C60 | events, initialize, calc_offsets | one invariant `Waves` (Proofs/WavefrontSteps): established by `init_skeleton` (Proofs/WavefrontInit), kept by everything that only stops vertices (`Quiet`, Proofs/Quiet), by creating and linking vertices, hence by each handler and each step of the loop (Proofs/WavefrontBlocks) |
| C43 | calc_offsets | list induction |
| C44 | init_skeleton numbering, compute_new_kvertex | invariant; negation for internal_only |
| C45 | eig_2x2 | field algebra; violated for some diagonal matrices and negative eigenvalues: negations + partial |
| C46 | r_squared | Cauchy-Schwarz on lists |
| C47 | all handlers | weakest preconditions: the faults that are not python exceptions are unreachable |
| C48 | update_circ in all handlers | part of the same invariant |
| C49 | regress, cov, pcov, sums of products | evaluation for arbitrary input |
| C50 | mean, variance | list induction |
| C51 | output_offsets | list induction |
| C109 | initialize.py init_skeleton; __init__.py calc_skel; primitives.py SkeletonNode, Skeleton.segments; events/* | Spec/Label: the state with other labels; no function of the model reads a label (Proofs/Label), initialisation and segments pass them on |
| C108 | initialize.py:692; events/loop.py init_event_list, event_loop | Spec/Order: states equal up to a renaming of the events and the order of the triangles; inserting two events commutes, so filling the queue in another order gives the same queue up to renaming; all handlers respect the renaming (Proofs/Order) |
| C107 | __init__.py calc_skel; line2d.py; transform.py; initialize.py; events/*; primitives.py Skeleton.segments | Spec/Turn: the turned state; every function of the model commutes with the turn (Proofs/TurnPure, Turn, TurnInit); the sort by (y, x) gives another order of the triangles, removed by C108 |
| C106 | __init__.py calc_skel; events/*; primitives.py Skeleton.segments | Spec/Convex: convex input and distance to the lines of its edges, from the triangulation alone; lower bound from the disc of C96, upper bound from the edge by which a point is passed in C99; both ends of the vertices by C101 |
| C105 | events/parallel.py handle_parallel_fan and its callers; __init__.py calc_skel | Deepens: with more room the same result or RecursionError before; closed under sequence and branches; induction over the depth and over the iterations |
| C104 | events/loop.py compare_event_by_time, event_loop; __init__.py calc_skel | Proofs/Paired: two states are twins when they differ only in ids and order of the queue; every function but taking the next event leads from twins to twins; without a tie both take the same event; at the end the queue is empty, so nothing differs but the ids |
| C103 | events/loop.py compare_event_by_time, __init__.py calc_skel | Proofs/Blind: every function of the event loop commutes with an exchange of the ids that keeps their order; init_skeleton only stores them |
| C102 | __init__.py calc_skel, transform.py, primitives.py Skeleton.segments | get_box and get_transform commute with the map, forward cancels it; Proofs/Blind: no function of the event loop reads or writes the transform, so the runs are equal state by state |
| C101 | primitives.py Skeleton.segments, __init__.py calc_skel, transform.py | every vertex takes some time from start to stop (Proofs/Lifespan: the corners of the triangle of an event started before), its nodes are where it is then (C90), so a point of a segment is the place of its vertex at one time; C100 for two vertices, C98 and C96 with limits for the edges and the discs; backward of the transform is affine and injective as the scale that forward divided by is not 0 |
| C100 | primitives.py Skeleton.segments, events/*.py | the sides at a vertex that is not part of the events at time x were sides of positive length just before; points around the vertex were on one of them or are in the triangles around it, and neither can be so for points of another arc: C98 (apart, simple), C96 |
| C99 | __init__.py calc_skel, calc_offsets, events/*.py | the number of triangles around the point is constant at events, so it drops between two; the point is then in the strip that a side sweeps over, take the side that reaches it first; before, nothing is lost; afterwards C98 (apart) |
| C98 | __init__.py calc_skel, calc_offsets, events/*.py | winding numbers stay at most 1 (C96); the side is approached from its own triangle, whose strip just swept over has winding number 1 before and 0 later, and a point inside later would have a disc of radius x' - x around it inside; around a vertex between events the live triangles and the strips just swept over cover a disc, which two vertices at one place would cover twice |
| C97 | __init__.py calc_offsets, events/*.py | winding numbers stay at most 1 (C96), a point inside two live triangles has winding number 2; near a common point there are points inside both triangles, or (when a corner touches a side from outside) inside a triangle and the strip just swept over |
| C96 | __init__.py calc_offsets, events/*.py | the proof of C95 for any side function: crossings of a ray from a point that moves with at most unit speed in place of the shoelace formula; each crossing function is antisymmetric, vanishes on flat triangles and is not negative on positively oriented ones (countIn), so events conserve the sum and sides that move ahead of the point only lower it |
| C95 | __init__.py calc_offsets, events/*.py | sum_handleEvent: every handler conserves the sum of the areas of the live triangles at the time of the event; inner sides cancel, so the sum is the shoelace sum over the wavefront sides, which front_sum turns into the sum over the vertices of the skeleton (C94); a trapezoid identity for lines that move at unit speed gives the loss between events; C91 gives the sign |
| C94 | __init__.py calc_offsets, primitives.py, events/*.py | a relation between states (Since) that every function of the model keeps, function by function (Proofs.Since); then C48 for the histories, C69/C87 for the links in the last state before the time, C75/C88 for the stop times, C91 for the direction of the sides, C43 for calc_offsets |
| C93 | initialize.py, events/*.py | double counting of sides: one side without neighbour per vertex (the fan of each vertex ends at one, C70_linked); few inner sides in a forest, many in one piece (Proofs.Euler); then C88, C89 and C92 |
| C92 | __init__.py, events/*.py | a flip happens when three moving vertices are in line, which three vertices are at most twice, and a triangle that has been flipped at a time is not flat again at that time (Proofs.FlatSteps, FlatRun); all other events stop a triangle or are dropped; the number of vertices is bounded by C88. The checks at the start follow from C91 (Proofs.EndLoop) |
| C91 | events/*.py, collapse.py, initialize.py | wavefront edges run forward at the start (from the input), events keep this (Proofs.InwardSteps), and between events they cannot shrink to nothing since the triangle over them would vanish; then the area left is the sum over the wavefront edges of length times (distance to any point minus time), which is not positive once the time exceeds all distances (Proofs.InwardEnd) |
| C90 | events/*.py, collapse.py | general position (C87) gives the side conditions of ordinary (C66), plain (C69) and tidy executions; vertices of a Ready state ride the lines of their wavefronts (Proofs.RideRun); then C66, C69, C84 apply |
| C89 | events/*.py | Spec.Tree: arcs touch their nodes and the triangles of which they are corners; each event maps this relation into the generated equivalence, forwards (triangle to new node) and backwards (new node and new arcs to the triangle); Euler count from C88, trees from Mathlib's SimpleGraph |
| C88 | events/*.py, `segments` | Spec.Cubic states the skeleton as a graph (begin and end nodes of arcs, degrees); what each handler stops and makes (C26, C61, C62) gives a `Junction`; counting along the run; moving corners of triangles of the skeleton stay its vertices (`Populated`) |
| C87 | events/*.py | `Safe` calculus (which Python errors a block can raise) through every handler; invariant `Ready` (mesh, links, shared wavefronts, no infinitely fast vertex) kept by each generic event; C86 for the recomputation of collapse times; the examples check all events of two sample runs |
| C86 | collapse.py | totality of every helper given that positions exist; the two explicit raises with their conditions read off; triangle inequality; for two wavefront edges: when the corners are in line one edge has vanished, so the other two sides are equal |
| C85 | initialize.py, __init__.py | every stage succeeds: lines (fromPoints), groups (C41), bisectors (C13), links (a group that begins or ends at a constrained edge), rotation to the next triangle that stays, mutual neighbours; then C16, C55 |
| C84 | events/*.py, collapse.py | invariant `Crisp` over the event loop: triangles with stopped corners have an immediate event, the others are certified by events that are exact (C64, C78) |
| C83 | `make_unit_vector`, `is_quad`, `find_overlapping_triangle` | C10 determines the normal; list induction |
| C82 | `solve_quadratic_whatevery` | factorisation of the quadratic |
| C81 | `signed_turn`, `get_bisector` of edge.py | polar form of u·v + i u×v; Cauchy-Schwarz |
| C80 | `compute_crossing_bisector` | evaluation with C12; translated lines keep their normals |
| C79 | `visualize`, `output_skel`, `calc_skel(pause, output)` | the invariant of executions gives every vertex a place at every time; hence no row fails; the loop is the same with and without output |
| C78 | `computeEvent0/1/2/3`, `newEdgeCollapse` | every candidate time is a root of the area; near roots are equal; at a root a shortest side of length (almost) zero vanishes and the apex is on the longest side |
| C77 | the event loop and all handlers of edge, split and flip events | invariant `Standing`: the queue holds an event not later than the next root of each area (C66, C76), the event taken is the earliest, handlers replace corners by vertices at the same place (C75), a flip at the side keeps both areas non-negative |
| C76 | compute_collapse_time and all it calls | the area as product of side length and height (1, 2, 3 wavefront edges) or quadratic (none); every root is at or after the event; a quadratic without root keeps its sign |
| C75 | stop_kvertices, compute_new_kvertex, handle_edge_event, handle_edge_event_3sides, handle_split_event, init_skeleton | invariant `Arcs` (arcs anchored in nodes, vertices on both wavefronts, also collinear ones): a stop at the place where all stopped vertices are anchors them, new vertices start there (C30) |
| C74 | events/check.py | Spec.Checks states position, orientation and direction of movement with the determinant and its own tolerance; each check is shown equivalent to its specification. |
| C73 | handle_parallel_fan and the functions it calls | Spec.Parallel states places, legs and what stops independently of the handlers; lemmas follow the handler step by step and show that everything after the stop changes no stop data (`Still`). |
| C71 | events on the internal triangles of polygons without holes | `Spec.NoHoles`: ranks (forest of neighbours) and `Round`; walks without turning back are unique (`Trail.unique`); each event keeps both; `C71_calc_skel` starts from `DtForest` |
| C72 | all event handlers, `internal_only_skeleton`, `calc_skel` | frame argument `Stays` over every function of the event code: a closed set of triangles stays closed and the others stay the same; `Delivered.regions` for the start |
| C70 | `initialize.py` init_skeleton: removal of the three triangles, relinking | `Spec.DtMesh` (contract of `tri`) implies `Mesh` and `Linked` of the result; rows of triangles around each kinetic vertex, gaps where triangles are taken out |
| C69 | events/check.py 9-15, 45-77, edge.py, split.py, flip.py, loop.py | `Front`: each corner of a live triangle gets a kind (its fan lies between two linked sides, or one of the sides is between stopped vertices) and a rank that decreases around the vertex; edge, split, flip events and removals carry `Front` along (FrontLemmas, FrontSplit, FrontFlip); `Linked` is equivalent to `Front` at the start and follows from it afterwards |
| C66, C67, C68 | events/lib.py, edge.py, split.py, flip.py, loop.py | invariant `Fresh D`: all live triangles outside of `D` are certified; every block of the handlers either leaves the data of a triangle alone or recomputes its event; `D` is the triangle being handled; C67 and C68 follow with C22 and C64 |
| C64, C65 | compute_event_*triangle | branch by branch: the sieves give the least admitted time (C03, C04), edge collapse times are meeting times (C19), crash times by C20; lengths at the event time via the positions of the vertices; mutants of the branches that the earlier theorems did not notice break these |
| C61-C63 | handle_edge_event, handle_split_event | the runs are decomposed step by step (Proofs/HandlerLemmas); everything after the vertices have been made touches only triangles, events and queues (`MeshOnly`, Proofs/MeshOnly); continuity from C13 and C30 |

# Formal model of lycantropos/clipping — design

Source: `/repo` (Python), read as text, never run.  The model is Lean 4 (+ single Mathlib
modules) under `lean/Verif/`.

## 1. Trusted base

* Lean's kernel.  Every property theorem depends on at most `propext`,
  `Classical.choice`, `Quot.sound` (checked with `#print axioms`; listed in section 6).
* The reading of the Python code.  Every definition under `Verif/Model` and
  `Verif/Ground` cites the file and lines it models.
* External libraries are not part of the repository and are modelled by their contract:
  * `ground` (`Verif/Ground/*`): points with lexicographic order, `angle_orientation` (sign of
    the cross product), `segments_relation`, `segments_intersection`, `segment_box`,
    `segments_box`.  Each has an executable definition **and** a theorem saying that the
    definition is the documented point-set relation, so nothing depends on how ground computes it.
  * `prioq.PriorityQueue`: `pop` removes *some* minimal element; which one of several
    minimal ones is an arbitrary oracle (`TieBreak`) over which all theorems quantify.
  * `dendroid.red_black.set_`: a set kept in ascending key order, where an element is
    found when neither key is less than the other.  Modelled by a sorted list.  That the
    keys are a strict total order on every reachable content (so that list search and tree
    search agree) is a *theorem* (C22: `sweepLine_ordered`; `sweepLine_tree` compares the list
    with an arbitrary binary search tree of the same content; C74: `sweep_any_tree` runs the whole sweep with an
    explicit tree and any balancing and shows that it is the same).  Only for the n-ary sweep (C25), the keys of
    which are not a total order, the tree is explicit: how it is rebalanced is a parameter
    (`Balancing`, any operation which keeps the order of the values), the search follows the nodes from the
    root.  The negations of C25 are about `redBlack`, the textbook (CLRS) algorithm.
  * `orient` (`point_in_region`, `segment_in_contour`, `segment_in_region`):
    a parameter `Orient` of the model; `OrientOk` says what the functions are
    documented to decide.  `exists_orient` shows that such functions exist, so that no theorem
    with this hypothesis is empty.
* Python's `sorted` / `list.sort` are stable sorts, `itertools.groupby` groups consecutive equals.

## 2. Arithmetic

Coordinates are exact rationals (`ℚ`): Python `int` and `Fraction` inputs with ground's
default exact context.  Floating point rounding is outside the model.

Zero-length segments are rejected by ground's contract (a segment has two distinct end points); the
theorems assume `Segment.Proper` (start ≠ end) exactly where the code relies on it.

## 3. Layers

| layer | modules | models |
|---|---|---|
| ground | `Verif/Ground` | points, orientation, relation, intersection, boxes |
| values | `Verif/Model/Geometry`, `Unpacking`, `Utils` | result geometries, `unpacking.py`, `utils.py` |
| segments | `Verif/Model/Segments` | the four segment/segment functions and the segment/multisegment functions of `linear.py` |
| boxes | `Verif/Model/Bounding` | `bounding.py` (segment part) |
| sweep | `Verif/Model/Event`, `EventsQueue`, `SweepLine`, `Linear` | pointer-level event heap (mutable `left`/`right` links), queue keys, `detect_intersection`, `divide`, status order, `process_event`, `sweep`, the five linear operations, `merge_segments` |
| public linear | `Verif/Model/Planar` | functions of `planar.py` on segments and multisegments |
| polygons | `Verif/Model/Contours`, `BoundingShaped` | oriented edges of contours and polygons, polygon part of `bounding.py` |
| mixed | `Verif/Model/Mixed`, `PlanarMixed` | `mixed.py` and the 16 functions of `planar.py` on a linear and a shaped operand |
| shaped | `Verif/Model/Shaped`, `Holeless`, `Holey`, `PlanarShaped` | fields of events, `compute_fields`, decision tables, connectivity, contour tracing, `shrink_collinear_vertices`, relations of contours, `holeless.py`, `holey.py`, the 22 functions of `planar.py` on regions, polygons and their multi-variants |
| objects | `Verif/Model/Objects`, `ObjectCalls` | the same operations once more with list objects which may be shared and are changed in place; `operands.py` |
| tree | `Verif/Model/Tree` | search trees, to compare with the sorted list |
| sweep with a tree | `Verif/Model/TreeSweep`, `Verif/Model/TreeMixed`, `Verif/Model/TreeShaped` | `sweep` and `process_event` of all operations once more, with the tree in place of the sorted list |
| n-ary | `Verif/Model/RedBlack`, `Nary` | the n-ary queue and sweep line of `merge_segments`, `segments_to_multisegment`; here the tree itself is modelled |

Not modelled: `__repr__`/type hints, contexts other than exact arithmetic.  There are no caches: the wrappers of `operands.py` are made by each call
for itself and hold attributes only.  In `Model/Objects.lean` polygons and multipoints are values (their lists are made together with them and no statement
changes them later), and what a failing call did to lists before it failed is not modelled.
In `holey.py` start points of events are numbered and positions are keyed by these numbers; `Model/Holey.lean`
keys them by points, `Model/Numbered.lean` has the numbers with all assertions on them (and the first event processed
before the loop), and C49 shows that the results are the same.  The `continue` for events which are no longer in the sweep line is modelled (it is
unreachable on valid operands).

Mutable objects: an explicit heap `address → object` with allocation counters; `divide`
mutates it exactly as the Python methods do.  Exceptions are values (`Except`).  The `while`
loops of the sweeps take fuel; a theorem gives an explicit amount that always suffices, so
"out of fuel" is unreachable.

## 4. Specification vocabulary (`Verif/Spec`)

* `Segment.pts s : Set Point` — convex combinations of the end points.
* `Geometry.pts` — union over the parts.
* "regularized" results: equal to the set-theoretic result up to finitely many points, with
  the obvious inclusions, and made of proper segments only (hence closed without isolated
  points, hence unique).
* `ValidSegments l` — pairwise, two segments share at most one point and that point is not
  interior to both (no crossing, no overlap).

* `Inside E q` — even-odd rule: the ray down from `q` crosses an odd number of the edges `E`;
  `regionPts E`, `Polygon.pts`, `polysPts` — points inside or on the edges.
* `SimpleContour`, `ValidPolygon`, `ValidPolygons` — validity of shaped operands.  Holes may touch the border and each
  other in points, polygons may touch each other in points.
* `InteriorOnLeft E e` — close to the inner points of the edge, the points on the left are inside and those on
  the right are outside.
* `Combined op A B q` — Boolean combination of the regions with the edges `A` and `B`; `IsBoundaryOf op A B T` — the
  segments `T` are the boundary of the combination; `Outlines op A B ps` — the contours of the polygons `ps` are.

## 5. How each property is modelled and proved

* C01–C06: total functions on two segments; case analysis over the seven relations using the
  point-set theorem of `segments_relation`.
* C07–C10: structural recursion over the multisegment's list, induction.
* C11–C13: box predicates as Boolean functions; point-set semantics of boxes; linear arithmetic
  and clipping of a segment's parameter interval.  C13 is *false* of the code (see section 7).
* C14: the measure "candidate points strictly inside current segments" decreases by every division;
  gives an explicit fuel bound.
* C15–C24, C26: the central sweep invariant (`Lemmas/Sweep/*`).  Coordinates are sheared by a small ε so that
  lexicographic order becomes the order of one coordinate and every segment becomes the graph of
  an affine function; an abstract machine (segments = affine functions on intervals, status
  list, finished list) carries the invariant; the pointer-level model refines it.
* C34, C35 (and C26): every piece of the final heap is an edge of the arrangement (its inner points
  are no vertices) and every edge is a piece, so the results are determined by the operands' point sets.
* C25 (`Lemmas/Nary/*`): termination and soundness for all segments by an invariant which does not mention
  the order of the sweep line; exactness without overlaps by a step-by-step simulation of the other sweep.
  With overlaps the property is false: the sweep line then has events with equal keys, an event may
  be shortened while it is in the tree, and the search may not find it any more.  Negations are proved for all
  ties by evaluating all runs (`mergeRuns`) with the textbook red-black tree; one of them has a repeated segment
  as the only overlap.
* C27: case analysis on lists.
* C31: a simple contour's direction at the extreme vertex decides the side of its interior: the polygonal
  Jordan curve theorem for the even-odd rule (`Lemmas/Region/*`).
* C28, C32, C37–C40 (`Lemmas/Flags/*`): the sweep invariant is extended with the fields of events.  `other_interior_to_left` and
  `interior_to_left` of a piece are the parities of the numbers of pieces of the two operands below it; parity is
  related to `Inside` at points next to the piece.  C28 is proved of whole sweeps, not only of the decision table.
* C30: vertex lists; dropping a vertex on the line of its neighbours keeps a simple contour's points and interior.
* C29, C41: `Lemmas/Plane/*`: in a set of edges such that an even number meets in each vertex, following the permutation "next
  dart" gives closed walks; cutting them at repeated vertices gives simple contours; their interiors are
  laminar; borders are those with an even number of contours around.  `Lemmas/Shaped/*`: the code's connectivity list is
  such a permutation (`Selected.tracing`), so that `events_to_polygons` returns (`eventsToPolygons_outline`) and its
  contours are the boundary of the combination.  `Lemmas/Below/*`: `below_event_from_shaped_result` of a selected
  event is a selected event whose contour has been traced before.
* C42, C51: the parity of the number of edges of a contour below the first edge of a contour is told by the event recorded as the one
  below (`Lemmas/Below/FewParity`; false in general, see section 7, true unless several contours touch an edge in the same vertex
  from the right only: `Spec/Touch`).  The recorded event is a function of the arrangement (see C47); where it is out of date, at
  most two edges start at the vertex, both or none of them are selected, and a set of edges which has both or none of them passes
  below the vertex as the edge touched does (`Lemmas/Below/Through`, `Few`).  Hence the parent
  of a hole is the contour around it (`Lemmas/Shaped/Nested`), the polygons are valid (`Lemmas/Shaped/Valid`) and
  have the points of the combination (`Lemmas/Shaped/Exact`).
* C52: every contour of a result has points of the combination next to each of its edges (`near_both`), so polygons which outline nothing
  do not exist (`Lemmas/Shaped/Empty`).
* C53: a corner of a contour in normal form (C48) which runs along edges of the operands (C41) is an end of an edge or the common point
  of two of them (`corner_vertex`); edges of one operand do not cross, since one of them would be inside of the other contour
  (`Lemmas/Shaped/Crossless`); single points of complete intersections are isolated common points (`CompleteParts.corner`).
* C54: contours written in another way have the same edges up to order and direction (`SameContour.sameEdges`), so polygons stay valid,
  boxes are the same and the box tests keep the same polygons; sweeps with the same edges yield the same polygons (as for C47).
* C55: by induction on the expression, a point off finitely many segments is inside of the contours of the result exactly if the formula
  holds (C41); a region is the closure of its inside (`mem_region_iff`), so regions with the same inside off finitely many segments are
  equal (`Lemmas/Region/Unique`).
* C56: the edges are the points next to which there are points inside and outside (`Lemmas/Region/Plain`), so equal regions have the
  same points on edges; edges end in corners only, and a contour which shares an edge with another one follows it
  (`Lemmas/Region/PlainContours`).  Borders and holes are told apart by the side of the region; the owner of a hole is the innermost border
  around it, by the Jordan curve theorem (`Lemmas/Shaped/Owner`).  That contours do not touch carries over, since at each point only two
  ways leave (`Lemmas/Shaped/Detaching`).
* C57: that a point is inside of a simple contour is defined by a ray downwards, which an affine map does not preserve; by the Jordan curve
  theorem a point is inside exactly if no path off the contour leads far away, and paths are mapped to paths (`Lemmas/Region/Affine`).
  Isolated points and segments of complete intersections are determined by the set of common points (`Lemmas/Region/AffineParts`).
* C58, C59: two sets made of finitely many proper segments which differ in finitely many points are equal, so that a regularized
  intersection, difference or symmetric difference is determined by the operands as point sets, and these are mapped
  (`Lemmas/AffineLinear`).  C59 is refuted by two multisegments and a shear.
* C60, C61: as C58, from the uniqueness of regularized results; a set made of proper segments with finitely many points is empty.
* C62: as C55, induction on the nesting; results of the calls equal the formula up to finitely many points, which is compatible with nesting, and valid segments which agree up to finitely many points agree.
* C63: the shoelace sum of a boundary is the sum of its signed trapezoids; between two neighbouring abscissas of end points and crossings the edges are ordered, and the signed sum of their trapezoids is the sum of the gaps which are inside. So weighted areas are weighted sums over common gaps, on each of which the polygons are inside or outside as a whole.
* C64: after a shear no segment is vertical; between two neighbouring abscissas of end points, meeting points and exceptional points, weighted lengths are sums over the points of a vertical slice, each of which counts once for every operand or result which contains it, with the factor of its direction.
* C65: the recorded edge below may be a stale one, but the parity of the number of result edges between it and the edge it is recorded for is right: the edges which are passed over cancel in pairs (`Below/AllParity.lean`). By induction on the order of tracing, a contour is marked as a hole exactly if an odd number of contours is around it; then the directed contours are a boundary, and areas are valuations as in C63.
* C66, C67: the sweep only needs operands whose directed edges are a boundary, and results are such by C65. Boxes are taken from borders; every hole is within a border, since a contour with an odd number of contours around it has an outermost one around it. So unions, symmetric differences and the first operand of a difference need no validity (`Shaped/Drawn.lean`); induction over the expression gives C66. Intersections and subtrahends are filtered polygon by polygon, which is wrong if a hole is at another polygon: C67 is violated, shown by evaluating the model.
* C68: induction over the list or tree of operands with one step of C66; the number of operands with a point is compared for permutations.
* C69: images of drawings are drawings: borders and holes are told apart by the number of other contours around a point of the contour, which is the same for images. Areas of drawings with the same inside are the same (C65).
* C70: a second model in which lists are objects of a store and `+=`, `append`, `sort` change them. Each operation refines the one on values: the store only grows, the result is read back from it. Histories by induction on the calls.
* C71: each segment of a result starts (at its lower end) along a segment of an operand, at its lower end or where it meets another one. The pair determines the segment, since segments of a result do not overlap; so there are no more of them than pairs which meet.
* C72: the pieces of one operand at the end of a sweep do not overlap and end at vertices of the arrangement, so they are counted as in C71; each gives two events, and no event is processed twice.
* C73: the selected pieces are pieces of the linear operand as in C72; segments which a union keeps aside meet no edge and overlap no selected piece.
* C74: simulation of the sweep with a list by the sweep with a tree (`Model/TreeSweep.lean`): by the order of the sweep line (C22) every search follows the one way to the event, so searches, neighbours, insertions and removals agree.
* C75: for the sweep with a tree, an invariant which needs no order of the sweep line: events are consistent, end at vertices of the arrangement and are parts of segments of their operand; the potential of C14 decreases whatever the tree finds, and comparing an event with itself raises the error.  Whether unions of such operands can miss points is open.
* C76: the model of core/mixed.py on the sweep with a tree (`Model/TreeMixed.lean`); the simulation of C74 and the invariant of C75, and an invariant of the marks which needs no geometry: only events of the linear operand are marked as parts of the result.
* C77: the model of core/holey.py and core/holeless.py on the sweep with a tree, with the `IndexError`s of events which were not processed and with any way to sort which the comparison of the queue permits (`Model/TreeShaped.lean`); the invariant of C75, that no event is processed twice, that sweeps of edges which do not overlap do not fail (`Lemmas/TreeSweep/Raises.lean`), and that tracing contours only goes along positions of one start (`Lemmas/TreeSweep/Trace.lean`).
* C78: the simulation of C74 for the model of C77 (`Lemmas/TreeSweep/ShapedExact.lean`): no event is found on the sweep line before it is added, the comparison orders all events (`Lemmas/TreeSweep/Checked.lean`), and opposites of traced events are always traced, so that no check fails.
* C79: the contours of a result are where its formula changes (`Lemmas/Region/Across.lean`: for a point of an edge, two points on both sides, good for all results at once), so that the valuation of C64 turns inequalities of changes of truth values into inequalities of lengths.
* C80: the inner points of a convex region are convex, so the closure of common inner points is; convex polygons are single (a segment between inner points meets no edge) and have no holes (a point in a hole is between points of its contour); a convex set of points and segments is on a line (`Lemmas/Region/Convex.lean`, `ConvexParts.lean`).
* C81: every branch of every `compute` returns an unpacked list, an operand, or both operands together (`Lemmas/Kind.lean`); only for `unite_multisegments` the number of pieces is needed (C21).
* C82: in a convex region, the points on the line of an edge are on this edge (otherwise an edge from its end would have inner points on it, `Lemmas/Region/ConvexCount.lean`), so there are no two edges on a line, and edges of the result are mapped one to one to edges of the operands.
* C83: one polygon by C85; a hole would be between the common point and a point of its own boundary (`Lemmas/Region/ConvexUnion.lean`).
* C84: the contours of the result (C41) and of the description surround the same points off all edges, so both have the same points, and C56 applies.
* C85: by the Jordan curve theorem (`Lemmas/Region/Jordan.lean`), and its extension to a contour among other edges which it does not meet (`SimpleContour.linked_beside`, by which a path is led around the holes), there is a way from the common point to every inner point of an operand within the operand; it crosses no edge of the result (C51), so all polygons of the result contain the common point (`Lemmas/Region/UnionLinked.lean`).
* C86: as C85, an operand which has one inner point in a polygon of the result has all of them in it (`Lemmas/Region/UnionPieces.lean`); disjoint operands together are valid polygons with the points of the result, which are unique (C56).
* C87: the polygons of an operand have no common points. A polygon within two regions without common points is within one of them
  (`Lemmas/Region/ClosedPieces`): each contour is, and the leftmost hole in the other region would have an edge to its left.
* C43, C44: invariants of the marks which complete intersections read at the end of the sweep (overlap kinds and from-result flags of
  pieces are final once the piece is processed, `Lemmas/Flags/Marks`); a point common to both regions is in the interior of
  both nearby (then in the closure of the combination, `Lemmas/Region/Closed`), on a common edge, or a vertex where no edge
  of the result ends (`Lemmas/Shaped/Complete`, `Spec/Complete`).
* C45, C46: a closed path in a region without holes goes around points of the region only (`SimpleContour.filling`), so
  the common interior of such regions has no holes (`solid_regions`).  Hence the loop which `events_to_regions`
  follows until it meets its first vertex again does not pass another vertex twice, the contours are not within each other
  (`Lemmas/Plane/Solid`, `Lemmas/Shaped/Regions`, `RegionsValid`), and no hypothesis on touching vertices is needed.
* C47 (`Lemmas/Shaped/Twin*`): two sweeps of the same arrangement end with the same pieces and the same marks (`Twin`), the events are
  sorted by a total order on pieces, and tracing reads only this order, the marks and the segment of the event below.  The latter may
  be out of date (C42): then the edge, when it was inserted, lay at a vertex which it shares only with one edge passing by below
  (`Touched`), and it took what is above the part of this edge left of the vertex (`Lemmas/Below/Stale`, `StaleRun`).  So the recorded
  event is a function of the arrangement and of the pieces of the result, by induction from left to right and from below upwards
  (`Lemmas/Below/Compare`, `Ended`), and the same for both sweeps.
* C48 (`Lemmas/Shaped/Normal`): a contour is traced from the least event which is left, so that its first vertex is its least one and not
  before the ones of earlier contours; dropping collinear vertices keeps the least vertex, as the contour keeps its points.
* C49 (`Lemmas/Shaped/Numbered`): numbers of processed events are in the order of their starts, because events are processed in this order
  (C23); by induction on the loop the list of positions agrees with the positions of points, and all visited positions are
  reset.  The first event is not beyond the early exit: an edge of the operand with the lesser right side starts before it.
* C50 (`Lemmas/Sweep/Ties`, `Lemmas/Ties`): two waiting events neither of which precedes the other start at the same point on the same
  side, on one line and belong to the same operand; as operands do not overlap themselves they are equal.  So the queue's order is
  total on the events in it, and every step pops the same event for every `TieBreak`.

## 6. Status

See `MANIFEST.json`.  `vcheck` prints the axioms: no theorem depends on others than `propext`, `Classical.choice` and
`Quot.sound`.

## 7. Disagreements between code and properties

* **C13** (`bounding.coupled_with_segment`, bounding.py:193–204).  The docstring promises "the box
  intersects the segment at more than one point".  A segment passing through the box exactly
  through corners, e.g. `(-1,-1)–(3,3)` and box `[0,2]×[0,2]`, has relation TOUCH with all four
  edges and its own box is not a subset, so the function answers `False`.
  `intersect_multisegments`, `subtract_multisegments` and `subtract_multisegment_from_segment`
  then drop the segment and return a wrong result: C17 and C19 are partial, with negations proved.
* **C36, C38** (`bounding.coupled_with_polygon`).  A polygon is dropped if the box of the other operand is a subset of a hole, even
  if the box has a part of the hole's edges on its boundary.  `subtract_polygon_from_multisegment` and variants then
  return edges of the polygon as if they were outside of it: `coupledWithPolygon_incomplete`,
  `subtractPolygonFromMultisegment_incomplete`.  For two shaped operands only edges, no interior points, are
  affected, and the results remain correct (C41).
* **C42** (`holey.py:80-85`).  `below_event_from_shaped_result` is computed when an event is inserted into the sweep line and is not
  updated when the event below is divided later on at the very point where the event starts: if a vertex of an
  operand, from which edges go to the right only, lies on an edge of the other operand, events which are inserted before
  the edge is divided refer to what is below the edge's left part.  If the vertex belongs to one contour only, this does no harm
  (C51).  If several contours meet there, a hole may be attached to the wrong polygon, and the
  result contains points which are not in the combination (`symmetricSubtract_not_exact`, a triangle and a multipolygon of two
  triangles; `Properties/PolygonsHole` has counterexamples with two polygons for every operation: `intersectPolygons_not_exact`,
  `subtractPolygons_not_exact`, `symmetricSubtractPolygons_not_exact`, `completeIntersectPolygons_not_exact` (C44) for a triangle with a
  hole which touches its border in a vertex, and `unitePolygons_not_exact`, for which the interior of the operand is not connected).

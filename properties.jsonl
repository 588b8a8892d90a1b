{"id": "C01", "title": "intersect_segments is exact intersection", "statement": "intersect_segments(s, t) returns a geometry whose point set is exactly the set of points lying on both s and t.", "quantifier": "every pair of non-degenerate segments with exact (rational) coordinates, in any position and any endpoint order", "why_tests_cant": "the property-based tests sample random coordinates; degenerate placements (collinear, shared end point, T-junction) have measure zero and cannot be enumerated", "anchors": ["clipping/planar.py:intersect_segments", "clipping/core/linear.py:intersect_segments", "clipping/core/linear.py:_intersect_segments_overlap"]}
{"id": "C02", "title": "subtract_segments is regularized difference", "statement": "subtract_segments(s, t) returns a geometry that contains every point of s not on t, only points of s, and shares at most finitely many points with t.", "quantifier": "every pair of non-degenerate segments with exact (rational) coordinates, in any position and any endpoint order", "why_tests_cant": "the property-based tests sample random coordinates; degenerate placements (collinear, shared end point, T-junction) have measure zero and cannot be enumerated", "anchors": ["clipping/core/linear.py:subtract_segments", "clipping/core/linear.py:_subtract_segments_overlap", "clipping/core/linear.py:_subtract_segments_composite"]}
{"id": "C03", "title": "symmetric_subtract_segments is regularized symmetric difference", "statement": "symmetric_subtract_segments(s, t) contains every point lying on exactly one of s, t, only points of s or t, and at most finitely many points lying on both.", "quantifier": "every pair of non-degenerate segments with exact (rational) coordinates, in any position and any endpoint order", "why_tests_cant": "the property-based tests sample random coordinates; degenerate placements (collinear, shared end point, T-junction) have measure zero and cannot be enumerated", "anchors": ["clipping/core/linear.py:symmetric_subtract_segments", "clipping/core/linear.py:_symmetric_subtract_segments_overlap", "clipping/core/linear.py:_unite_segments_touch", "clipping/core/linear.py:_unite_segments_cross"]}
{"id": "C04", "title": "unite_segments is union", "statement": "unite_segments(s, t) returns a geometry whose point set is exactly the set of points lying on s or on t.", "quantifier": "every pair of non-degenerate segments with exact (rational) coordinates, in any position and any endpoint order", "why_tests_cant": "the property-based tests sample random coordinates; degenerate placements (collinear, shared end point, T-junction) have measure zero and cannot be enumerated", "anchors": ["clipping/core/linear.py:unite_segments", "clipping/core/linear.py:_unite_segments_overlap", "clipping/core/linear.py:_unite_segments_touch", "clipping/core/linear.py:_unite_segments_cross"]}
{"id": "C05", "title": "segment/segment results are well-formed", "statement": "Every geometry returned by intersect_segments, subtract_segments, symmetric_subtract_segments and unite_segments is well-formed: no zero-length segment, a multisegment has at least two segments, and no two of its segments cross or overlap.", "quantifier": "every pair of non-degenerate segments with exact (rational) coordinates, in any position and any endpoint order", "why_tests_cant": "the property-based tests sample random coordinates; degenerate placements (collinear, shared end point, T-junction) have measure zero and cannot be enumerated", "anchors": ["clipping/core/linear.py:intersect_segments", "clipping/core/linear.py:subtract_segments", "clipping/core/linear.py:symmetric_subtract_segments", "clipping/core/linear.py:unite_segments"]}
{"id": "C06", "title": "segment/segment results ignore operand and endpoint order", "statement": "Swapping the operands of intersect_segments / unite_segments / symmetric_subtract_segments, or reversing the end points of either operand of any of the four functions, does not change the point set of the result.", "quantifier": "every pair of non-degenerate segments with exact (rational) coordinates, in any position and any endpoint order", "why_tests_cant": "the property-based tests sample random coordinates; degenerate placements (collinear, shared end point, T-junction) have measure zero and cannot be enumerated", "anchors": ["clipping/core/linear.py:intersect_segments", "clipping/core/linear.py:unite_segments", "clipping/core/linear.py:symmetric_subtract_segments", "clipping/core/linear.py:subtract_segments"]}
{"id": "C07", "title": "intersect_segment_with_multisegment is regularized intersection", "statement": "intersect_segment_with_multisegment(s, m) contains only points lying on both s and m, and misses at most finitely many of them.", "quantifier": "every segment and every multisegment (any number of segments)", "why_tests_cant": "the number, position and degeneracy of the segments is unbounded; each test fixes one arrangement and one priority-queue tie-break", "anchors": ["clipping/core/linear.py:intersect_segment_with_multisegment", "clipping/core/linear.py:_intersect_segment_with_multisegment"]}
{"id": "C08", "title": "subtract_segment_from_multisegment is regularized difference", "statement": "For a valid multisegment m, subtract_segment_from_multisegment(m, s) contains every point of m not on s, only points of m, and at most finitely many points of s.", "quantifier": "every segment and every valid multisegment (any number of segments)", "why_tests_cant": "the number, position and degeneracy of the segments is unbounded; each test fixes one arrangement and one priority-queue tie-break", "anchors": ["clipping/core/linear.py:subtract_segment_from_multisegment", "clipping/core/linear.py:_subtract_segment_from_multisegment"]}
{"id": "C09", "title": "unite_segment_with_multisegment is union", "statement": "For a valid multisegment m, unite_segment_with_multisegment(s, m) has exactly the points lying on s or on m.", "quantifier": "every segment and every valid multisegment (any number of segments)", "why_tests_cant": "the number, position and degeneracy of the segments is unbounded; each test fixes one arrangement and one priority-queue tie-break", "anchors": ["clipping/core/linear.py:unite_segment_with_multisegment", "clipping/core/linear.py:_subtract_segment_from_multisegment"]}
{"id": "C10", "title": "segment/multisegment results are well-formed", "statement": "For a valid multisegment m the results of intersecting m with, subtracting from m, and uniting m with a segment are well-formed: no zero-length segments, at least two segments in a multisegment, no two segments crossing or overlapping.", "quantifier": "every segment and every valid multisegment (any number of segments)", "why_tests_cant": "the number, position and degeneracy of the segments is unbounded; each test fixes one arrangement and one priority-queue tie-break", "anchors": ["clipping/core/linear.py:_intersect_segment_with_multisegment", "clipping/core/linear.py:_subtract_segment_from_multisegment", "clipping/core/unpacking.py:unpack_segments"]}
{"id": "C11", "title": "bounding-box tests decide what their names say", "statement": "On boxes: disjoint_with is true iff the boxes share no point, intersects_with is its negation, is_subset_of is inclusion, within_of is inclusion in the interior, and (for boxes with non-empty interior) coupled_with is true iff the boxes share more than one point.", "quantifier": "every pair of axis-parallel boxes", "why_tests_cant": "boxes range over an infinite set; the doctests check five pairs", "anchors": ["clipping/core/bounding.py:disjoint_with", "clipping/core/bounding.py:intersects_with", "clipping/core/bounding.py:coupled_with", "clipping/core/bounding.py:is_subset_of", "clipping/core/bounding.py:within_of"]}
{"id": "C12", "title": "pre-filtering keeps exactly the segments meeting the box", "statement": "intersects_with_segment(box, s) is true iff s and the box share a point, hence dropping the segments failing it never changes a complete intersection or the part of a segment set lying in the box.", "quantifier": "every box with non-empty interior and every segment", "why_tests_cant": "the property-based tests sample random coordinates; degenerate placements (collinear, shared end point, T-junction) have measure zero and cannot be enumerated", "anchors": ["clipping/core/bounding.py:intersects_with_segment", "clipping/core/bounding.py:to_intersecting_segments", "clipping/core/bounding.py:split_intersecting_segments"]}
{"id": "C13", "title": "coupled pre-filtering loses nothing", "statement": "A segment dropped by to_coupled_segments(box, segments) shares at most one point with the box, so that intersect_multisegments and subtract_multisegments may drop it.", "quantifier": "every box and every segment", "why_tests_cant": "the failing placements (a segment through two opposite corners of the box) have measure zero", "anchors": ["clipping/core/bounding.py:coupled_with_segment", "clipping/core/bounding.py:to_coupled_segments", "clipping/core/linear.py:Intersection.compute", "clipping/core/linear.py:Difference.compute"]}
{"id": "C14", "title": "multisegment operations terminate", "statement": "Every call of intersect_multisegments, complete_intersect_multisegments, subtract_multisegments, symmetric_subtract_multisegments, unite_multisegments (and their segment/multisegment variants) finishes: the event queue is emptied after finitely many steps, with an explicit bound in the number of segments.", "quantifier": "every pair of multisegments with exact coordinates and any number of segments, every tie-break of the priority queue", "why_tests_cant": "termination quantifies over all inputs and all steps; a test can only see that some runs ended", "anchors": ["clipping/core/linear.py:Operation.sweep", "clipping/core/events_queue.py:LinearEventsQueue.detect_intersection", "clipping/core/event.py:LeftBinaryEvent.divide"]}
{"id": "C15", "title": "multisegment operations do not raise on valid operands", "statement": "No call of a multisegment operation raises ValueError when no two segments of the same operand overlap.", "quantifier": "every pair of multisegments with exact coordinates and any number of segments, every tie-break of the priority queue", "why_tests_cant": "the number, position and degeneracy of the segments is unbounded; each test fixes one arrangement and one priority-queue tie-break", "anchors": ["clipping/core/events_queue.py:LinearEventsQueue.detect_intersection"]}
{"id": "C16", "title": "unite_multisegments is union", "statement": "unite_multisegments(a, b) has exactly the points lying on a or on b.", "quantifier": "every pair of multisegments with exact coordinates and any number of segments, every tie-break of the priority queue", "why_tests_cant": "the number, position and degeneracy of the segments is unbounded; each test fixes one arrangement and one priority-queue tie-break", "anchors": ["clipping/planar.py:unite_multisegments", "clipping/core/linear.py:Union.compute", "clipping/core/linear.py:Operation.sweep"]}
{"id": "C17", "title": "intersect_multisegments is regularized intersection", "statement": "intersect_multisegments(a, b) contains only points lying on both a and b and misses at most finitely many of them.", "quantifier": "every pair of multisegments with exact coordinates and any number of segments, every tie-break of the priority queue", "why_tests_cant": "the number, position and degeneracy of the segments is unbounded; each test fixes one arrangement and one priority-queue tie-break", "anchors": ["clipping/planar.py:intersect_multisegments", "clipping/core/linear.py:Intersection.compute", "clipping/core/linear.py:Intersection.sweep"]}
{"id": "C18", "title": "complete_intersect_multisegments is exact intersection", "statement": "complete_intersect_multisegments(a, b) has exactly the points lying on both a and b.", "quantifier": "every pair of multisegments with exact coordinates and any number of segments, every tie-break of the priority queue", "why_tests_cant": "the number, position and degeneracy of the segments is unbounded; each test fixes one arrangement and one priority-queue tie-break", "anchors": ["clipping/planar.py:complete_intersect_multisegments", "clipping/core/linear.py:CompleteIntersection.compute", "clipping/core/linear.py:CompleteIntersection.sweep"]}
{"id": "C19", "title": "subtract_multisegments is regularized difference", "statement": "subtract_multisegments(a, b) contains every point of a not on b, only points of a, and shares at most finitely many points with b.", "quantifier": "every pair of multisegments with exact coordinates and any number of segments, every tie-break of the priority queue", "why_tests_cant": "the number, position and degeneracy of the segments is unbounded; each test fixes one arrangement and one priority-queue tie-break", "anchors": ["clipping/planar.py:subtract_multisegments", "clipping/planar.py:subtract_multisegment_from_segment", "clipping/core/linear.py:Difference.compute", "clipping/core/linear.py:Difference.sweep"]}
{"id": "C20", "title": "symmetric_subtract_multisegments is regularized symmetric difference", "statement": "symmetric_subtract_multisegments(a, b) contains every point lying on exactly one operand, only points of the operands, and at most finitely many points lying on both.", "quantifier": "every pair of multisegments with exact coordinates and any number of segments, every tie-break of the priority queue", "why_tests_cant": "the number, position and degeneracy of the segments is unbounded; each test fixes one arrangement and one priority-queue tie-break", "anchors": ["clipping/planar.py:symmetric_subtract_multisegments", "clipping/planar.py:symmetric_subtract_multisegment_from_segment", "clipping/core/linear.py:SymmetricDifference.compute"]}
{"id": "C21", "title": "multisegment results are valid multisegments", "statement": "When the operands are valid, results of the sweep-based linear operations are valid: no zero-length or repeated segment, no two segments cross or overlap, and a multisegment has at least two segments. Unless the result is the minuend itself or puts two operands without common points side by side, any two of its segments moreover meet at most in end points of both, and segments come in ascending order of end points.", "quantifier": "every pair of multisegments with exact coordinates and any number of segments, every tie-break of the priority queue", "why_tests_cant": "the number, position and degeneracy of the segments is unbounded; each test fixes one arrangement and one priority-queue tie-break", "anchors": ["clipping/core/linear.py:Union.compute", "clipping/core/linear.py:Intersection.compute", "clipping/core/linear.py:Difference.compute", "clipping/core/linear.py:SymmetricDifference.compute", "clipping/core/unpacking.py:unpack_segments"]}
{"id": "C22", "title": "the sweep status order is a strict total order", "statement": "At every moment of every sweep, the segments in the sweep line are strictly and totally ordered by the status comparison, so that any comparison-based balanced tree finds exactly the stored events and their true neighbours.", "quantifier": "every state reachable by a sweep over any two multisegments, every priority-queue tie-break", "why_tests_cant": "the order compares mutable events; its transitivity on reachable states is an invariant of all histories", "anchors": ["clipping/core/sweep_line.py:BinarySweepLineKey.__lt__", "clipping/core/sweep_line.py:BinarySweepLine"]}
{"id": "C23", "title": "events are processed left to right", "statement": "Events leave the queue in lexicographic order of their points, although events are divided and pushed while the sweep runs; and a left end point is never taken while a right end point at the same place is queued.", "quantifier": "every run of every sweep", "why_tests_cant": "quantifies over all steps of all runs", "anchors": ["clipping/core/events_queue.py:BinaryEventsQueueKey.__lt__", "clipping/core/events_queue.py:LinearEventsQueue.pop"]}
{"id": "C24", "title": "dividing events never loses or invents points", "statement": "At each moment of a sweep the current segments of each operand cover exactly the operand's original points.", "quantifier": "every state reachable by a sweep", "why_tests_cant": "invariant over all histories of divisions", "anchors": ["clipping/core/event.py:LeftBinaryEvent.divide", "clipping/core/events_queue.py:LinearEventsQueue._divide_segment", "clipping/core/events_queue.py:LinearEventsQueue.register"]}
{"id": "C25", "title": "segments_to_multisegment resolves any list of segments", "statement": "segments_to_multisegment(segments) terminates for any list of non-degenerate segments (crossing, overlapping, repeated), covers exactly their points, and no two segments of its result cross or overlap.", "quantifier": "every finite list of non-degenerate segments, every priority-queue tie-break, every balancing of the search tree", "why_tests_cant": "the number, position and degeneracy of the segments is unbounded; each test fixes one arrangement and one priority-queue tie-break", "anchors": ["clipping/planar.py:segments_to_multisegment", "clipping/core/linear.py:merge_segments", "clipping/core/events_queue.py:NaryEventsQueue", "clipping/core/sweep_line.py:NarySweepLine"]}
{"id": "C26", "title": "results do not depend on the priority queue or on the order of inputs", "statement": "The point sets returned by the multisegment operations are the same for every tie-break of the priority queue, every order of the segments inside an operand and every orientation of each segment.", "quantifier": "every pair of multisegments with exact coordinates and any number of segments, every tie-break of the priority queue", "why_tests_cant": "a test sees one tie-break and a handful of permutations", "anchors": ["clipping/core/linear.py:Operation.sweep", "clipping/core/events_queue.py:BinaryEventsQueueKey"]}
{"id": "C27", "title": "empty, single and multiple results are reported in canonical form", "statement": "Results are unpacked canonically: no segments/points/polygons gives Empty, one gives the element, more give a multi-geometry, and a Mix is only returned when at least two of its parts are non-empty.", "quantifier": "every list of parts of any length", "why_tests_cant": "lists of any length", "anchors": ["clipping/core/unpacking.py:unpack_segments", "clipping/core/unpacking.py:unpack_linear_mix", "clipping/core/unpacking.py:unpack_mix", "clipping/core/unpacking.py:unpack_polygons", "clipping/core/unpacking.py:unpack_regions", "clipping/core/unpacking.py:unpack_points"]}
{"id": "C28", "title": "shaped operations select exactly the boundary of the Boolean combination", "statement": "Given which sides of an edge belong to each operand, the edge (or exactly one copy of an edge shared by both operands) is selected for the result iff the Boolean combination (and, or, minus, xor) of the operands differs on its two sides.", "quantifier": "every combination of side-memberships, every operation, both operands", "why_tests_cant": "the claim ties a decision table to its specification for all rows and for pairs of overlapping edges at once", "anchors": ["clipping/core/holey.py:Union.from_shaped_result", "clipping/core/holey.py:Intersection.from_shaped_result", "clipping/core/holey.py:Difference.from_shaped_result", "clipping/core/holey.py:SymmetricDifference.from_shaped_result", "clipping/core/holeless.py:Intersection.from_shaped_result"]}
{"id": "C29", "title": "contour tracing visits each selected edge once and terminates", "statement": "Linking selected events into contours terminates and uses every selected edge in exactly one contour, whatever the number of edges meeting in a vertex.", "quantifier": "every list of selected events closed under taking the opposite end", "why_tests_cant": "number of events and vertex degrees are unbounded; termination is over all steps", "anchors": ["clipping/core/event.py:events_to_connectivity", "clipping/core/holeless.py:Operation.events_to_regions", "clipping/core/holeless.py:_to_next_event_id", "clipping/core/holey.py:_to_next_event_id"]}
{"id": "C30", "title": "collinear vertices are dropped without changing the contour", "statement": "Removing collinear vertices from a traced contour only deletes vertices that lie on the line of their neighbours, keeps the cyclic order of the others and terminates.  A simple contour stays simple, keeps its points and its interior, and no three consecutive vertices of it are left on a line.", "quantifier": "every list of vertices", "why_tests_cant": "lists of any length", "anchors": ["clipping/core/utils.py:shrink_collinear_vertices"]}
{"id": "C31", "title": "edges are oriented with the interior on the left", "statement": "For a contour, the produced oriented edges are exactly the contour's edges, all in one cyclic direction, and that direction is counterclockwise (clockwise for holes) as seen at the extreme vertex.", "quantifier": "every contour with any number of vertices", "why_tests_cant": "contours of any size", "anchors": ["clipping/core/utils.py:contour_to_oriented_edges_endpoints", "clipping/core/utils.py:to_contour_orientation", "clipping/core/utils.py:polygon_to_oriented_edges_endpoints"]}
{"id": "C32", "title": "intersection of linear and shaped geometries", "statement": "intersect_segment_with_polygon, intersect_segment_with_multipolygon, intersect_multisegment_with_polygon and intersect_multisegment_with_multipolygon return segments which lie in both operands and which together contain all common points but finitely many (isolated touching points).", "quantifier": "every segment and every multisegment without overlapping segments, every valid polygon or multipolygon with any number of vertices and holes, and every order of equal priority-queue entries", "why_tests_cant": "the number, position and degeneracy of the segments is unbounded; each test fixes one arrangement and one priority-queue tie-break", "anchors": ["clipping/core/mixed.py:Intersection", "clipping/core/mixed.py:Difference", "clipping/core/mixed.py:Union", "clipping/core/mixed.py:CompleteIntersection"]}
{"id": "C33", "title": "unite_segments merges operands whose union is a segment", "statement": "unite_segments(s, t) returns a single Segment exactly when the union of the points of s and t is itself a segment (so collinear touching or overlapping operands are merged).", "quantifier": "every pair of non-degenerate segments with exact (rational) coordinates, in any position and any endpoint order", "why_tests_cant": "collinear placements have measure zero for random coordinates and come in unboundedly many positions", "anchors": ["clipping/core/linear.py:unite_segments", "clipping/core/linear.py:_unite_segments_touch", "clipping/core/linear.py:_unite_segments_overlap"]}
{"id": "C34", "title": "results of multisegment operations are edges of the arrangement", "statement": "If the operands share a point, the segments returned by unite_multisegments are exactly the edges of the arrangement of all operand segments (between consecutive end points and crossings), each once, in ascending order; symmetric_subtract_multisegments returns exactly those of them which do not lie in both operands. Likewise the segments returned by intersect_multisegments / subtract_multisegments are arrangement edges that lie in both operands / in the minuend only, unless the minuend itself is returned.", "quantifier": "every pair of multisegments with exact coordinates and any number of segments, every tie-break of the priority queue", "why_tests_cant": "the number, position and degeneracy of the segments is unbounded; a test fixes one arrangement", "anchors": ["clipping/core/linear.py:Operation.sweep", "clipping/core/linear.py:Union", "clipping/core/linear.py:SymmetricDifference", "clipping/core/linear.py:Difference", "clipping/core/linear.py:Intersection"]}
{"id": "C35", "title": "multisegment operations commute", "statement": "intersect_multisegments, symmetric_subtract_multisegments and unite_multisegments return the very same geometry when their operands are swapped; complete_intersect_multisegments returns the same points.", "quantifier": "every pair of multisegments with exact coordinates and any number of segments, every pair of tie-breaks of the priority queue", "why_tests_cant": "operands of any size; the sweep treats the first and the second operand differently in its orders, so symmetry holds only through the final result", "anchors": ["clipping/planar.py:intersect_multisegments", "clipping/planar.py:symmetric_subtract_multisegments", "clipping/planar.py:unite_multisegments", "clipping/planar.py:complete_intersect_multisegments"]}
{"id": "C36", "title": "pre-filters of polygons lose nothing", "statement": "Before the sweep an operation may drop a region or polygon of an operand only if it has no common point (for complete operations, unions and intersections of linear with shaped geometries), or at most finitely many common points (for the other operations), with the bounding box of the other operand.", "quantifier": "every box, every simple contour, every valid polygon with holes", "why_tests_cant": "the decision depends on all edges of the contour against all edges of the box, including degenerate boxes and contours running along the box", "anchors": ["clipping/core/bounding.py:intersects_with_polygon", "clipping/core/bounding.py:intersects_with_region", "clipping/core/bounding.py:coupled_with_polygon", "clipping/core/bounding.py:coupled_with_region"]}
{"id": "C37", "title": "complete intersection of linear and shaped geometries", "statement": "complete_intersect_segment_with_polygon and the three functions for multisegments and multipolygons return exactly the common points: segments and, apart from them, isolated points in ascending order without repetition.", "quantifier": "every segment and every multisegment without overlapping segments, every valid polygon or multipolygon with any number of vertices and holes, and every order of equal priority-queue entries", "why_tests_cant": "numbers of segments, vertices and holes, and degenerate positions (edges along edges, touching in vertices) are unbounded; a test fixes one arrangement", "anchors": ["clipping/planar.py:complete_intersect_segment_with_polygon", "clipping/planar.py:complete_intersect_multisegment_with_multipolygon", "clipping/core/mixed.py:CompleteIntersection"]}
{"id": "C38", "title": "difference of linear and shaped geometries", "statement": "subtract_polygon_from_segment and the three functions for multisegments and multipolygons return segments of the minuend which contain all its points outside of the subtrahend and only finitely many points of the subtrahend.", "quantifier": "every segment and every multisegment without overlapping segments, every valid polygon or multipolygon with any number of vertices and holes, and every order of equal priority-queue entries", "why_tests_cant": "numbers of segments, vertices and holes, and degenerate positions (edges along edges, touching in vertices) are unbounded; a test fixes one arrangement", "anchors": ["clipping/planar.py:subtract_polygon_from_segment", "clipping/planar.py:subtract_multipolygon_from_multisegment", "clipping/core/mixed.py:Difference"]}
{"id": "C39", "title": "union and symmetric difference of linear and shaped geometries", "statement": "unite_* and symmetric_subtract_* for a linear and a shaped operand return the shaped operand together with the parts of the linear operand outside of it (nothing but the shaped operand if there are none), so that the result has exactly the points of both operands.", "quantifier": "every segment and every multisegment without overlapping segments, every valid polygon or multipolygon with any number of vertices and holes, and every order of equal priority-queue entries", "why_tests_cant": "numbers of segments, vertices and holes, and degenerate positions (edges along edges, touching in vertices) are unbounded; a test fixes one arrangement", "anchors": ["clipping/planar.py:unite_multisegment_with_multipolygon", "clipping/planar.py:symmetric_subtract_polygon_from_segment", "clipping/core/mixed.py:Union", "clipping/core/mixed.py:SymmetricDifference"]}
{"id": "C40", "title": "results on linear and shaped geometries are well-formed", "statement": "The linear part of every result of an operation on a valid linear and a valid shaped operand has no segments of zero length, no two of its segments cross or overlap, and it is a multisegment only if it has two or more segments; no operation raises.", "quantifier": "every segment and every multisegment without overlapping segments, every valid polygon or multipolygon with any number of vertices and holes, and every order of equal priority-queue entries", "why_tests_cant": "numbers of segments, vertices and holes, and degenerate positions (edges along edges, touching in vertices) are unbounded; a test fixes one arrangement", "anchors": ["clipping/core/mixed.py", "clipping/core/unpacking.py:unpack_segments", "clipping/core/unpacking.py:unpack_linear_mix"]}
{"id": "C41", "title": "contours of results on polygons are the boundary of the combination", "statement": "intersect_*, subtract_*, symmetric_subtract_* and unite_* of polygons and multipolygons never raise on valid operands and return Empty, a polygon or a multipolygon whose contours are simple, do not overlap, run along edges of the operands and are together the boundary of the combination: a point off the edges is in the combination iff the ray down from it crosses an odd number of their edges. Unless operands are returned as they are, borders are counterclockwise and holes clockwise.", "quantifier": "all valid polygons and multipolygons (any number of vertices, holes and polygons), every order in which the priority queue may return equal events", "why_tests_cant": "the arrangements of two polygons are unbounded: vertices on edges, shared edges, contours touching in points and degenerate filters can be combined in infinitely many ways", "anchors": ["clipping/planar.py: intersect_polygons, subtract_polygons, symmetric_subtract_polygons, unite_polygons and variants for multipolygons", "clipping/core/holey.py, clipping/core/event.py, clipping/core/operands.py"]}
{"id": "C42", "title": "results on polygons are valid and have exactly the points of the combination", "statement": "The polygons returned by intersect_*, subtract_*, symmetric_subtract_* and unite_* of valid polygons and multipolygons are valid: each hole is within the border of its polygon, holes and polygons do not have common interior points; and the points of the result are exactly those of the closure of the part of the Boolean combination which is off the edges of the operands.", "quantifier": "all valid polygons and multipolygons, every order in which the priority queue may return equal events", "why_tests_cant": "which polygon a hole is attached to depends on the whole history of the sweep line below its leftmost vertex", "anchors": ["clipping/core/holey.py: events_to_polygons, Operation", "clipping/core/event.py: below_event_from_shaped_result"]}
{"id": "C43", "title": "complete intersections of polygons have all common points", "statement": "complete_intersect_polygons, complete_intersect_polygon_with_multipolygon and complete_intersect_multipolygons never raise on valid operands. The isolated points, the segments and the region bounded by the contours of the result have together exactly the common points of the operands; isolated points are listed once, in order and are in no other part; segments run from left to right, do not overlap, meet each other and the region in their ends only. A result with parts of one dimension is of the type of this dimension, other results are mixes, and multi-geometries have at least two parts.", "quantifier": "all valid polygons and multipolygons (any number of vertices, holes and polygons), every order in which the priority queue may return equal events", "why_tests_cant": "operands can touch in any number of points and along any number of edges, also at crossings and ends of other edges; a test fixes one arrangement", "anchors": ["clipping/planar.py:complete_intersect_polygons", "clipping/planar.py:complete_intersect_multipolygons", "clipping/core/holey.py:CompleteIntersection", "clipping/core/unpacking.py:unpack_mix"]}
{"id": "C44", "title": "polygons of complete intersections are valid", "statement": "The polygons of the results of complete_intersect_* of valid polygons and multipolygons are valid, so that the points of the result (isolated points, points of segments and points of polygons) are exactly the common points of the operands.", "quantifier": "all valid polygons and multipolygons (any number of vertices, holes and polygons), every order in which the priority queue may return equal events", "why_tests_cant": "which polygon a hole is attached to depends on the whole history of the sweep line below its leftmost vertex", "anchors": ["clipping/planar.py:complete_intersect_polygons", "clipping/core/holey.py:CompleteIntersection", "clipping/core/holey.py:Operation.events_to_polygons"]}
{"id": "C45", "title": "intersections of regions are valid and exact", "statement": "intersect_regions, intersect_region_with_multiregion and intersect_multiregions never raise on valid operands. The result is empty, a polygon or a multipolygon; its polygons are valid, have no holes and counterclockwise borders, do not overlap, and have together exactly the points of the closure of the common interior of the operands.", "quantifier": "all valid regions and multiregions (any number of vertices and regions, touching in any way), every order in which the priority queue may return equal events", "why_tests_cant": "the number of crossings and of contours meeting in a point is unbounded; which contour is traced first, and whether one is within another one, depends on the whole arrangement", "anchors": ["clipping/planar.py:intersect_regions", "clipping/planar.py:intersect_region_with_multiregion", "clipping/planar.py:intersect_multiregions", "clipping/core/holeless.py:Intersection", "clipping/core/holeless.py:Operation.events_to_regions"]}
{"id": "C46", "title": "complete intersections of regions have exactly the common points", "statement": "complete_intersect_regions, complete_intersect_region_with_multiregion and complete_intersect_multiregions never raise on valid operands. The result has exactly the common points of the operands. Isolated points are listed once, in order, and are in no other part; segments run from left to right, do not overlap, meet each other and the polygons in their ends only; polygons are valid and have no holes.", "quantifier": "all valid regions and multiregions, every order in which the priority queue may return equal events", "why_tests_cant": "operands can touch in any number of points and along any number of edges; a test fixes one arrangement", "anchors": ["clipping/planar.py:complete_intersect_regions", "clipping/planar.py:complete_intersect_region_with_multiregion", "clipping/planar.py:complete_intersect_multiregions", "clipping/core/holeless.py:CompleteIntersection"]}
{"id": "C47", "title": "results of operations on regions and polygons do not depend on the order of operands", "statement": "Intersections, complete intersections, unions and symmetric differences of two regions, polygons or collections of them give the very same result (the same polygons in the same order, with the same vertices and holes in the same order) when the operands are swapped. Where the operands have a common point, unions and symmetric differences depend on the edges of the operands only: the vertex from which a contour is written, its direction and the order of holes and polygons do not matter.", "quantifier": "all valid regions, multiregions, polygons and multipolygons, any two orders of equal events", "why_tests_cant": "the heap's order of equal events depends on the whole history of the queue; a test runs one history, and comparing results needs every one", "anchors": ["clipping/planar.py:intersect_regions", "clipping/planar.py:unite_multipolygons", "clipping/planar.py:symmetric_subtract_multipolygons", "clipping/core/holey.py:Operation.events_to_polygons", "clipping/core/holeless.py:Operation.events_to_regions", "clipping/core/events_queue.py"]}
{"id": "C48", "title": "results on regions and polygons are in normal form", "statement": "Contours of results start with their least vertex (the leftmost, of several ones the lowest) and have no three consecutive vertices on a line; polygons of a result are sorted by the first vertices of their borders, holes by their first vertices, and no hole starts before the border. A difference may instead be the first operand as it is given; a union or symmetric difference of operands with disjoint bounding boxes has the given polygons, sorted by the first vertices of their borders.", "quantifier": "all valid regions, multiregions, polygons and multipolygons, every order in which the priority queue may return equal events", "why_tests_cant": "the order of contours and their first vertices come out of the tracing of an arrangement of any size; tests compare results up to equivalence", "anchors": ["clipping/core/holey.py:Operation.events_to_polygons", "clipping/core/holey.py:Union.compute", "clipping/core/holey.py:SymmetricDifference.compute", "clipping/core/holeless.py:Operation.events_to_regions", "clipping/core/utils.py:to_first_border_vertex", "clipping/core/utils.py:shrink_collinear_vertices"]}
{"id": "C49", "title": "end points are numbered consistently and the bookkeeping of the tracing never fails", "statement": "Operations on polygons and multipolygons never fail on their assertions about the numbers given to end points: every event of the result has a number, none exceeds that of the last event, numbers are equal exactly for equal points, list indices are in range and all positions are reset after each contour; the numbers only speed up what could be said with the points themselves.", "quantifier": "all pairs of valid polygons or multipolygons, all five operations, every order in which the priority queue may return equal events", "why_tests_cant": "the numbers are given during the sweep, in which events are divided and pushed; a wrong number shows only for particular arrangements", "anchors": ["clipping/core/holey.py:Operation.events_to_polygons", "clipping/core/holey.py:Operation.sweep", "clipping/core/holey.py:_to_contour_events", "clipping/core/event.py:UNDEFINED_INDEX"]}
{"id": "C50", "title": "results do not depend on how the priority queue orders equal events", "statement": "Every operation on segments, multisegments, regions, polygons and their collections (intersection, complete intersection, difference, symmetric difference and union, in all combinations of operands) gives the very same result whatever order the priority queue returns equal events in: of two different waiting events one always precedes the other.", "quantifier": "all valid operands of all operations which sweep (fifty), any two orders of equal events", "why_tests_cant": "which of equal events comes first depends on the whole history of the queue; a test runs one history, and tests compare results up to equivalence", "anchors": ["clipping/planar.py", "clipping/core/events_queue.py:EventsQueueKey", "clipping/core/linear.py:Operation.sweep", "clipping/core/mixed.py:Operation.sweep", "clipping/core/holey.py:Operation.sweep", "clipping/core/holeless.py:Operation.sweep"]}
{"id": "C51", "title": "operations on polygons whose contours do not touch each other are valid and exact", "statement": "If no two contours of the same operand have a common point (holes touch neither the border nor each other, the polygons of a multipolygon do not touch each other), then intersect_*, complete_intersect_*, subtract_*, symmetric_subtract_* and unite_* of polygons and multipolygons return valid polygons which do not overlap and have exactly the points of the closure of the combination (complete intersections: together with the isolated points and segments exactly the common points), wherever the operands touch, cross or overlap each other.", "quantifier": "all pairs of valid polygons and multipolygons with exact coordinates the contours of which do not touch within one operand, in any position to each other (common vertices, vertices on edges, overlapping edges)", "why_tests_cant": "which hole belongs to which polygon depends on the history of the sweep at touching vertices; random tests hardly ever hit such positions, and the code is wrong for operands which touch themselves (C42)", "anchors": ["clipping/planar.py:intersect_polygons", "clipping/planar.py:unite_multipolygons", "clipping/core/holey.py:Operation.process_event", "clipping/core/holey.py:Operation.events_to_polygons"]}
{"id": "C52", "title": "results on polygons and regions are empty exactly if there is nothing in them", "statement": "Operations on polygons, multipolygons (and intersections of regions and multiregions) return Empty exactly if: intersect_*: all common points of the operands are on their edges; complete_intersect_*: there are no common points; subtract_*: all points of the minuend are points of the subtrahend; symmetric_subtract_*: the operands have the same points; unite_*: never. So `subtract(a, b) is EMPTY` decides containment and `complete_intersect(a, b) is EMPTY` decides disjointness.", "quantifier": "all valid operands with exact coordinates, in any position to each other, also those which touch themselves (for which C42 fails)", "why_tests_cant": "random polygons are hardly ever within each other with touching edges or equal up to the choice of vertices; an empty or non-empty result must be right for all of them", "anchors": ["clipping/planar.py:subtract_polygons", "clipping/planar.py:symmetric_subtract_multipolygons", "clipping/planar.py:complete_intersect_polygons", "clipping/planar.py:intersect_multiregions", "clipping/core/holey.py:Intersection.compute", "clipping/core/holey.py:Difference.compute", "clipping/core/unpacking.py:unpack_polygons"]}
{"id": "C53", "title": "results have no vertices but those of the operands and crossings of an edge of each operand", "statement": "Every vertex of a result of intersect_*, subtract_*, symmetric_subtract_*, unite_* and complete_intersect_* on polygons, multipolygons, regions and multiregions is a vertex of an operand, or the only common point of an edge of one operand and an edge of the other one; the same holds for the ends of segments and for the single points of complete intersections. No other coordinates are made up, and redundant vertices of the sweep (places where edges were divided) do not appear.", "quantifier": "all valid operands with exact coordinates, in any position to each other, also those whose contours touch", "why_tests_cant": "the coordinates of a result depend on all divisions made by the sweep; tests compare areas or a few expected outputs, not every vertex of every result", "anchors": ["clipping/planar.py:unite_multipolygons", "clipping/planar.py:complete_intersect_polygons", "clipping/planar.py:intersect_regions", "clipping/core/utils.py:shrink_collinear_vertices", "clipping/core/events_queue.py:detect_intersection", "clipping/core/holey.py:CompleteIntersection.compute"]}
{"id": "C54", "title": "results on polygons and regions do not depend on how the operands are written", "statement": "If the contours of the operands are written from other vertices or in the other direction, and holes, polygons and regions in another order, then intersect_* and complete_intersect_* on polygons, multipolygons, regions and multiregions return the same geometry, vertex by vertex; subtract_* returns the same geometry or in both cases the minuend as it is written; symmetric_subtract_* and unite_* return the same geometry or multipolygons of the operands' polygons as they are written.", "quantifier": "all valid operands with exact coordinates and all ways to write each of them, in any position to each other, also those whose contours touch; every order of equal events", "why_tests_cant": "the tests reverse contours and coordinates of random operands; which polygons the bounding box tests drop and in which order the sweep meets edges depends on the writing, and must not matter for any operands", "anchors": ["clipping/planar.py:intersect_multipolygons", "clipping/planar.py:subtract_polygons", "clipping/planar.py:unite_multipolygons", "clipping/planar.py:complete_intersect_regions", "clipping/core/bounding.py:coupled_with_polygon", "clipping/core/utils.py:contour_to_oriented_edges_endpoints"]}
{"id": "C55", "title": "nested operations obey the laws of Boolean algebra", "statement": "Any nesting of intersect_*, subtract_*, symmetric_subtract_* and unite_* on polygons and multipolygons covers the region its Boolean formula says: two nestings with equivalent formulas have the same region (and the same points, if the results are valid), whatever the operands are; in particular associativity, absorption, distributivity, the laws for subtrahends and the expression of the symmetric difference by the other operations hold. A nesting whose formula never holds gives EMPTY.", "quantifier": "all nestings of any depth, all valid operands with exact coordinates whose intermediate results are valid (C42 says when they are)", "why_tests_cant": "the tests of the repository check some laws on random small operands; equality of the regions for every nesting, and every position of the operands, needs a proof", "anchors": ["clipping/planar.py:intersect_multipolygons", "clipping/planar.py:subtract_multipolygons", "clipping/planar.py:symmetric_subtract_multipolygons", "clipping/planar.py:unite_multipolygons", "clipping/core/holey.py", "tests/planar_tests"]}
{"id": "C56", "title": "results are determined by their points", "statement": "Valid polygons the contours of which do not touch each other, written without vertices on the line through their neighbours, are determined by their points up to the first vertex and the direction of each contour and the order of holes and polygons. Results of operations on polygons in normal form (first vertex least, counterclockwise borders, clockwise holes, sorted) are in normal form, so two valid results with the same points are equal vertex by vertex if the contours of one of them do not touch: unite(a, a) == a, intersect(a, a) == a, unite(a, intersect(a, b)) == a, intersect(a, unite(a, b)) == a, unite(subtract(a, b), intersect(a, b)) == a, symmetric_subtract(symmetric_subtract(a, b), b) == a, and any two nestings with equivalent formulas give equal results.", "quantifier": "all valid polygons and multipolygons with exact coordinates, all nestings of operations of any depth whose results are valid, every order of equal events", "why_tests_cant": "equality as lists of vertices needs that nothing but the region decides where contours start, how they are directed, which vertices are kept, which polygon a hole belongs to and how the parts are sorted; tests compare results of a few random operands up to rotation", "anchors": ["clipping/planar.py:intersect_multipolygons", "clipping/planar.py:subtract_multipolygons", "clipping/planar.py:symmetric_subtract_multipolygons", "clipping/planar.py:unite_multipolygons", "clipping/core/holey.py:Operation.events_to_polygons", "tests/planar_tests"]}
{"id": "C57", "title": "operations on polygons and regions commute with affine maps", "statement": "Moving, turning, reflecting (in particular exchanging the coordinates), stretching or shearing both operands does the same with the result: for every invertible affine map of the plane, the region of intersect_*, subtract_*, symmetric_subtract_* and unite_* on the images (nested in any way) is the image of their region on the operands; of complete_intersect_* the isolated points, the points of segments and the region of polygons are mapped each. If the contours of the result do not touch, the result is mapped up to the way it is written, and for translations, positive scalings and vertical shears it is mapped vertex by vertex.", "quantifier": "all valid polygons, multipolygons, regions and multiregions with exact coordinates, all invertible affine maps, all nestings of operations whose results are valid, every order of equal events", "why_tests_cant": "the sweep goes from left to right and uses bounding boxes, so that its whole course is a different one on the images; tests compare results with exchanged coordinates for a few random operands only", "anchors": ["clipping/planar.py:intersect_multipolygons", "clipping/planar.py:complete_intersect_multipolygons", "clipping/planar.py:subtract_multipolygons", "clipping/planar.py:symmetric_subtract_multipolygons", "clipping/planar.py:unite_multipolygons", "clipping/planar.py:intersect_multiregions", "clipping/planar.py:complete_intersect_multiregions", "tests/planar_tests"]}
{"id": "C58", "title": "operations with segments commute with affine maps", "statement": "Moving, turning, reflecting, stretching or shearing both operands does the same with the result of the following operations: the four on two segments; intersection, complete intersection and union of a segment and a multisegment, their symmetric difference, and a multisegment without a segment; complete intersection, symmetric difference and union of two multisegments; intersection, complete intersection, symmetric difference and union of a segment or multisegment and a polygon or multipolygon. Isolated points, points of segments and regions of polygons of the result are mapped each.", "quantifier": "all proper segments, valid multisegments, polygons and multipolygons with exact coordinates, all invertible affine maps of the plane, every order of equal events", "why_tests_cant": "the sweep and the filters by bounding boxes take a different course on the images; tests try exchanged coordinates of random operands only", "anchors": ["clipping/planar.py:intersect_segments", "clipping/planar.py:subtract_segments", "clipping/planar.py:symmetric_subtract_segments", "clipping/planar.py:unite_segments", "clipping/planar.py:subtract_segment_from_multisegment", "clipping/planar.py:complete_intersect_multisegments", "clipping/planar.py:symmetric_subtract_multisegments", "clipping/planar.py:unite_multisegments", "clipping/planar.py:complete_intersect_multisegment_with_multipolygon", "clipping/planar.py:unite_multisegment_with_multipolygon"]}
{"id": "C59", "title": "intersections and differences of multisegments commute with affine maps", "statement": "The remaining operations commute with affine maps as well: intersect_multisegments, subtract_multisegments, subtract_multisegment_from_segment, and a segment or multisegment without a polygon or multipolygon.", "quantifier": "all proper segments, valid multisegments, polygons and multipolygons with exact coordinates, all invertible affine maps of the plane, every order of equal events", "why_tests_cant": "it fails for special positions of operands which random tests do not hit: a segment through a corner of the bounding box of the other operand", "anchors": ["clipping/planar.py:intersect_multisegments", "clipping/planar.py:subtract_multisegments", "clipping/planar.py:subtract_multisegment_from_segment", "clipping/planar.py:subtract_polygon_from_multisegment", "clipping/core/bounding.py:coupled_with_segment"]}
{"id": "C60", "title": "results with segments depend on the points of the operands only", "statement": "A multisegment may be written with other segments (divided, joined, in another order or direction), a segment with exchanged end points, a polygon with other vertices: intersection, complete intersection and union of a segment and a multisegment, their symmetric difference, a multisegment without a segment, complete intersection, symmetric difference and union of two multisegments, and intersection, complete intersection, symmetric difference and union of a segment or multisegment and a polygon or multipolygon have the same isolated points, the same points of segments and the same region for operands with the same points. (intersect_multisegments does not have this property.)", "quantifier": "all proper segments, valid multisegments, polygons and multipolygons with exact coordinates, all pairs of ways to write the same set of points, every order of equal events", "why_tests_cant": "the sweep has other events and other overlaps when operands are divided differently; tests permute and reverse the same segments only", "anchors": ["clipping/planar.py:complete_intersect_multisegments", "clipping/planar.py:symmetric_subtract_multisegments", "clipping/planar.py:unite_multisegments", "clipping/planar.py:subtract_segment_from_multisegment", "clipping/planar.py:intersect_multisegment_with_multipolygon", "clipping/planar.py:complete_intersect_multisegment_with_multipolygon", "clipping/planar.py:unite_multisegment_with_multipolygon"]}
{"id": "C61", "title": "results with segments are empty exactly if there is nothing in them", "statement": "Operations with segments return Empty exactly if: intersect_segments and complete_intersect_*: there are no common points; intersect_* of a segment with a multisegment, or of a segment or multisegment with polygons: there are finitely many common points; subtract_segments and subtract_segment_from_multisegment: all points of the minuend are points of the subtrahend; symmetric_subtract_* of segments and multisegments: the operands have the same points; unite_*: never, and a union or symmetric difference with polygons is just the polygons exactly if the linear operand is contained in them. intersect_multisegments returns Empty if there are finitely many common points, and the other differences return Empty only if the minuend is contained in the subtrahend (the converses fail with C17, C19, C38).", "quantifier": "all proper segments, valid multisegments, polygons and multipolygons with exact coordinates, every order of equal events", "why_tests_cant": "random operands hardly ever contain each other or share segments; an empty or non-empty result decides containment and disjointness for every input", "anchors": ["clipping/planar.py:intersect_segments", "clipping/planar.py:subtract_segments", "clipping/planar.py:complete_intersect_multisegments", "clipping/planar.py:symmetric_subtract_multisegments", "clipping/planar.py:unite_multisegments", "clipping/planar.py:complete_intersect_multisegment_with_multipolygon", "clipping/planar.py:subtract_multipolygon_from_multisegment"]}
{"id": "C62", "title": "nested operations on segments obey the laws of Boolean algebra", "statement": "Unions, symmetric differences, intersections and differences of segments and multisegments, and restrictions of them to polygons or to the complement of polygons, nested in any way, give valid segments whose points are, up to finitely many, those which the Boolean formula says. Two nestings with equivalent formulas give the same points, a nesting whose formula never holds gives nothing, the result depends on the points of the operands only and commutes with affine maps, and no call fails; so union and symmetric difference are associative, a symmetric difference is undone by doing it again, restriction to polygons distributes, and the parts inside and outside of polygons make up the segments. (Intersections and differences of multisegments are subject to the condition of C17 and C19, differences with polygons to the one of C38.)", "quantifier": "all valid multisegments and multipolygons with exact coordinates, all nestings of any depth, every order of equal events in every call", "why_tests_cant": "nesting feeds results of one call to the next one, with all the divisions the earlier calls made; tests check single laws on small operands", "anchors": ["clipping/planar.py:unite_multisegments", "clipping/planar.py:symmetric_subtract_multisegments", "clipping/planar.py:intersect_multisegments", "clipping/planar.py:subtract_multisegments", "clipping/planar.py:intersect_multisegment_with_multipolygon", "clipping/planar.py:subtract_multipolygon_from_multisegment"]}
{"id": "C63", "title": "areas of results add up", "statement": "The area of valid polygons, computed from their vertices by the shoelace formula, is positive unless there are none, depends on their points only and does not shrink when points are added. The areas of union and intersection add up to those of the operands, those of difference and intersection to that of the operand, the symmetric difference has the area of the union without the one of the intersection, three operands obey inclusion and exclusion, and whatever equation or inequality holds for truth values of nested operations holds for areas of their results. Operands overlap exactly if the area of the union is less than the sum. Affine maps multiply areas by their determinant. This is so for all valid results, in particular without a condition on the results if the contours of an operand do not touch each other, and for regions.", "quantifier": "all valid polygons, multipolygons and regions with exact coordinates and valid results, all nestings of operations, every order of equal events", "why_tests_cant": "an area that is off reveals a lost or doubled part anywhere in the result; tests compare few results with known areas", "anchors": ["clipping/planar.py:unite_multipolygons", "clipping/planar.py:intersect_multipolygons", "clipping/planar.py:subtract_multipolygons", "clipping/planar.py:symmetric_subtract_multipolygons", "clipping/planar.py:intersect_regions", "clipping/planar.py:intersect_multiregions"]}
{"id": "C64", "title": "lengths of results add up", "statement": "The Euclidean length of valid segments (or any other length which is proportional in every direction) depends on their points only, not on how they are divided, does not shrink when points are added, and is positive unless there are no segments. The lengths of union and intersection add up to those of the operands, those of difference and intersection to that of the operand, those of the parts inside and outside of polygons to that of the segments, twice the length of the union is the length of the symmetric difference and of both operands, and whatever equation or inequality holds for truth values of nested operations on segments holds for lengths of their results. (Conditions of C17, C19 and C38 as in C62.)", "quantifier": "all valid multisegments and multipolygons with exact coordinates, all nestings of operations, every order of equal events", "why_tests_cant": "a length that is off reveals a lost or doubled piece anywhere in the result; tests compare few results with known lengths", "anchors": ["clipping/planar.py:unite_multisegments", "clipping/planar.py:symmetric_subtract_multisegments", "clipping/planar.py:intersect_multisegments", "clipping/planar.py:subtract_multisegments", "clipping/planar.py:intersect_multisegment_with_multipolygon", "clipping/planar.py:subtract_multipolygon_from_multisegment"]}
{"id": "C65", "title": "borders and holes are never mixed up, and areas are right without conditions", "statement": "Holes of results may be attached to wrong polygons (C42), but whether a contour of a result is a border or a hole is decided correctly for all valid operands: next to every edge of a border the combination of the operands is on its inner side, next to every edge of a hole on its outer side. Hence areas (borders without holes) are right for all valid operands, also if contours touch each other: union and intersection add up to the operands, difference and intersection to the first operand, symmetric difference and twice the intersection to the operands, every equation or inequality for truth values of the operations holds for areas, areas are positive unless the result has no polygons, depend on the points of the operands only, grow with the operands, and complete intersections have the area of intersections.", "quantifier": "all valid polygons and multipolygons with exact coordinates, every order of equal events, every exact point location", "why_tests_cant": "the decision depends on the edge recorded below the first vertex of a contour, which is wrong for some touching contours; that it has the right parity nevertheless cannot be seen from examples", "anchors": ["clipping/core/holey.py:events_to_polygons", "clipping/core/event.py:below_event_from_shaped_result", "clipping/planar.py:unite_multipolygons", "clipping/planar.py:intersect_multipolygons", "clipping/planar.py:subtract_multipolygons", "clipping/planar.py:symmetric_subtract_multipolygons", "clipping/planar.py:complete_intersect_multipolygons"]}
{"id": "C66", "title": "unions, symmetric differences and minuends work with any result of the library", "statement": "Results may have holes attached to wrong polygons (C42), i.e. be invalid. Nevertheless, unions and symmetric differences of results, differences of a result and valid polygons, and intersections of valid results, nested to any depth over valid operands, never fail and are right: the contours of each nested result are simple, do not overlap, lie on edges of the operands, every hole is within some border, and a point off the edges of the operands is surrounded by an odd number of contours exactly if the Boolean formula of the nested expression holds for it. Expressions with equivalent formulas give the same contour points, the same surrounded points and the same area; expressions whose formula never holds give nothing; weighted sums of areas behave as weighted sums of truth values. In particular unions and symmetric differences are associative and a symmetric difference taken twice gives the first operand back, without any condition on intermediate results.", "quantifier": "all expressions of any depth over all valid polygons and multipolygons with exact coordinates, every order of equal events, every exact point location", "why_tests_cant": "intermediate results with misplaced holes arise only from touching contours; that further operations are not affected has to be shown for all of them", "anchors": ["clipping/core/holey.py:Union.compute", "clipping/core/holey.py:SymmetricDifference.compute", "clipping/core/holey.py:Difference.compute", "clipping/core/holey.py:events_to_polygons", "clipping/planar.py:unite_multipolygons", "clipping/planar.py:symmetric_subtract_multipolygons", "clipping/planar.py:subtract_multipolygons"]}
{"id": "C67", "title": "results of the library are good operands for all operations", "statement": "What an operation on valid polygons returns can be passed to any other operation, and the second result is the combination of all operands. (Violated: the symmetric difference of a triangle and two triangles may have a hole at the wrong polygon; intersecting it with a third triangle, or subtracting it from one, treats points of the hole as points of the symmetric difference, since the polygon with the hole is dropped because of its box.)", "quantifier": "all pairs of operations on valid polygons and multipolygons with exact coordinates", "why_tests_cant": "needs touching contours and an operand whose box avoids the polygon which has the hole", "anchors": ["clipping/core/holey.py:Intersection.compute", "clipping/core/holey.py:Difference.compute", "clipping/core/bounding.py:to_coupled_polygons", "clipping/core/holey.py:events_to_polygons"]}
{"id": "C68", "title": "many operands can be put together in any order and grouping", "statement": "Uniting any number of valid polygons and multipolygons one after the other (each result with the next operand), or in pairs in a tree of any shape, never fails; the contours lie on edges of the operands and a point off these edges is surrounded exactly if it is in one of the operands. Subtracting many operands one after the other gives the points of the first which are in none of the others, and the symmetric difference of many operands the points which are in an odd number of them. Order and grouping of united operands, order of subtrahends and order of operands of symmetric differences do not matter: same contour points, same surrounded points, same area, whatever the intermediate results are.", "quantifier": "all lists of any length and trees of any shape of valid polygons and multipolygons with exact coordinates, all permutations, every order of equal events, every exact point location", "why_tests_cant": "lists of any length, all orders and groupings; intermediate results may be invalid (C42)", "anchors": ["clipping/planar.py:unite_multipolygons", "clipping/planar.py:subtract_multipolygons", "clipping/planar.py:symmetric_subtract_multipolygons", "clipping/core/holey.py:Union.compute", "clipping/core/holey.py:Difference.compute", "clipping/core/holey.py:SymmetricDifference.compute"]}
{"id": "C69", "title": "results and their areas move with the operands, whether or not contours touch", "statement": "For every invertible affine map (moving, turning, reflecting, stretching, shearing): the result of an operation on the images of valid operands has as contour points and as surrounded points exactly the images of those of the result for the operands themselves, and its area (borders minus holes, polygon by polygon) is the area of the latter times the absolute value of the determinant. Nothing is assumed about touching contours or about the validity of results; the same holds for operations nested as in C66 and for unions of any number of operands.", "quantifier": "all affine maps with a determinant other than zero, all valid polygons and multipolygons with exact coordinates, all operations and nestings, every order of equal events, every exact point location", "why_tests_cant": "all maps and operands; the course of the sweep is a different one for each position of the operands, and holes may be attached to different polygons", "anchors": ["clipping/planar.py:unite_multipolygons", "clipping/planar.py:intersect_multipolygons", "clipping/planar.py:subtract_multipolygons", "clipping/planar.py:symmetric_subtract_multipolygons", "clipping/core/holey.py:events_to_polygons"]}
{"id": "C70", "title": "calls never change their operands or earlier results", "statement": "Lists are mutable objects, the library extends, appends to and sorts some of its lists in place and returns operands themselves in some cases. Nevertheless no call of any function changes a list which existed before the call; the call returns (or fails with) exactly what the function gives for the values of the operands; the result refers only to new lists, except that a difference may be the minuend itself and a union or symmetric difference of a linear and a shaped operand may contain the operands themselves. In every history of calls, also of calls which get results of earlier calls or the same list twice, all lists which existed at the beginning and all earlier results are unchanged at the end, and a repeated call gives the same geometry.", "quantifier": "all public functions, all list objects with any sharing among operands and results, all histories of calls of any length, every order of equal events, every balancing of the tree of the n-ary sweep line", "why_tests_cant": "sharing of lists shows only in what later calls or later reads see; there are unboundedly many histories and ways of sharing", "anchors": ["clipping/core/operands.py", "clipping/core/unpacking.py", "clipping/core/linear.py:Union.compute", "clipping/core/linear.py:SymmetricDifference.compute", "clipping/core/linear.py:_subtract_segment_from_multisegment", "clipping/core/mixed.py:Union.compute", "clipping/core/holey.py:Union.compute", "clipping/core/holey.py:Difference.compute", "clipping/planar.py"]}
{"id": "C71", "title": "size of results", "statement": "A result of unite_multisegments, symmetric_subtract_multisegments, subtract_multisegments, intersect_multisegments and segments_to_multisegment has at most as many segments, and the polygons of a result of intersect_*, complete_intersect_*, subtract_*, symmetric_subtract_* and unite_* on polygons, multipolygons, regions and multiregions have together at most as many vertices, as there are ordered pairs of segments or edges of the operands with a common point (each makes a pair with itself). In particular the size is at most the square of the number of segments or edges of both operands; the bound is attained.", "quantifier": "all valid operands (multisegments: no two segments of an operand overlap) with exact coordinates, in any position to each other, every order of equal events", "why_tests_cant": "a sweep which divides segments more often than needed or keeps redundant vertices gives the same point sets; growth shows only over operands of all sizes", "anchors": ["clipping/planar.py:unite_multisegments", "clipping/planar.py:symmetric_subtract_multisegments", "clipping/planar.py:subtract_multisegments", "clipping/planar.py:intersect_multisegments", "clipping/planar.py:segments_to_multisegment", "clipping/core/linear.py", "clipping/core/holey.py", "clipping/core/holeless.py", "clipping/core/holey.py:Operation.events_to_polygons"]}
{"id": "C72", "title": "number of steps of a sweep", "statement": "Every operation on two operands ends its sweep by itself after processing at most four events, and making at most two pieces of segments, for each ordered pair of segments or edges of the operands with a common point (each makes a pair with itself), so after at most four times the square of the number of segments or edges.", "quantifier": "all valid operands (segments, multisegments, polygons, multipolygons, regions, multiregions) with exact coordinates, every order of equal events, every early exit, every selection rule", "why_tests_cant": "a loop which divides segments more often than needed, or again and again, shows only on some positions of the operands, and growth only over operands of all sizes", "anchors": ["clipping/core/linear.py:Operation.sweep", "clipping/core/mixed.py:Union.sweep", "clipping/core/holey.py:Operation.sweep", "clipping/core/holeless.py:Intersection.sweep", "clipping/core/events_queue.py:LinearEventsQueue.detect_intersection", "clipping/core/events_queue.py:MixedEventsQueue.detect_intersection", "clipping/core/events_queue.py:ShapedEventsQueue.detect_intersection"]}
{"id": "C73", "title": "segments of results on a linear and a shaped operand", "statement": "The segments of a result of intersect_*, complete_intersect_*, subtract_*, unite_* and symmetric_subtract_* on a segment or multisegment and a polygon or multipolygon are parts of segments of the linear operand which do not overlap. They begin and end only at end points of segments of the linear operand and of edges, and where one of its segments meets another one or an edge in a single point. There are at most as many of them as ordered pairs of segments and edges with a common point.", "quantifier": "all valid operands (no two segments of the multisegment overlap) with exact coordinates, in any position to each other, every order of equal events", "why_tests_cant": "results cut at needless points have the same points and pass comparisons of point sets; a cut at a wrong place shows only on some positions of the operands", "anchors": ["clipping/planar.py:intersect_multisegment_with_polygon", "clipping/planar.py:complete_intersect_multisegment_with_polygon", "clipping/planar.py:subtract_polygon_from_multisegment", "clipping/planar.py:unite_multisegment_with_polygon", "clipping/planar.py:symmetric_subtract_polygon_from_multisegment", "clipping/core/mixed.py"]}
{"id": "C74", "title": "the balancing of the sweep line has no influence", "statement": "However the search tree of the sweep line is balanced, a sweep over valid operands processes the same events in the same order and ends with the same pieces of segments and the same marks, so that every operation has the same result.", "quantifier": "all valid operands, every way to balance the tree which keeps the order of its values, every order of equal events, every early exit, the sweeps of all operations", "why_tests_cant": "a search in a tree compares only with the events on one way from the root; the shape of the tree depends on the whole history of insertions and removals, and tests see the few histories they make", "anchors": ["clipping/core/sweep_line.py:BinarySweepLine", "clipping/core/linear.py:Operation.process_event", "clipping/core/mixed.py:Operation.process_event", "clipping/core/holeless.py:Operation.process_event", "clipping/core/holey.py:Operation.process_event"]}
{"id": "C75", "title": "operands which break the rules", "statement": "Also on multisegments in which segments overlap, which the contract excludes, every operation comes to an end: it either raises ValueError, which it does only if segments of one operand do overlap, or returns a result with nothing wrong in it: an intersection has common points only, a difference only points of the minuend, a union and a symmetric difference only points of the operands, and all segments are parts of segments of the operands.", "quantifier": "all lists of segments with two different end points each, overlapping or not, every way to balance the tree of the sweep line, every order of equal events; the first part for the sweeps of all operations", "why_tests_cant": "with overlapping segments the sweep line may be out of order, so what is found depends on the shape of its tree, and an endless loop or a segment out of nowhere may hide behind any of the ways to overlap", "anchors": ["clipping/planar.py:unite_multisegments", "clipping/planar.py:intersect_multisegments", "clipping/planar.py:complete_intersect_multisegments", "clipping/planar.py:subtract_multisegments", "clipping/planar.py:symmetric_subtract_multisegments", "clipping/core/linear.py", "clipping/core/events_queue.py:LinearEventsQueue.detect_intersection", "clipping/core/sweep_line.py:BinarySweepLine"]}
{"id": "C76", "title": "any polygons with segments", "statement": "Operations on segments and polygons do not depend on how the tree of the sweep line is balanced if the operands are valid. Also on polygons which cross themselves or overlap, and on segments which overlap, they come to an end: they either raise ValueError, which they do only if segments or edges of one operand overlap, or return a result with no segment which is not a part of the linear operand, with no point which is not on both operands, and with the polygons of a union as they were given.", "quantifier": "all lists of segments with two different end points each, all lists of polygons with different consecutive vertices, valid or not, every behaviour of the library's location functions, every way to balance the tree of the sweep line, every order of equal events", "why_tests_cant": "invalid polygons are what users have, and on them the marks of the sweep mean nothing; the ways in which a contour can cross itself and others have no end", "anchors": ["clipping/planar.py:intersect_multisegment_with_multipolygon", "clipping/planar.py:complete_intersect_multisegment_with_multipolygon", "clipping/planar.py:subtract_multipolygon_from_multisegment", "clipping/planar.py:unite_multisegment_with_multipolygon", "clipping/planar.py:symmetric_subtract_multipolygon_from_multisegment", "clipping/core/mixed.py", "clipping/core/events_queue.py:MixedEventsQueue.detect_intersection", "clipping/core/sweep_line.py:BinarySweepLine"]}
{"id": "C77", "title": "any polygons", "statement": "Operations on polygons also come to an end on polygons which cross themselves, overlap each other or have edges in common: they either raise ValueError, which they do only if edges of one operand overlap, or raise an exception because of an index which is out of range or a failed assertion, or return a geometry whose polygons have no corner which is not an end of an edge or a point where two edges of the operands meet, whose points are on the boundaries of both operands, and whose segments are parts of edges of the first operand.", "quantifier": "all lists of polygons with different consecutive vertices and a vertex on every border, valid or not, every behaviour of the library's location functions, every way to balance the tree of the sweep line, every order of equal events, every way to sort events which the comparison leaves undetermined", "why_tests_cant": "on invalid polygons nothing is left of what the marks and the tracing of contours are based on, so that loops need not end for any reason tests could find; the ways in which contours can cross have no end", "anchors": ["clipping/planar.py:intersect_multipolygons", "clipping/planar.py:complete_intersect_multipolygons", "clipping/planar.py:subtract_multipolygons", "clipping/planar.py:unite_multipolygons", "clipping/planar.py:symmetric_subtract_multipolygons", "clipping/planar.py:intersect_multiregions", "clipping/planar.py:complete_intersect_multiregions", "clipping/core/holey.py", "clipping/core/holeless.py"]}
{"id": "C78", "title": "results on polygons do not depend on the tree", "statement": "The results of all operations on valid polygons, multipolygons, regions and multiregions do not depend on how the tree of the sweep line is balanced and rotated, nor on how the sort of the runtime treats events which it could not order; and no exception is raised by any index which is out of range or any assertion.", "quantifier": "all valid polygons, multipolygons, regions and multiregions, every correct location of points, every way to balance the tree of the sweep line, every way to sort which agrees with the comparison where that is an order, every order of equal events", "why_tests_cant": "the shape of a balanced tree depends on the whole history of insertions and removals, and a lookup in a tree whose order is broken finds the wrong place only with some shapes", "anchors": ["clipping/planar.py:intersect_multipolygons", "clipping/planar.py:complete_intersect_multipolygons", "clipping/planar.py:subtract_multipolygons", "clipping/planar.py:unite_multipolygons", "clipping/planar.py:symmetric_subtract_multipolygons", "clipping/planar.py:intersect_multiregions", "clipping/planar.py:complete_intersect_multiregions", "clipping/core/sweep_line.py:BinarySweepLine", "clipping/core/holey.py", "clipping/core/holeless.py"]}
{"id": "C79", "title": "perimeters of results", "statement": "For valid polygons a and b, the contours of unite(a, b) and intersect(a, b) are together not longer than those of a and b, nor are the contours of subtract(a, b) and subtract(b, a); the contours of symmetric_subtract(a, b) are as long as those of a and b without twice the length which these have in common. The contours of all four parts are together exactly as long as those of the symmetric difference and both operands. Equalities hold if contours of different operands only cross. Contours of any nested result are not longer than those of all operands together, and nested results with equivalent formulas have contours of the same length, whatever the holes are attached to.", "quantifier": "all valid polygons and multipolygons, all nested expressions of the four operations, every norm of the plane (Euclidean, taxicab, ...)", "why_tests_cant": "the equations are about all operands and all partial overlaps of their edges; an edge which is lost, doubled or not cut changes lengths without changing areas", "anchors": ["clipping/planar.py:intersect_multipolygons", "clipping/planar.py:subtract_multipolygons", "clipping/planar.py:unite_multipolygons", "clipping/planar.py:symmetric_subtract_multipolygons", "clipping/core/holey.py"]}
{"id": "C80", "title": "intersections of convex regions", "statement": "The intersection of convex regions or polygons is empty or one convex polygon without holes, never a multipolygon. Their complete intersection is empty, one point, the points of one segment, or one convex polygon without holes, never a mix. The complete intersection of a segment with a convex polygon is empty, one point, or the points of one segment.", "quantifier": "all simple contours and valid polygons whose points are convex sets, every correct location of points, every order of equal events", "why_tests_cant": "the claim ranges over all convex operands in all positions to each other, with shared edges, touching corners and vertices in the middle of straight sides", "anchors": ["clipping/planar.py:intersect_regions", "clipping/planar.py:complete_intersect_regions", "clipping/planar.py:intersect_polygons", "clipping/planar.py:complete_intersect_polygons", "clipping/core/holeless.py", "clipping/core/holey.py", "clipping/core/unpacking.py", "clipping/planar.py:complete_intersect_segment_with_polygon"]}
{"id": "C81", "title": "results are of the simplest type", "statement": "Whenever an operation returns, on valid operands or not, its result has the simplest type for its parts: an empty geometry instead of a collection without parts, a segment or polygon instead of a multisegment or multipolygon of one part, a mix only of at least two kinds of parts. Intersections and differences of segments consist of segments, those of polygons of polygons; complete intersections of segments with anything have no polygons, and unions no isolated points. unite_multisegments always returns a multisegment, which has at least two segments if the operands are valid.", "quantifier": "all operands of all operations, valid or not (multisegments and multipolygons which may be returned as they are with at least two parts; valid multisegments for unite_multisegments), every location of points, every order of equal events", "why_tests_cant": "the type depends on how many pieces survive, for every configuration of operands and every early exit", "anchors": ["clipping/core/unpacking.py", "clipping/core/linear.py", "clipping/core/mixed.py", "clipping/core/holey.py", "clipping/core/holeless.py", "clipping/planar.py"]}
{"id": "C82", "title": "intersections of convex regions have no more vertices than the operands", "statement": "The intersection of two convex regions or polygons with n and m vertices has at most n + m vertices, by intersect_regions, intersect_polygons and their complete versions: different edges of the result run along different edges of the operands, whatever vertices in the middle of edges the operands have.", "quantifier": "all pairs of simple convex regions and of valid convex polygons, every location of points, every order of equal events", "why_tests_cant": "the number of pieces of edges depends on the configuration of the crossings, of which there are infinitely many for every n and m", "anchors": ["clipping/planar.py: intersect_regions, intersect_polygons, complete_intersect_regions, complete_intersect_polygons", "clipping/core/utils.py: shrink_collinear_vertices", "clipping/core/holeless.py", "clipping/core/holey.py"]}
{"id": "C83", "title": "unions of convex polygons are single polygons without holes", "statement": "If two convex polygons have inner points in common (intersect_polygons is not empty) or are side by side (a common point is surrounded by points of both), then unite_polygons returns one polygon, without holes, directed counterclockwise, with exactly the points of both.", "quantifier": "all pairs of valid convex polygons, all common points surrounded by points of both, every order of equal events", "why_tests_cant": "pieces of edges must close to one contour for every configuration of the crossings and common parts of edges", "anchors": ["clipping/planar.py: unite_polygons, intersect_polygons", "clipping/core/holey.py: Union"]}
{"id": "C84", "title": "a description of the points determines the result", "statement": "Whoever can write down valid polygons in normal form, with contours which do not touch, with the points which an operation on polygons should return (up to points on edges), knows its result vertex by vertex. In particular: if an operand contains the other one, their intersection is the inner and their union the outer one; if common points are on edges only, subtraction gives the minuend back; subtracting the region of a hole cuts out exactly this hole, and uniting with it fills it.", "quantifier": "all valid polygons and multipolygons in normal form whose own contours do not touch each other, all four operations, every location of points, every order of equal events", "why_tests_cant": "results must be found for every configuration for which a description exists, starting with the same vertex and in the same order", "anchors": ["clipping/planar.py: intersect_*, subtract_*, symmetric_subtract_*, unite_* on polygons and multipolygons", "clipping/core/holey.py"]}
{"id": "C85", "title": "unions of polygons with common inner points are in one piece", "statement": "If two polygons, convex or not, with or without holes, have inner points in common (intersect_polygons is not empty) or are side by side (a common point is surrounded by points of both), then unite_polygons returns one polygon, not a multipolygon, with exactly the points of both. The same for unite_polygon_with_multipolygon, if each polygon of the multipolygon has such a point in common with the polygon.", "quantifier": "all pairs of valid polygons, all valid multipolygons, the contours of which do not touch each other, every order of equal events", "why_tests_cant": "it follows from the connectedness of the inside of arbitrary simple contours (Jordan curve theorem) and of polygons with holes", "anchors": ["clipping/planar.py: unite_polygons, unite_polygon_with_multipolygon, intersect_polygons", "clipping/core/holey.py: Union"]}
{"id": "C86", "title": "uniting never takes polygons apart", "statement": "In unite_polygons, unite_polygon_with_multipolygon and unite_multipolygons of operands with or without holes, each polygon of the result contains a whole polygon of the operands, each polygon of the operands is within one polygon of the result, and the result has at most as many polygons as both operands together. If the operands have no common points, unions and symmetric differences consist of the polygons of both operands, unchanged up to first vertex, direction and order.", "quantifier": "all valid polygons and multipolygons the contours of which do not touch each other, every order of equal events", "why_tests_cant": "it follows from the connectedness of the inside of arbitrary polygons, and from the uniqueness of polygons with given points", "anchors": ["clipping/planar.py: unite_polygons, unite_polygon_with_multipolygon, unite_multipolygons, symmetric_subtract_polygons", "clipping/core/holey.py: Union, SymmetricDifference"]}
{"id": "C87", "title": "cutting never joins polygons", "statement": "Each region of intersect_region_with_multiregion and intersect_multiregions is within one region of each operand. Each polygon of an intersection of polygons or multipolygons is within one polygon of each operand, and each polygon of a difference is within one polygon of the minuend.", "quantifier": "all valid regions and multiregions, all valid polygons and multipolygons the contours of which do not touch each other, every order of equal events", "why_tests_cant": "it follows from the connectedness of the inside of arbitrary polygons", "anchors": ["clipping/planar.py: intersect_region_with_multiregion, intersect_multiregions, intersect_polygons, intersect_multipolygons, subtract_multipolygons", "clipping/core/holeless.py: Intersection", "clipping/core/holey.py: Intersection, Difference"]}

{
 "claims": [
  {
   "property": "C01",
   "status": "proved",
   "theorems": [
    "Clipping.intersectSegments_exact"
   ],
   "note": ""
  },
  {
   "property": "C02",
   "status": "proved",
   "theorems": [
    "Clipping.subtractSegments_difference"
   ],
   "note": ""
  },
  {
   "property": "C03",
   "status": "proved",
   "theorems": [
    "Clipping.symmetricSubtractSegments_symmetricDifference"
   ],
   "note": ""
  },
  {
   "property": "C04",
   "status": "proved",
   "theorems": [
    "Clipping.uniteSegments_exact"
   ],
   "note": ""
  },
  {
   "property": "C05",
   "status": "proved",
   "theorems": [
    "Clipping.segments_results_ok"
   ],
   "note": ""
  },
  {
   "property": "C06",
   "status": "proved",
   "theorems": [
    "Clipping.segments_results_comm",
    "Clipping.segments_results_reverse"
   ],
   "note": ""
  },
  {
   "property": "C07",
   "status": "proved",
   "theorems": [
    "Clipping.intersectSegmentWithMultisegment_intersection"
   ],
   "note": ""
  },
  {
   "property": "C08",
   "status": "proved",
   "theorems": [
    "Clipping.subtractSegmentFromMultisegment_difference"
   ],
   "note": ""
  },
  {
   "property": "C09",
   "status": "proved",
   "theorems": [
    "Clipping.uniteSegmentWithMultisegment_exact"
   ],
   "note": ""
  },
  {
   "property": "C10",
   "status": "proved",
   "theorems": [
    "Clipping.multisegment_results_ok"
   ],
   "note": ""
  },
  {
   "property": "C11",
   "status": "proved",
   "theorems": [
    "Clipping.disjointWith_iff",
    "Clipping.isSubsetOf_withinOf_iff",
    "Clipping.containsPoint_coversPoint_iff",
    "Clipping.coupledWith_iff"
   ],
   "note": ""
  },
  {
   "property": "C12",
   "status": "proved",
   "theorems": [
    "Clipping.intersectsWithSegment_iff",
    "Clipping.toIntersectingSegments_spec"
   ],
   "note": ""
  },
  {
   "property": "C13",
   "status": "partial",
   "theorems": [
    "Clipping.coupledWithSegment_incomplete",
    "Clipping.coupledWithSegment_partial"
   ],
   "note": "the property is false of the code: negation proved with a concrete witness; the positive part holds when no box corner lies in the middle of the segment"
  },
  {
   "property": "C14",
   "status": "proved",
   "theorems": [
    "Clipping.sweep_terminates",
    "Clipping.multisegment_operations_return"
   ],
   "note": ""
  },
  {
   "property": "C15",
   "status": "proved",
   "theorems": [
    "Clipping.multisegment_operations_return",
    "Clipping.uniteMultisegments_raises"
   ],
   "note": ""
  },
  {
   "property": "C16",
   "status": "proved",
   "theorems": [
    "Clipping.uniteMultisegments_union"
   ],
   "note": ""
  },
  {
   "property": "C17",
   "status": "partial",
   "theorems": [
    "Clipping.intersectMultisegments_intersection_partial",
    "Clipping.intersectMultisegments_incomplete"
   ],
   "note": "the property is false of the code because of C13: negation proved with a concrete witness; the positive part holds when no segment passes a box corner with its middle"
  },
  {
   "property": "C18",
   "status": "proved",
   "theorems": [
    "Clipping.completeIntersectMultisegments_intersection",
    "Clipping.completeIntersectSegmentWithMultisegment_intersection"
   ],
   "note": ""
  },
  {
   "property": "C19",
   "status": "partial",
   "theorems": [
    "Clipping.subtractMultisegments_difference_partial",
    "Clipping.subtractMultisegmentFromSegment_difference_partial",
    "Clipping.subtractMultisegments_incomplete",
    "Clipping.subtractMultisegmentFromSegment_incomplete"
   ],
   "note": "the property is false of the code because of C13: negations proved with concrete witnesses; the positive part holds when no segment passes a box corner with its middle"
  },
  {
   "property": "C20",
   "status": "proved",
   "theorems": [
    "Clipping.symmetricSubtractMultisegments_difference",
    "Clipping.symmetricSubtractMultisegmentFromSegment_difference"
   ],
   "note": ""
  },
  {
   "property": "C21",
   "status": "proved",
   "theorems": [
    "Clipping.multisegment_operations_wellFormed",
    "Clipping.multisegment_operations_ascending"
   ],
   "note": ""
  },
  {
   "property": "C22",
   "status": "proved",
   "theorems": [
    "Clipping.sweepLine_ordered",
    "Clipping.sweepLine_tree"
   ],
   "note": ""
  },
  {
   "property": "C23",
   "status": "proved",
   "theorems": [
    "Clipping.events_ordered"
   ],
   "note": ""
  },
  {
   "property": "C24",
   "status": "proved",
   "theorems": [
    "Clipping.sweep_keeps_points"
   ],
   "note": ""
  },
  {
   "property": "C25",
   "status": "partial",
   "theorems": [
    "Clipping.segments_to_multisegment_ends",
    "Clipping.segments_to_multisegment_partial",
    "Clipping.segments_to_multisegment_invariant_partial",
    "Clipping.segments_to_multisegment_overlapping",
    "Clipping.segments_to_multisegment_crossing",
    "Clipping.segments_to_multisegment_loses",
    "Clipping.segments_to_multisegment_repeated"
   ],
   "note": "termination and soundness (nothing is added) for all segments, ties and balancings; exactness and validity when no two given segments overlap (they may cross); false with overlaps, even if the only overlap is a segment given twice (four negations, for all ties, with the textbook red-black tree): the result may overlap, cross, or lose points"
  },
  {
   "property": "C26",
   "status": "proved",
   "theorems": [
    "Clipping.multisegment_operations_invariant"
   ],
   "note": "intersection: the very same geometry; other operations: same points (their disjoint-box branches keep the directions of the inputs)"
  },
  {
   "property": "C27",
   "status": "proved",
   "theorems": [
    "Clipping.unpackSegments_canonical",
    "Clipping.unpackPoints_canonical",
    "Clipping.unpackPolygons_canonical",
    "Clipping.unpackRegions_canonical",
    "Clipping.unpackLinearMix_canonical",
    "Clipping.unpackMix_canonical",
    "Clipping.unpack_pts"
   ],
   "note": ""
  },
  {
   "property": "C28",
   "status": "proved",
   "theorems": [
    "Clipping.intersection_selects",
    "Clipping.difference_selects",
    "Clipping.symmetricDifference_selects",
    "Clipping.union_selects",
    "Clipping.regions_intersection_selects"
   ],
   "note": "of the whole sweep on valid operands, not only of the decision table"
  },
  {
   "property": "C30",
   "status": "proved",
   "theorems": [
    "Clipping.shrink_drops_collinear",
    "Clipping.shrink_keeps_contour",
    "Clipping.shrink_leaves_no_collinear"
   ],
   "note": ""
  },
  {
   "property": "C31",
   "status": "proved",
   "theorems": [
    "Clipping.contourEdges_oriented",
    "Clipping.contourOrientation_spec",
    "Clipping.polygonEdges_oriented",
    "Clipping.multipolygonEdges_oriented"
   ],
   "note": "for simple contours and valid polygons; the interior is given by the even-odd rule"
  },
  {
   "property": "C33",
   "status": "proved",
   "theorems": [
    "Clipping.uniteSegments_single_iff"
   ],
   "note": ""
  },
  {
   "property": "C34",
   "status": "proved",
   "theorems": [
    "Clipping.uniteMultisegments_edges",
    "Clipping.symmetricSubtractMultisegments_edges",
    "Clipping.intersect_subtract_edges"
   ],
   "note": ""
  },
  {
   "property": "C35",
   "status": "proved",
   "theorems": [
    "Clipping.multisegment_operations_commute"
   ],
   "note": ""
  },
  {
   "property": "C32",
   "status": "proved",
   "theorems": [
    "Clipping.intersectSegmentWithPolygon_intersection",
    "Clipping.intersectSegmentWithMultipolygon_intersection",
    "Clipping.intersectMultisegmentWithPolygon_intersection",
    "Clipping.intersectMultisegmentWithMultipolygon_intersection"
   ],
   "note": "under the documented behaviour of the library orient (OrientOk, a parameter)"
  },
  {
   "property": "C36",
   "status": "partial",
   "theorems": [
    "Clipping.intersectsWith_iff_common",
    "Clipping.coupledWithRegion_finite",
    "Clipping.coupledWithPolygon_finite_partial",
    "Clipping.coupledWithPolygon_incomplete"
   ],
   "note": "coupled_with_polygon drops a polygon when the box is a closed subset of a hole, even if the box runs along the hole's edges: false as stated for it (negation proved), true apart from points on holes; the other filters are proved in full"
  },
  {
   "property": "C37",
   "status": "proved",
   "theorems": [
    "Clipping.completeIntersectSegmentWithPolygon_intersection",
    "Clipping.completeIntersectSegmentWithMultipolygon_intersection",
    "Clipping.completeIntersectMultisegmentWithPolygon_intersection",
    "Clipping.completeIntersectMultisegmentWithMultipolygon_intersection"
   ],
   "note": "under OrientOk"
  },
  {
   "property": "C38",
   "status": "partial",
   "theorems": [
    "Clipping.subtractPolygonFromSegment_difference_partial",
    "Clipping.subtractMultipolygonFromSegment_difference_partial",
    "Clipping.subtractPolygonFromMultisegment_difference_partial",
    "Clipping.subtractMultipolygonFromMultisegment_difference_partial",
    "Clipping.subtractPolygonFromMultisegment_incomplete"
   ],
   "note": "proved when the minuend has finitely many points on holes; false without this (negation proved): a minuend whose box is within a hole is returned as it is even if it has edges of the hole"
  },
  {
   "property": "C39",
   "status": "proved",
   "theorems": [
    "Clipping.uniteSegmentWithPolygon_union",
    "Clipping.uniteSegmentWithMultipolygon_union",
    "Clipping.uniteMultisegmentWithPolygon_union",
    "Clipping.uniteMultisegmentWithMultipolygon_union",
    "Clipping.symmetricSubtractPolygonFromSegment_union",
    "Clipping.symmetricSubtractMultipolygonFromSegment_union",
    "Clipping.symmetricSubtractPolygonFromMultisegment_union",
    "Clipping.symmetricSubtractMultipolygonFromMultisegment_union"
   ],
   "note": "under OrientOk"
  },
  {
   "property": "C40",
   "status": "proved",
   "theorems": [
    "Clipping.mixed_operations_wellFormed",
    "Clipping.intersectSegmentWithPolygon_intersection",
    "Clipping.completeIntersectSegmentWithPolygon_intersection"
   ],
   "note": "intersections: LinearOk is a part of the theorems of C32 and C37"
  },
  {
   "property": "C41",
   "status": "proved",
   "theorems": [
    "Clipping.intersectPolygons_outlines",
    "Clipping.intersectPolygonWithMultipolygon_outlines",
    "Clipping.intersectMultipolygons_outlines",
    "Clipping.subtractPolygons_outlines",
    "Clipping.subtractMultipolygonFromPolygon_outlines",
    "Clipping.subtractPolygonFromMultipolygon_outlines",
    "Clipping.subtractMultipolygons_outlines",
    "Clipping.symmetricSubtractPolygons_outlines",
    "Clipping.symmetricSubtractMultipolygonFromPolygon_outlines",
    "Clipping.symmetricSubtractMultipolygons_outlines",
    "Clipping.unitePolygons_outlines",
    "Clipping.unitePolygonWithMultipolygon_outlines",
    "Clipping.uniteMultipolygons_outlines"
   ],
   "note": "under OrientOk for intersections and differences; the even-odd rule over all contours of the result"
  },
  {
   "property": "C42",
   "status": "partial",
   "theorems": [
    "Clipping.intersectPolygons_exact_partial",
    "Clipping.intersectPolygonWithMultipolygon_exact_partial",
    "Clipping.intersectMultipolygons_exact_partial",
    "Clipping.subtractPolygons_exact_partial",
    "Clipping.subtractMultipolygonFromPolygon_exact_partial",
    "Clipping.subtractPolygonFromMultipolygon_exact_partial",
    "Clipping.subtractMultipolygons_exact_partial",
    "Clipping.symmetricSubtractPolygons_exact_partial",
    "Clipping.symmetricSubtractMultipolygonFromPolygon_exact_partial",
    "Clipping.symmetricSubtractMultipolygons_exact_partial",
    "Clipping.unitePolygons_exact_partial",
    "Clipping.unitePolygonWithMultipolygon_exact_partial",
    "Clipping.uniteMultipolygons_exact_partial",
    "Clipping.symmetricSubtract_not_exact",
    "Clipping.intersectPolygons_not_exact",
    "Clipping.subtractPolygons_not_exact",
    "Clipping.symmetricSubtractPolygons_not_exact",
    "Clipping.unitePolygons_not_exact"
   ],
   "note": "proved for all operations under the hypothesis that several contours do not touch an edge in the same vertex from the right only (FewTouch / FewTouchEach): the result is valid and has exactly the points of the closure of the combination; false without it for every operation (negations proved): a hole may be attached to the wrong polygon"
  },
  {
   "property": "C43",
   "status": "proved",
   "theorems": [
    "Clipping.completeIntersectPolygons_parts",
    "Clipping.completeIntersectPolygonWithMultipolygon_parts",
    "Clipping.completeIntersectMultipolygons_parts"
   ],
   "note": "all valid operands and all orders of equal events; the shaped part is stated as the region bounded by the contours of the result (see C44 for the polygons)"
  },
  {
   "property": "C44",
   "status": "partial",
   "theorems": [
    "Clipping.completeIntersectPolygons_exact_partial",
    "Clipping.completeIntersectPolygonWithMultipolygon_exact_partial",
    "Clipping.completeIntersectMultipolygons_exact_partial",
    "Clipping.completeIntersectPolygons_not_exact"
   ],
   "note": "proved under the hypothesis that several contours do not touch an edge in the same vertex from the right only (FewTouchEach); the part without it is C43; false without it (negation proved)"
  },
  {
   "property": "C29",
   "status": "proved",
   "theorems": [
    "Clipping.regions_tracing",
    "Clipping.polygons_tracing"
   ],
   "note": "of the events selected by sweeps of valid operands; contours are compared with selected edges before collinear vertices are dropped"
  },
  {
   "property": "C45",
   "status": "proved",
   "theorems": [
    "Clipping.intersectRegions_exact",
    "Clipping.intersectRegionWithMultiregion_exact",
    "Clipping.intersectMultiregions_exact"
   ],
   "note": "under OrientOk"
  },
  {
   "property": "C46",
   "status": "proved",
   "theorems": [
    "Clipping.completeIntersectRegions_exact",
    "Clipping.completeIntersectRegionWithMultiregion_exact",
    "Clipping.completeIntersectMultiregions_exact"
   ],
   "note": "under OrientOk"
  },
  {
   "property": "C47",
   "status": "proved",
   "theorems": [
    "Clipping.intersectRegions_comm",
    "Clipping.intersectRegionWithMultiregion_comm",
    "Clipping.intersectMultiregions_comm",
    "Clipping.completeIntersectRegions_comm",
    "Clipping.completeIntersectRegionWithMultiregion_comm",
    "Clipping.completeIntersectMultiregions_comm",
    "Clipping.intersectPolygons_comm",
    "Clipping.intersectPolygonWithMultipolygon_comm",
    "Clipping.intersectMultipolygons_comm",
    "Clipping.completeIntersectPolygons_comm",
    "Clipping.completeIntersectPolygonWithMultipolygon_comm",
    "Clipping.completeIntersectMultipolygons_comm",
    "Clipping.symmetricSubtractPolygons_comm",
    "Clipping.symmetricSubtractMultipolygonFromPolygon_comm",
    "Clipping.symmetricSubtractMultipolygons_comm",
    "Clipping.unitePolygons_comm",
    "Clipping.unitePolygonWithMultipolygon_comm",
    "Clipping.uniteMultipolygons_comm",
    "Clipping.symmetricSubtractMultipolygons_form",
    "Clipping.uniteMultipolygons_form"
   ],
   "note": "proved for all valid operands, also where holes are attached to wrong polygons (C42)"
  },
  {
   "property": "C48",
   "status": "proved",
   "theorems": [
    "Clipping.intersectRegions_normal",
    "Clipping.intersectRegionWithMultiregion_normal",
    "Clipping.intersectMultiregions_normal",
    "Clipping.completeIntersectRegions_normal",
    "Clipping.completeIntersectRegionWithMultiregion_normal",
    "Clipping.completeIntersectMultiregions_normal",
    "Clipping.intersectPolygons_normal",
    "Clipping.intersectPolygonWithMultipolygon_normal",
    "Clipping.intersectMultipolygons_normal",
    "Clipping.completeIntersectPolygons_normal",
    "Clipping.completeIntersectPolygonWithMultipolygon_normal",
    "Clipping.completeIntersectMultipolygons_normal",
    "Clipping.subtractPolygons_normal",
    "Clipping.subtractMultipolygonFromPolygon_normal",
    "Clipping.subtractPolygonFromMultipolygon_normal",
    "Clipping.subtractMultipolygons_normal",
    "Clipping.symmetricSubtractPolygons_normal",
    "Clipping.symmetricSubtractMultipolygonFromPolygon_normal",
    "Clipping.symmetricSubtractMultipolygons_normal",
    "Clipping.unitePolygons_normal",
    "Clipping.unitePolygonWithMultipolygon_normal",
    "Clipping.uniteMultipolygons_normal"
   ],
   "note": "under OrientOk for intersections and differences; a difference may be the first operand as given, unions and symmetric differences of operands with disjoint boxes keep the given contours, sorted"
  },
  {
   "property": "C49",
   "status": "proved",
   "theorems": [
    "Clipping.endpoints_numbered",
    "Clipping.completeIntersectPolygons_numbered",
    "Clipping.intersectPolygons_numbered",
    "Clipping.subtractPolygons_numbered",
    "Clipping.symmetricSubtractPolygons_numbered",
    "Clipping.unitePolygons_numbered",
    "Clipping.completeIntersectPolygonWithMultipolygon_numbered",
    "Clipping.intersectPolygonWithMultipolygon_numbered",
    "Clipping.subtractMultipolygonFromPolygon_numbered",
    "Clipping.subtractPolygonFromMultipolygon_numbered",
    "Clipping.symmetricSubtractMultipolygonFromPolygon_numbered",
    "Clipping.unitePolygonWithMultipolygon_numbered",
    "Clipping.completeIntersectMultipolygons_numbered",
    "Clipping.intersectMultipolygons_numbered",
    "Clipping.subtractMultipolygons_numbered",
    "Clipping.symmetricSubtractMultipolygons_numbered",
    "Clipping.uniteMultipolygons_numbered"
   ],
   "note": "The code with numbers, assertions and the first event before the loop is Model/Numbered.lean; it gives the same results as the model with positions keyed by points."
  },
  {
   "property": "C50",
   "status": "proved",
   "theorems": [
    "Clipping.waiting_events_distinct",
    "Clipping.completeIntersectSegmentWithMultisegment_tie",
    "Clipping.subtractMultisegmentFromSegment_tie",
    "Clipping.symmetricSubtractMultisegmentFromSegment_tie",
    "Clipping.completeIntersectMultisegments_tie",
    "Clipping.intersectMultisegments_tie",
    "Clipping.subtractMultisegments_tie",
    "Clipping.symmetricSubtractMultisegments_tie",
    "Clipping.uniteMultisegments_tie",
    "Clipping.completeIntersectSegmentWithPolygon_tie",
    "Clipping.intersectSegmentWithPolygon_tie",
    "Clipping.subtractPolygonFromSegment_tie",
    "Clipping.symmetricSubtractPolygonFromSegment_tie",
    "Clipping.uniteSegmentWithPolygon_tie",
    "Clipping.completeIntersectSegmentWithMultipolygon_tie",
    "Clipping.intersectSegmentWithMultipolygon_tie",
    "Clipping.subtractMultipolygonFromSegment_tie",
    "Clipping.symmetricSubtractMultipolygonFromSegment_tie",
    "Clipping.uniteSegmentWithMultipolygon_tie",
    "Clipping.completeIntersectMultisegmentWithPolygon_tie",
    "Clipping.intersectMultisegmentWithPolygon_tie",
    "Clipping.subtractPolygonFromMultisegment_tie",
    "Clipping.symmetricSubtractPolygonFromMultisegment_tie",
    "Clipping.uniteMultisegmentWithPolygon_tie",
    "Clipping.completeIntersectMultisegmentWithMultipolygon_tie",
    "Clipping.intersectMultisegmentWithMultipolygon_tie",
    "Clipping.subtractMultipolygonFromMultisegment_tie",
    "Clipping.symmetricSubtractMultipolygonFromMultisegment_tie",
    "Clipping.uniteMultisegmentWithMultipolygon_tie",
    "Clipping.completeIntersectPolygons_tie",
    "Clipping.intersectPolygons_tie",
    "Clipping.subtractPolygons_tie",
    "Clipping.symmetricSubtractPolygons_tie",
    "Clipping.unitePolygons_tie",
    "Clipping.completeIntersectPolygonWithMultipolygon_tie",
    "Clipping.intersectPolygonWithMultipolygon_tie",
    "Clipping.subtractMultipolygonFromPolygon_tie",
    "Clipping.subtractPolygonFromMultipolygon_tie",
    "Clipping.symmetricSubtractMultipolygonFromPolygon_tie",
    "Clipping.unitePolygonWithMultipolygon_tie",
    "Clipping.completeIntersectMultipolygons_tie",
    "Clipping.intersectMultipolygons_tie",
    "Clipping.subtractMultipolygons_tie",
    "Clipping.symmetricSubtractMultipolygons_tie",
    "Clipping.uniteMultipolygons_tie",
    "Clipping.intersectRegions_tie",
    "Clipping.completeIntersectRegions_tie",
    "Clipping.intersectRegionWithMultiregion_tie",
    "Clipping.completeIntersectRegionWithMultiregion_tie",
    "Clipping.intersectMultiregions_tie",
    "Clipping.completeIntersectMultiregions_tie"
   ],
   "note": "every one of the 50 public operations"
  },
  {
   "property": "C51",
   "status": "proved",
   "theorems": [
    "Clipping.intersectPolygons_detached",
    "Clipping.intersectPolygonWithMultipolygon_detached",
    "Clipping.intersectMultipolygons_detached",
    "Clipping.subtractPolygons_detached",
    "Clipping.subtractMultipolygonFromPolygon_detached",
    "Clipping.subtractPolygonFromMultipolygon_detached",
    "Clipping.subtractMultipolygons_detached",
    "Clipping.symmetricSubtractPolygons_detached",
    "Clipping.symmetricSubtractMultipolygonFromPolygon_detached",
    "Clipping.symmetricSubtractMultipolygons_detached",
    "Clipping.unitePolygons_detached",
    "Clipping.unitePolygonWithMultipolygon_detached",
    "Clipping.uniteMultipolygons_detached",
    "Clipping.completeIntersectPolygons_detached",
    "Clipping.completeIntersectPolygonWithMultipolygon_detached",
    "Clipping.completeIntersectMultipolygons_detached"
   ],
   "note": "under OrientOk for intersections and differences"
  },
  {
   "property": "C52",
   "status": "proved",
   "theorems": [
    "Clipping.intersectPolygons_empty",
    "Clipping.intersectPolygonWithMultipolygon_empty",
    "Clipping.intersectMultipolygons_empty",
    "Clipping.intersectRegions_empty",
    "Clipping.intersectRegionWithMultiregion_empty",
    "Clipping.intersectMultiregions_empty",
    "Clipping.completeIntersectPolygons_empty",
    "Clipping.completeIntersectPolygonWithMultipolygon_empty",
    "Clipping.completeIntersectMultipolygons_empty",
    "Clipping.completeIntersectRegions_empty",
    "Clipping.completeIntersectRegionWithMultiregion_empty",
    "Clipping.completeIntersectMultiregions_empty",
    "Clipping.subtractPolygons_empty",
    "Clipping.subtractMultipolygonFromPolygon_empty",
    "Clipping.subtractPolygonFromMultipolygon_empty",
    "Clipping.subtractMultipolygons_empty",
    "Clipping.symmetricSubtractPolygons_empty",
    "Clipping.symmetricSubtractMultipolygonFromPolygon_empty",
    "Clipping.symmetricSubtractMultipolygons_empty",
    "Clipping.unitePolygons_empty",
    "Clipping.unitePolygonWithMultipolygon_empty",
    "Clipping.uniteMultipolygons_empty"
   ],
   "note": "without hypotheses on touching contours; the edges of the result outline the combination even where holes are attached to wrong polygons (C42), so emptiness is always right"
  },
  {
   "property": "C53",
   "status": "proved",
   "theorems": [
    "Clipping.intersectPolygons_corners",
    "Clipping.intersectPolygonWithMultipolygon_corners",
    "Clipping.intersectMultipolygons_corners",
    "Clipping.completeIntersectPolygons_corners",
    "Clipping.completeIntersectPolygonWithMultipolygon_corners",
    "Clipping.completeIntersectMultipolygons_corners",
    "Clipping.subtractPolygons_corners",
    "Clipping.subtractMultipolygonFromPolygon_corners",
    "Clipping.subtractPolygonFromMultipolygon_corners",
    "Clipping.subtractMultipolygons_corners",
    "Clipping.symmetricSubtractPolygons_corners",
    "Clipping.symmetricSubtractMultipolygonFromPolygon_corners",
    "Clipping.symmetricSubtractMultipolygons_corners",
    "Clipping.unitePolygons_corners",
    "Clipping.unitePolygonWithMultipolygon_corners",
    "Clipping.uniteMultipolygons_corners",
    "Clipping.intersectRegions_corners",
    "Clipping.intersectRegionWithMultiregion_corners",
    "Clipping.intersectMultiregions_corners",
    "Clipping.completeIntersectRegions_corners",
    "Clipping.completeIntersectRegionWithMultiregion_corners",
    "Clipping.completeIntersectMultiregions_corners"
   ],
   "note": "edges of a valid operand do not cross each other where none of them ends (`ValidPolygons.crossless`), so crossings are of one edge of each operand"
  },
  {
   "property": "C54",
   "status": "proved",
   "theorems": [
    "Clipping.intersectPolygons_written",
    "Clipping.intersectPolygonWithMultipolygon_written",
    "Clipping.intersectMultipolygons_written",
    "Clipping.completeIntersectPolygons_written",
    "Clipping.completeIntersectPolygonWithMultipolygon_written",
    "Clipping.completeIntersectMultipolygons_written",
    "Clipping.subtractPolygons_written",
    "Clipping.subtractMultipolygonFromPolygon_written",
    "Clipping.subtractPolygonFromMultipolygon_written",
    "Clipping.subtractMultipolygons_written",
    "Clipping.symmetricSubtractPolygons_written",
    "Clipping.symmetricSubtractMultipolygonFromPolygon_written",
    "Clipping.symmetricSubtractMultipolygons_written",
    "Clipping.unitePolygons_written",
    "Clipping.unitePolygonWithMultipolygon_written",
    "Clipping.uniteMultipolygons_written",
    "Clipping.intersectRegions_written",
    "Clipping.intersectRegionWithMultiregion_written",
    "Clipping.intersectMultiregions_written",
    "Clipping.completeIntersectRegions_written",
    "Clipping.completeIntersectRegionWithMultiregion_written",
    "Clipping.completeIntersectMultiregions_written"
   ],
   "note": "the box tests give the same answers for the same contours (`SamePolygon.coupled`), sweeps with the same edges yield the same polygons (`holeySweep_twin`); validity is needed of the operands in one writing only"
  },
  {
   "property": "C55",
   "status": "proved",
   "theorems": [
    "Clipping.expression_region",
    "Clipping.expression_points",
    "Clipping.expression_empty",
    "Clipping.expression_step",
    "Clipping.union_assoc_law",
    "Clipping.intersection_assoc_law",
    "Clipping.symmetricDifference_assoc_law",
    "Clipping.union_absorption_law",
    "Clipping.intersection_absorption_law",
    "Clipping.intersection_union_law",
    "Clipping.union_intersection_law",
    "Clipping.intersection_symmetricDifference_law",
    "Clipping.difference_union_law",
    "Clipping.difference_intersection_law",
    "Clipping.difference_difference_law",
    "Clipping.intersection_difference_law",
    "Clipping.symmetricDifference_union_law",
    "Clipping.symmetricDifference_difference_law",
    "Clipping.symmetricDifference_cancel_law",
    "Clipping.union_self_law",
    "Clipping.intersection_self_law",
    "Clipping.partition_law",
    "Clipping.difference_intersection_empty",
    "Clipping.difference_self_empty"
   ],
   "note": "results used as operands have to be valid; results which are not used as operands need not be valid for the equality of the regions their contours surround"
  },
  {
   "property": "C56",
   "status": "proved",
   "theorems": [
    "Clipping.polygons_unique",
    "Clipping.polygons_equal",
    "Clipping.results_equal",
    "Clipping.expression_equal",
    "Clipping.self_equal",
    "Clipping.union_absorption_equal",
    "Clipping.intersection_absorption_equal",
    "Clipping.difference_union_intersection_equal",
    "Clipping.symmetricDifference_twice_equal",
    "Clipping.union_difference_intersection_equal"
   ],
   "note": "for polygons whose contours touch each other the same points can be written in several ways; validity of results is a hypothesis where C51 does not give it"
  },
  {
   "property": "C57",
   "status": "proved",
   "theorems": [
    "Clipping.expression_affine",
    "Clipping.expression_affine_points",
    "Clipping.expression_affine_same",
    "Clipping.expression_affine_equal",
    "Clipping.operation_affine",
    "Clipping.operation_affine_points",
    "Clipping.operation_affine_equal",
    "Clipping.completeIntersectPolygons_affine",
    "Clipping.completeIntersectPolygonWithMultipolygon_affine",
    "Clipping.completeIntersectMultipolygons_affine",
    "Clipping.intersectRegions_affine",
    "Clipping.intersectRegionWithMultiregion_affine",
    "Clipping.intersectMultiregions_affine",
    "Clipping.completeIntersectRegions_affine",
    "Clipping.completeIntersectRegionWithMultiregion_affine",
    "Clipping.completeIntersectMultiregions_affine"
   ],
   "note": "the equality vertex by vertex needs operands in normal form whose contours do not touch, and the same of the result"
  },
  {
   "property": "C58",
   "status": "proved",
   "theorems": [
    "Clipping.intersectSegments_affine",
    "Clipping.subtractSegments_affine",
    "Clipping.symmetricSubtractSegments_affine",
    "Clipping.uniteSegments_affine",
    "Clipping.intersectSegmentWithMultisegment_affine",
    "Clipping.subtractSegmentFromMultisegment_affine",
    "Clipping.uniteSegmentWithMultisegment_affine",
    "Clipping.completeIntersectSegmentWithMultisegment_affine",
    "Clipping.symmetricSubtractMultisegmentFromSegment_affine",
    "Clipping.completeIntersectMultisegments_affine",
    "Clipping.symmetricSubtractMultisegments_affine",
    "Clipping.uniteMultisegments_affine",
    "Clipping.intersectSegmentWithPolygon_affine",
    "Clipping.completeIntersectSegmentWithPolygon_affine",
    "Clipping.uniteSegmentWithPolygon_affine",
    "Clipping.symmetricSubtractPolygonFromSegment_affine",
    "Clipping.intersectSegmentWithMultipolygon_affine",
    "Clipping.completeIntersectSegmentWithMultipolygon_affine",
    "Clipping.uniteSegmentWithMultipolygon_affine",
    "Clipping.symmetricSubtractMultipolygonFromSegment_affine",
    "Clipping.intersectMultisegmentWithPolygon_affine",
    "Clipping.completeIntersectMultisegmentWithPolygon_affine",
    "Clipping.uniteMultisegmentWithPolygon_affine",
    "Clipping.symmetricSubtractPolygonFromMultisegment_affine",
    "Clipping.intersectMultisegmentWithMultipolygon_affine",
    "Clipping.completeIntersectMultisegmentWithMultipolygon_affine",
    "Clipping.uniteMultisegmentWithMultipolygon_affine",
    "Clipping.symmetricSubtractMultipolygonFromMultisegment_affine"
   ],
   "note": ""
  },
  {
   "property": "C59",
   "status": "partial",
   "theorems": [
    "Clipping.intersectMultisegments_affine_partial",
    "Clipping.subtractMultisegments_affine_partial",
    "Clipping.subtractMultisegmentFromSegment_affine_partial",
    "Clipping.subtractPolygonFromSegment_affine_partial",
    "Clipping.subtractMultipolygonFromSegment_affine_partial",
    "Clipping.subtractPolygonFromMultisegment_affine_partial",
    "Clipping.subtractMultipolygonFromMultisegment_affine_partial",
    "Clipping.intersectMultisegments_not_affine",
    "Clipping.subtractMultisegments_not_affine",
    "Clipping.subtractMultisegmentFromSegment_not_affine"
   ],
   "note": "false of the code (negations proved): coupled_with_segment misses segments through corners of the box (C13), so that results on images under a shear differ; proved if no segment has a corner of the box of the other operand inside, and for polygons if the linear operand has finitely many points on holes"
  },
  {
   "property": "C60",
   "status": "proved",
   "theorems": [
    "Clipping.intersectSegmentWithMultisegment_points",
    "Clipping.subtractSegmentFromMultisegment_points",
    "Clipping.uniteSegmentWithMultisegment_points",
    "Clipping.completeIntersectSegmentWithMultisegment_points",
    "Clipping.symmetricSubtractMultisegmentFromSegment_points",
    "Clipping.completeIntersectMultisegments_points",
    "Clipping.symmetricSubtractMultisegments_points",
    "Clipping.uniteMultisegments_points",
    "Clipping.intersectSegmentWithPolygon_points",
    "Clipping.completeIntersectSegmentWithPolygon_points",
    "Clipping.uniteSegmentWithPolygon_points",
    "Clipping.symmetricSubtractPolygonFromSegment_points",
    "Clipping.intersectSegmentWithMultipolygon_points",
    "Clipping.completeIntersectSegmentWithMultipolygon_points",
    "Clipping.uniteSegmentWithMultipolygon_points",
    "Clipping.symmetricSubtractMultipolygonFromSegment_points",
    "Clipping.intersectMultisegmentWithPolygon_points",
    "Clipping.completeIntersectMultisegmentWithPolygon_points",
    "Clipping.uniteMultisegmentWithPolygon_points",
    "Clipping.symmetricSubtractPolygonFromMultisegment_points",
    "Clipping.intersectMultisegmentWithMultipolygon_points",
    "Clipping.completeIntersectMultisegmentWithMultipolygon_points",
    "Clipping.uniteMultisegmentWithMultipolygon_points",
    "Clipping.symmetricSubtractMultipolygonFromMultisegment_points",
    "Clipping.intersectMultisegments_not_points"
   ],
   "note": ""
  },
  {
   "property": "C61",
   "status": "proved",
   "theorems": [
    "Clipping.intersectSegments_empty",
    "Clipping.subtractSegments_empty",
    "Clipping.symmetricSubtractSegments_empty",
    "Clipping.uniteSegments_empty",
    "Clipping.intersectSegmentWithMultisegment_empty",
    "Clipping.subtractSegmentFromMultisegment_empty",
    "Clipping.uniteSegmentWithMultisegment_empty",
    "Clipping.completeIntersectSegmentWithMultisegment_empty",
    "Clipping.subtractMultisegmentFromSegment_subset_of_empty",
    "Clipping.symmetricSubtractMultisegmentFromSegment_empty",
    "Clipping.completeIntersectMultisegments_empty",
    "Clipping.intersectMultisegments_empty_of_finite",
    "Clipping.subtractMultisegments_subset_of_empty",
    "Clipping.symmetricSubtractMultisegments_empty",
    "Clipping.uniteMultisegments_empty",
    "Clipping.intersectSegmentWithPolygon_empty",
    "Clipping.completeIntersectSegmentWithPolygon_empty",
    "Clipping.subtractPolygonFromSegment_subset_of_empty",
    "Clipping.uniteSegmentWithPolygon_empty",
    "Clipping.symmetricSubtractPolygonFromSegment_empty",
    "Clipping.intersectSegmentWithMultipolygon_empty",
    "Clipping.completeIntersectSegmentWithMultipolygon_empty",
    "Clipping.subtractMultipolygonFromSegment_subset_of_empty",
    "Clipping.uniteSegmentWithMultipolygon_empty",
    "Clipping.symmetricSubtractMultipolygonFromSegment_empty",
    "Clipping.intersectMultisegmentWithPolygon_empty",
    "Clipping.completeIntersectMultisegmentWithPolygon_empty",
    "Clipping.subtractPolygonFromMultisegment_subset_of_empty",
    "Clipping.uniteMultisegmentWithPolygon_empty",
    "Clipping.symmetricSubtractPolygonFromMultisegment_empty",
    "Clipping.intersectMultisegmentWithMultipolygon_empty",
    "Clipping.completeIntersectMultisegmentWithMultipolygon_empty",
    "Clipping.subtractMultipolygonFromMultisegment_subset_of_empty",
    "Clipping.uniteMultisegmentWithMultipolygon_empty",
    "Clipping.symmetricSubtractMultipolygonFromMultisegment_empty",
    "Clipping.subtractMultisegmentFromSegment_not_empty",
    "Clipping.intersectMultisegments_not_empty"
   ],
   "note": "where only one direction is claimed the other one is false of the code, see the last two theorems"
  },
  {
   "property": "C62",
   "status": "proved",
   "theorems": [
    "Clipping.linearExpression_formula",
    "Clipping.linearExpression_points",
    "Clipping.linearExpression_empty",
    "Clipping.linearExpression_written",
    "Clipping.linearExpression_affine",
    "Clipping.linearExpression_step",
    "Clipping.linear_union_assoc",
    "Clipping.linear_symmetricDifference_assoc",
    "Clipping.linear_symmetricDifference_cancel",
    "Clipping.linear_partition",
    "Clipping.linear_symmetricDifference_union",
    "Clipping.within_union",
    "Clipping.within_symmetricDifference",
    "Clipping.within_outside_partition"
   ],
   "note": ""
  },
  {
   "property": "C63",
   "status": "proved",
   "theorems": [
    "Clipping.expression_area",
    "Clipping.expression_area_eq",
    "Clipping.area_union_intersection",
    "Clipping.area_difference_intersection",
    "Clipping.area_symmetricDifference",
    "Clipping.area_three",
    "Clipping.area_mono",
    "Clipping.area_written",
    "Clipping.area_pos",
    "Clipping.area_disjoint",
    "Clipping.area_contained",
    "Clipping.area_detached",
    "Clipping.area_affine",
    "Clipping.area_regions",
    "Clipping.area_of_points",
    "Clipping.area_complete",
    "Clipping.area_multiregions"
   ],
   "note": ""
  },
  {
   "property": "C64",
   "status": "proved",
   "theorems": [
    "Clipping.linearExpression_length",
    "Clipping.linearExpression_length_eq",
    "Clipping.length_union_intersection",
    "Clipping.length_difference_intersection",
    "Clipping.length_union_symmetricDifference",
    "Clipping.length_union",
    "Clipping.length_within_outside",
    "Clipping.length_within",
    "Clipping.length_mono",
    "Clipping.length_written",
    "Clipping.length_pos",
    "Clipping.length_disjoint",
    "Clipping.length_contained"
   ],
   "note": ""
  },
  {
   "property": "C65",
   "status": "proved",
   "theorems": [
    "Clipping.call_sides",
    "Clipping.complete_sides",
    "Clipping.call_area",
    "Clipping.area_always",
    "Clipping.area_empty_always",
    "Clipping.call_area_written",
    "Clipping.call_area_mono",
    "Clipping.difference_area_mono",
    "Clipping.complete_area",
    "Clipping.complete_area_polygons",
    "Clipping.complete_area_polygon_multipolygon",
    "Clipping.multiregions_area"
   ],
   "note": ""
  },
  {
   "property": "C66",
   "status": "proved",
   "theorems": [
    "Clipping.nested_step",
    "Clipping.additive_evaluates",
    "Clipping.nested_drawn",
    "Clipping.nested_edges",
    "Clipping.nested_inside",
    "Clipping.nested_region",
    "Clipping.nested_empty",
    "Clipping.nested_area",
    "Clipping.union_assoc_always",
    "Clipping.symmetricDifference_assoc_always",
    "Clipping.symmetricDifference_twice_always",
    "Clipping.difference_twice_always"
   ],
   "note": ""
  },
  {
   "property": "C67",
   "status": "partial",
   "theorems": [
    "Clipping.nested_operand_partial",
    "Clipping.nested_intersection_wrong",
    "Clipping.nested_difference_wrong"
   ],
   "note": "the code violates the property: intersections with, and differences from, results with a hole at the wrong polygon are wrong (two negations with concrete operands); proved for valid results"
  },
  {
   "property": "C68",
   "status": "proved",
   "theorems": [
    "Clipping.union_fold",
    "Clipping.difference_fold",
    "Clipping.symmetricDifference_fold",
    "Clipping.union_fold_perm",
    "Clipping.difference_fold_perm",
    "Clipping.symmetricDifference_fold_perm",
    "Clipping.union_tree"
   ],
   "note": ""
  },
  {
   "property": "C69",
   "status": "proved",
   "theorems": [
    "Clipping.nested_affine",
    "Clipping.operation_affine_area",
    "Clipping.union_fold_affine"
   ],
   "note": ""
  },
  {
   "property": "C70",
   "status": "proved",
   "theorems": [
    "Clipping.Objects.call_keeps_lists",
    "Clipping.Objects.call_returns_value",
    "Clipping.Objects.call_fails_iff",
    "Clipping.Objects.call_shares",
    "Clipping.Objects.history_keeps_lists",
    "Clipping.Objects.history_results",
    "Clipping.Objects.history_repeated"
   ],
   "note": ""
  },
  {
   "property": "C71",
   "status": "proved",
   "theorems": [
    "Clipping.multisegment_operations_size",
    "Clipping.segments_to_multisegment_size",
    "Clipping.contacts_le_square",
    "Clipping.intersectPolygons_size",
    "Clipping.intersectPolygonWithMultipolygon_size",
    "Clipping.intersectMultipolygons_size",
    "Clipping.completeIntersectPolygons_size",
    "Clipping.completeIntersectPolygonWithMultipolygon_size",
    "Clipping.completeIntersectMultipolygons_size",
    "Clipping.subtractPolygons_size",
    "Clipping.subtractMultipolygonFromPolygon_size",
    "Clipping.subtractPolygonFromMultipolygon_size",
    "Clipping.subtractMultipolygons_size",
    "Clipping.symmetricSubtractPolygons_size",
    "Clipping.symmetricSubtractMultipolygonFromPolygon_size",
    "Clipping.symmetricSubtractMultipolygons_size",
    "Clipping.unitePolygons_size",
    "Clipping.unitePolygonWithMultipolygon_size",
    "Clipping.uniteMultipolygons_size",
    "Clipping.intersectRegions_size",
    "Clipping.intersectRegionWithMultiregion_size",
    "Clipping.intersectMultiregions_size",
    "Clipping.completeIntersectRegions_size",
    "Clipping.completeIntersectRegionWithMultiregion_size",
    "Clipping.completeIntersectMultiregions_size"
   ],
   "note": ""
  },
  {
   "property": "C72",
   "status": "proved",
   "theorems": [
    "Clipping.linear_sweep_steps",
    "Clipping.sweep_steps",
    "Clipping.mixed_sweep_steps",
    "Clipping.holey_sweep_steps",
    "Clipping.holeless_sweep_steps"
   ],
   "note": ""
  },
  {
   "property": "C73",
   "status": "proved",
   "theorems": [
    "Clipping.segment_with_polygon_cut",
    "Clipping.segment_with_multipolygon_cut",
    "Clipping.multisegment_with_polygon_cut",
    "Clipping.multisegment_with_multipolygon_cut"
   ],
   "note": ""
  },
  {
   "property": "C74",
   "status": "proved",
   "theorems": [
    "Clipping.sweep_any_tree",
    "Clipping.linear_any_tree",
    "Clipping.multisegments_any_tree"
   ],
   "note": ""
  },
  {
   "property": "C75",
   "status": "proved",
   "theorems": [
    "Clipping.sweep_ends_always",
    "Clipping.sweep_raises_only_overlaps",
    "Clipping.unite_any_multisegments",
    "Clipping.symmetric_subtract_any_multisegments",
    "Clipping.subtract_any_multisegments",
    "Clipping.intersect_any_multisegments",
    "Clipping.complete_intersect_any_multisegments",
    "Clipping.subtract_duplicates_keeps"
   ],
   "note": ""
  },
  {
   "property": "C76",
   "status": "proved",
   "theorems": [
    "Clipping.mixed_any_tree",
    "Clipping.subtract_any_polygons",
    "Clipping.unite_any_polygons",
    "Clipping.intersect_any_polygons",
    "Clipping.complete_intersect_any_polygons"
   ],
   "note": ""
  },
  {
   "property": "C77",
   "status": "proved",
   "theorems": [
    "Clipping.subtract_any_shaped",
    "Clipping.symmetric_subtract_any_shaped",
    "Clipping.unite_any_shaped",
    "Clipping.intersect_any_shaped",
    "Clipping.complete_intersect_any_shaped",
    "Clipping.intersect_any_regions",
    "Clipping.complete_intersect_any_regions",
    "Clipping.complete_intersect_any_raises"
   ],
   "note": ""
  },
  {
   "property": "C78",
   "status": "proved",
   "theorems": [
    "Clipping.multipolygons_any_tree",
    "Clipping.polygons_any_tree",
    "Clipping.polygon_multipolygon_any_tree",
    "Clipping.regions_any_tree"
   ],
   "note": ""
  },
  {
   "property": "C79",
   "status": "proved",
   "theorems": [
    "Clipping.nested_perimeter",
    "Clipping.nested_perimeter_eq",
    "Clipping.nested_perimeter_congr",
    "Clipping.nested_perimeter_le",
    "Clipping.perimeter_union_intersection",
    "Clipping.perimeter_differences",
    "Clipping.perimeter_symmetricDifference",
    "Clipping.perimeter_all",
    "Clipping.perimeter_crossing",
    "Clipping.perimeter_written",
    "Clipping.perimeter_pos"
   ],
   "note": ""
  },
  {
   "property": "C80",
   "status": "proved",
   "theorems": [
    "Clipping.intersectRegions_convex",
    "Clipping.intersectPolygons_convex",
    "Clipping.completeIntersectRegions_convex",
    "Clipping.completeIntersectPolygons_convex",
    "Clipping.completeIntersectSegmentWithPolygon_convex"
   ],
   "note": ""
  },
  {
   "property": "C81",
   "status": "proved",
   "theorems": [
    "Clipping.polygon_operations_kind",
    "Clipping.region_operations_kind",
    "Clipping.complete_operations_kind",
    "Clipping.mixed_operations_kind",
    "Clipping.mixed_complete_kind",
    "Clipping.mixed_union_kind",
    "Clipping.multisegment_operations_kind",
    "Clipping.multisegment_complete_kind",
    "Clipping.uniteMultisegments_kind",
    "Clipping.segment_operations_kind"
   ],
   "note": ""
  },
  {
   "property": "C82",
   "status": "proved",
   "theorems": [
    "Clipping.intersectRegions_convexCount",
    "Clipping.completeIntersectRegions_convexCount",
    "Clipping.intersectPolygons_convexCount",
    "Clipping.completeIntersectPolygons_convexCount"
   ],
   "note": ""
  },
  {
   "property": "C83",
   "status": "proved",
   "theorems": [
    "Clipping.unitePolygons_convex",
    "Clipping.unitePolygons_convex_of_intersect"
   ],
   "note": ""
  },
  {
   "property": "C84",
   "status": "proved",
   "theorems": [
    "Clipping.result_determined",
    "Clipping.nested_equal",
    "Clipping.apart_equal",
    "Clipping.subtractPolygons_cut",
    "Clipping.unitePolygons_fill"
   ],
   "note": ""
  },
  {
   "property": "C85",
   "status": "proved",
   "theorems": [
    "Clipping.unitePolygons_single",
    "Clipping.unitePolygons_single_of_intersect",
    "Clipping.unitePolygonWithMultipolygon_single"
   ],
   "note": ""
  },
  {
   "property": "C86",
   "status": "proved",
   "theorems": [
    "Clipping.unitePolygons_gathers",
    "Clipping.unitePolygonWithMultipolygon_gathers",
    "Clipping.uniteMultipolygons_gathers",
    "Clipping.disjoint_same"
   ],
   "note": ""
  },
  {
   "property": "C87",
   "status": "proved",
   "theorems": [
    "Clipping.intersection_within",
    "Clipping.difference_within",
    "Clipping.intersectRegionWithMultiregion_within",
    "Clipping.intersectMultiregions_within"
   ],
   "note": ""
  }
 ]
}
import Verif.Lemmas.Shaped.WrittenResult
import Verif.Properties.Determinism

/-!
# C54: results do not depend on how the operands are written

A contour may be written from any of its vertices and in any direction, the holes of a polygon and the polygons or regions of a
collection in any order (`SamePolygon`, `SamePolygons`, `SameRegions`, `Spec/Written.lean`).  Intersections and complete intersections
are equal, vertex by vertex.  The others are equal unless they return operands as they are: then they return the operands as they
are written.  `tb` and `tb'` are two ways in which the priority queue may order events of which none precedes the other one.
-/

namespace Clipping

theorem SamePolygon.single {p p' : Polygon} (h : SamePolygon p p') : SamePolygons [p] [p'] := ⟨[p'], .cons h .nil, .refl _⟩

theorem SameContour.single {c c' : Contour} (h : SameContour c c') : SameRegions [c] [c'] := ⟨[c'], .cons h .nil, .refl _⟩

/-! ## Polygons -/

/-- **C54** `intersect_polygons` -/
theorem intersectPolygons_written {o : Orient} (ok : OrientOk o) (tb tb' : TieBreak) {a a' : Polygon} {b b' : Polygon}
    (va : ValidPolygon a) (sa : SamePolygon a a')
    (vb : ValidPolygon b) (sb : SamePolygon b b') :
    intersectPolygons o tb a b = intersectPolygons o tb' a' b' :=
  holeyIntersection_written (polygonOperand_ok va) (polygonOperand_ok vb) (polygonOperand_ok (sa.valid va)) (polygonOperand_ok (sb.valid vb))
    sa.single sb.single ok tb tb'

/-- **C54** `intersect_polygon_with_multipolygon` -/
theorem intersectPolygonWithMultipolygon_written {o : Orient} (ok : OrientOk o) (tb tb' : TieBreak) {a a' : Polygon} {b b' : List Polygon}
    (va : ValidPolygon a) (sa : SamePolygon a a')
    (nb : b ≠ []) (vb : ValidPolygons b) (sb : SamePolygons b b') :
    intersectPolygonWithMultipolygon o tb a b = intersectPolygonWithMultipolygon o tb' a' b' :=
  holeyIntersection_written (polygonOperand_ok va) (multipolygonOperand_ok nb vb) (polygonOperand_ok (sa.valid va)) (multipolygonOperand_ok (Matched.ne sb nb) (sb.valid vb))
    sa.single sb ok tb tb'

/-- **C54** `intersect_multipolygons` -/
theorem intersectMultipolygons_written {o : Orient} (ok : OrientOk o) (tb tb' : TieBreak) {a a' : List Polygon} {b b' : List Polygon}
    (na : a ≠ []) (va : ValidPolygons a) (sa : SamePolygons a a')
    (nb : b ≠ []) (vb : ValidPolygons b) (sb : SamePolygons b b') :
    intersectMultipolygons o tb a b = intersectMultipolygons o tb' a' b' :=
  holeyIntersection_written (multipolygonOperand_ok na va) (multipolygonOperand_ok nb vb) (multipolygonOperand_ok (Matched.ne sa na) (sa.valid va)) (multipolygonOperand_ok (Matched.ne sb nb) (sb.valid vb))
    sa sb ok tb tb'

/-- **C54** `complete_intersect_polygons` -/
theorem completeIntersectPolygons_written {o : Orient} (ok : OrientOk o) (tb tb' : TieBreak) {a a' : Polygon} {b b' : Polygon}
    (va : ValidPolygon a) (sa : SamePolygon a a')
    (vb : ValidPolygon b) (sb : SamePolygon b b') :
    completeIntersectPolygons o tb a b = completeIntersectPolygons o tb' a' b' :=
  holeyCompleteIntersection_written (polygonOperand_ok va) (polygonOperand_ok vb) (polygonOperand_ok (sa.valid va)) (polygonOperand_ok (sb.valid vb))
    sa.single sb.single ok tb tb'

/-- **C54** `complete_intersect_polygon_with_multipolygon` -/
theorem completeIntersectPolygonWithMultipolygon_written {o : Orient} (ok : OrientOk o) (tb tb' : TieBreak) {a a' : Polygon} {b b' : List Polygon}
    (va : ValidPolygon a) (sa : SamePolygon a a')
    (nb : b ≠ []) (vb : ValidPolygons b) (sb : SamePolygons b b') :
    completeIntersectPolygonWithMultipolygon o tb a b = completeIntersectPolygonWithMultipolygon o tb' a' b' :=
  holeyCompleteIntersection_written (polygonOperand_ok va) (multipolygonOperand_ok nb vb) (polygonOperand_ok (sa.valid va)) (multipolygonOperand_ok (Matched.ne sb nb) (sb.valid vb))
    sa.single sb ok tb tb'

/-- **C54** `complete_intersect_multipolygons` -/
theorem completeIntersectMultipolygons_written {o : Orient} (ok : OrientOk o) (tb tb' : TieBreak) {a a' : List Polygon} {b b' : List Polygon}
    (na : a ≠ []) (va : ValidPolygons a) (sa : SamePolygons a a')
    (nb : b ≠ []) (vb : ValidPolygons b) (sb : SamePolygons b b') :
    completeIntersectMultipolygons o tb a b = completeIntersectMultipolygons o tb' a' b' :=
  holeyCompleteIntersection_written (multipolygonOperand_ok na va) (multipolygonOperand_ok nb vb) (multipolygonOperand_ok (Matched.ne sa na) (sa.valid va)) (multipolygonOperand_ok (Matched.ne sb nb) (sb.valid vb))
    sa sb ok tb tb'

/-- **C54** `subtract_polygons` -/
theorem subtractPolygons_written {o : Orient} (ok : OrientOk o) (tb tb' : TieBreak) {a a' : Polygon} {b b' : Polygon}
    (va : ValidPolygon a) (sa : SamePolygon a a')
    (vb : ValidPolygon b) (sb : SamePolygon b b') :
    subtractPolygons o tb a b = subtractPolygons o tb' a' b' ∨
      subtractPolygons o tb a b = .ok (.polygon a) ∧ subtractPolygons o tb' a' b' = .ok (.polygon a') :=
  holeyDifference_written (polygonOperand_ok va) (polygonOperand_ok vb) (polygonOperand_ok (sa.valid va)) (polygonOperand_ok (sb.valid vb))
    sa.single sb.single ok tb tb'

/-- **C54** `subtract_multipolygon_from_polygon` -/
theorem subtractMultipolygonFromPolygon_written {o : Orient} (ok : OrientOk o) (tb tb' : TieBreak) {a a' : Polygon} {b b' : List Polygon}
    (va : ValidPolygon a) (sa : SamePolygon a a')
    (nb : b ≠ []) (vb : ValidPolygons b) (sb : SamePolygons b b') :
    subtractMultipolygonFromPolygon o tb a b = subtractMultipolygonFromPolygon o tb' a' b' ∨
      subtractMultipolygonFromPolygon o tb a b = .ok (.polygon a) ∧ subtractMultipolygonFromPolygon o tb' a' b' = .ok (.polygon a') :=
  holeyDifference_written (polygonOperand_ok va) (multipolygonOperand_ok nb vb) (polygonOperand_ok (sa.valid va)) (multipolygonOperand_ok (Matched.ne sb nb) (sb.valid vb))
    sa.single sb ok tb tb'

/-- **C54** `subtract_polygon_from_multipolygon` -/
theorem subtractPolygonFromMultipolygon_written {o : Orient} (ok : OrientOk o) (tb tb' : TieBreak) {a a' : List Polygon} {b b' : Polygon}
    (na : a ≠ []) (va : ValidPolygons a) (sa : SamePolygons a a')
    (vb : ValidPolygon b) (sb : SamePolygon b b') :
    subtractPolygonFromMultipolygon o tb a b = subtractPolygonFromMultipolygon o tb' a' b' ∨
      subtractPolygonFromMultipolygon o tb a b = .ok (.multipolygon a) ∧ subtractPolygonFromMultipolygon o tb' a' b' = .ok (.multipolygon a') :=
  holeyDifference_written (multipolygonOperand_ok na va) (polygonOperand_ok vb) (multipolygonOperand_ok (Matched.ne sa na) (sa.valid va)) (polygonOperand_ok (sb.valid vb))
    sa sb.single ok tb tb'

/-- **C54** `subtract_multipolygons` -/
theorem subtractMultipolygons_written {o : Orient} (ok : OrientOk o) (tb tb' : TieBreak) {a a' : List Polygon} {b b' : List Polygon}
    (na : a ≠ []) (va : ValidPolygons a) (sa : SamePolygons a a')
    (nb : b ≠ []) (vb : ValidPolygons b) (sb : SamePolygons b b') :
    subtractMultipolygons o tb a b = subtractMultipolygons o tb' a' b' ∨
      subtractMultipolygons o tb a b = .ok (.multipolygon a) ∧ subtractMultipolygons o tb' a' b' = .ok (.multipolygon a') :=
  holeyDifference_written (multipolygonOperand_ok na va) (multipolygonOperand_ok nb vb) (multipolygonOperand_ok (Matched.ne sa na) (sa.valid va)) (multipolygonOperand_ok (Matched.ne sb nb) (sb.valid vb))
    sa sb ok tb tb'

/-- **C54** `symmetric_subtract_polygons` -/
theorem symmetricSubtractPolygons_written (tb tb' : TieBreak) {a a' : Polygon} {b b' : Polygon}
    (va : ValidPolygon a) (sa : SamePolygon a a')
    (vb : ValidPolygon b) (sb : SamePolygon b b') :
    symmetricSubtractPolygons tb a b = symmetricSubtractPolygons tb' a' b' ∨
      ∃ ps ps', symmetricSubtractPolygons tb a b = .ok (.multipolygon ps) ∧
        symmetricSubtractPolygons tb' a' b' = .ok (.multipolygon ps') ∧ SamePolygons ps ps' :=
  holeySymmetricDifference_written (polygonOperand_ok va) (polygonOperand_ok vb) (polygonOperand_ok (sa.valid va)) (polygonOperand_ok (sb.valid vb))
    sa.single sb.single tb tb'

/-- **C54** `symmetric_subtract_multipolygon_from_polygon` -/
theorem symmetricSubtractMultipolygonFromPolygon_written (tb tb' : TieBreak) {a a' : Polygon} {b b' : List Polygon}
    (va : ValidPolygon a) (sa : SamePolygon a a')
    (nb : b ≠ []) (vb : ValidPolygons b) (sb : SamePolygons b b') :
    symmetricSubtractMultipolygonFromPolygon tb a b = symmetricSubtractMultipolygonFromPolygon tb' a' b' ∨
      ∃ ps ps', symmetricSubtractMultipolygonFromPolygon tb a b = .ok (.multipolygon ps) ∧
        symmetricSubtractMultipolygonFromPolygon tb' a' b' = .ok (.multipolygon ps') ∧ SamePolygons ps ps' :=
  holeySymmetricDifference_written (polygonOperand_ok va) (multipolygonOperand_ok nb vb) (polygonOperand_ok (sa.valid va)) (multipolygonOperand_ok (Matched.ne sb nb) (sb.valid vb))
    sa.single sb tb tb'

/-- **C54** `symmetric_subtract_multipolygons` -/
theorem symmetricSubtractMultipolygons_written (tb tb' : TieBreak) {a a' : List Polygon} {b b' : List Polygon}
    (na : a ≠ []) (va : ValidPolygons a) (sa : SamePolygons a a')
    (nb : b ≠ []) (vb : ValidPolygons b) (sb : SamePolygons b b') :
    symmetricSubtractMultipolygons tb a b = symmetricSubtractMultipolygons tb' a' b' ∨
      ∃ ps ps', symmetricSubtractMultipolygons tb a b = .ok (.multipolygon ps) ∧
        symmetricSubtractMultipolygons tb' a' b' = .ok (.multipolygon ps') ∧ SamePolygons ps ps' :=
  holeySymmetricDifference_written (multipolygonOperand_ok na va) (multipolygonOperand_ok nb vb) (multipolygonOperand_ok (Matched.ne sa na) (sa.valid va)) (multipolygonOperand_ok (Matched.ne sb nb) (sb.valid vb))
    sa sb tb tb'

/-- **C54** `unite_polygons` -/
theorem unitePolygons_written (tb tb' : TieBreak) {a a' : Polygon} {b b' : Polygon}
    (va : ValidPolygon a) (sa : SamePolygon a a')
    (vb : ValidPolygon b) (sb : SamePolygon b b') :
    unitePolygons tb a b = unitePolygons tb' a' b' ∨
      ∃ ps ps', unitePolygons tb a b = .ok (.multipolygon ps) ∧
        unitePolygons tb' a' b' = .ok (.multipolygon ps') ∧ SamePolygons ps ps' :=
  holeyUnion_written (polygonOperand_ok va) (polygonOperand_ok vb) (polygonOperand_ok (sa.valid va)) (polygonOperand_ok (sb.valid vb))
    sa.single sb.single tb tb'

/-- **C54** `unite_polygon_with_multipolygon` -/
theorem unitePolygonWithMultipolygon_written (tb tb' : TieBreak) {a a' : Polygon} {b b' : List Polygon}
    (va : ValidPolygon a) (sa : SamePolygon a a')
    (nb : b ≠ []) (vb : ValidPolygons b) (sb : SamePolygons b b') :
    unitePolygonWithMultipolygon tb a b = unitePolygonWithMultipolygon tb' a' b' ∨
      ∃ ps ps', unitePolygonWithMultipolygon tb a b = .ok (.multipolygon ps) ∧
        unitePolygonWithMultipolygon tb' a' b' = .ok (.multipolygon ps') ∧ SamePolygons ps ps' :=
  holeyUnion_written (polygonOperand_ok va) (multipolygonOperand_ok nb vb) (polygonOperand_ok (sa.valid va)) (multipolygonOperand_ok (Matched.ne sb nb) (sb.valid vb))
    sa.single sb tb tb'

/-- **C54** `unite_multipolygons` -/
theorem uniteMultipolygons_written (tb tb' : TieBreak) {a a' : List Polygon} {b b' : List Polygon}
    (na : a ≠ []) (va : ValidPolygons a) (sa : SamePolygons a a')
    (nb : b ≠ []) (vb : ValidPolygons b) (sb : SamePolygons b b') :
    uniteMultipolygons tb a b = uniteMultipolygons tb' a' b' ∨
      ∃ ps ps', uniteMultipolygons tb a b = .ok (.multipolygon ps) ∧
        uniteMultipolygons tb' a' b' = .ok (.multipolygon ps') ∧ SamePolygons ps ps' :=
  holeyUnion_written (multipolygonOperand_ok na va) (multipolygonOperand_ok nb vb) (multipolygonOperand_ok (Matched.ne sa na) (sa.valid va)) (multipolygonOperand_ok (Matched.ne sb nb) (sb.valid vb))
    sa sb tb tb'

/-! ## Regions -/

/-- **C54** `intersect_regions` -/
theorem intersectRegions_written {o : Orient} (ok : OrientOk o) (tb tb' : TieBreak) {a a' : Contour} {b b' : Contour}
    (va : SimpleContour a) (sa : SameContour a a')
    (vb : SimpleContour b) (sb : SameContour b b') :
    intersectRegions o tb a b = intersectRegions o tb' a' b' :=
  holelessIntersection_written ok (validRegions_single va).polygons (validRegions_single vb).polygons (by simp) (by simp) sa.single sb.single tb tb'

/-- **C54** `intersect_region_with_multiregion` -/
theorem intersectRegionWithMultiregion_written {o : Orient} (ok : OrientOk o) (tb tb' : TieBreak) {a a' : Contour} {b b' : List Contour}
    (va : SimpleContour a) (sa : SameContour a a')
    (nb : b ≠ []) (vb : ValidRegions b) (sb : SameRegions b b') :
    intersectRegionWithMultiregion o tb a b = intersectRegionWithMultiregion o tb' a' b' :=
  holelessIntersection_written ok (validRegions_single va).polygons vb.polygons (by simp) nb sa.single sb tb tb'

/-- **C54** `intersect_multiregions` -/
theorem intersectMultiregions_written {o : Orient} (ok : OrientOk o) (tb tb' : TieBreak) {a a' : List Contour} {b b' : List Contour}
    (na : a ≠ []) (va : ValidRegions a) (sa : SameRegions a a')
    (nb : b ≠ []) (vb : ValidRegions b) (sb : SameRegions b b') :
    intersectMultiregions o tb a b = intersectMultiregions o tb' a' b' :=
  holelessIntersection_written ok va.polygons vb.polygons na nb sa sb tb tb'

/-- **C54** `complete_intersect_regions` -/
theorem completeIntersectRegions_written {o : Orient} (ok : OrientOk o) (tb tb' : TieBreak) {a a' : Contour} {b b' : Contour}
    (va : SimpleContour a) (sa : SameContour a a')
    (vb : SimpleContour b) (sb : SameContour b b') :
    completeIntersectRegions o tb a b = completeIntersectRegions o tb' a' b' :=
  holelessCompleteIntersection_written ok (validRegions_single va).polygons (validRegions_single vb).polygons (by simp) (by simp) sa.single sb.single tb tb'

/-- **C54** `complete_intersect_region_with_multiregion` -/
theorem completeIntersectRegionWithMultiregion_written {o : Orient} (ok : OrientOk o) (tb tb' : TieBreak) {a a' : Contour} {b b' : List Contour}
    (va : SimpleContour a) (sa : SameContour a a')
    (nb : b ≠ []) (vb : ValidRegions b) (sb : SameRegions b b') :
    completeIntersectRegionWithMultiregion o tb a b = completeIntersectRegionWithMultiregion o tb' a' b' :=
  holelessCompleteIntersection_written ok (validRegions_single va).polygons vb.polygons (by simp) nb sa.single sb tb tb'

/-- **C54** `complete_intersect_multiregions` -/
theorem completeIntersectMultiregions_written {o : Orient} (ok : OrientOk o) (tb tb' : TieBreak) {a a' : List Contour} {b b' : List Contour}
    (na : a ≠ []) (va : ValidRegions a) (sa : SameRegions a a')
    (nb : b ≠ []) (vb : ValidRegions b) (sb : SameRegions b b') :
    completeIntersectMultiregions o tb a b = completeIntersectMultiregions o tb' a' b' :=
  holelessCompleteIntersection_written ok va.polygons vb.polygons na nb sa sb tb tb'

/-! ## Examples -/

/-- The square of the examples of `Properties/Determinism.lean`, and the same one from another vertex in the other direction -/
example : SamePolygons exSquare exTurned :=
  SamePolygon.single ⟨.inr ⟨2, by decide +kernel⟩, .refl (by simp)⟩

example (tb tb' : TieBreak) : intersectMultipolygons (Classical.choose exists_orient) tb exSquare exSquare' =
    intersectMultipolygons (Classical.choose exists_orient) tb' exTurned exSquare' :=
  intersectMultipolygons_written (Classical.choose_spec exists_orient) tb tb' (by simp [exSquare])
    (squareContour_simple (by norm_num)).validPolygon.validPolygons
    (SamePolygon.single ⟨.inr ⟨2, by decide +kernel⟩, .refl (by simp)⟩) (by simp [exSquare'])
    (squareContour_simple (by norm_num)).validPolygon.validPolygons (.refl fun p _ => .refl p)

/-- Squares without common points: the union returns them as they are written. -/
example : uniteMultipolygons TieBreak.id exSquare [⟨squareContour 5 5 2, []⟩] =
      .ok (.multipolygon [⟨squareContour 0 0 2, []⟩, ⟨squareContour 5 5 2, []⟩]) ∧
    uniteMultipolygons TieBreak.id exTurned [⟨squareContour 5 5 2, []⟩] =
      .ok (.multipolygon [⟨⟨[⟨2, 0⟩, ⟨0, 0⟩, ⟨0, 2⟩, ⟨2, 2⟩]⟩, []⟩, ⟨squareContour 5 5 2, []⟩]) := by decide +kernel

/-- A frame from another vertex, with the hole from another vertex in the other direction -/
example : SamePolygon ⟨squareContour 0 0 9, [squareContour 1 1 2, squareContour 5 5 2]⟩
    ⟨⟨[⟨9, 0⟩, ⟨9, 9⟩, ⟨0, 9⟩, ⟨0, 0⟩]⟩, [⟨[⟨7, 5⟩, ⟨5, 5⟩, ⟨5, 7⟩, ⟨7, 7⟩]⟩, squareContour 1 1 2]⟩ :=
  ⟨.inl ⟨1, by decide +kernel⟩, [squareContour 1 1 2, ⟨[⟨7, 5⟩, ⟨5, 5⟩, ⟨5, 7⟩, ⟨7, 7⟩]⟩],
    .cons (.refl _) (.cons (.inr ⟨2, by decide +kernel⟩) .nil), .swap _ _ _⟩

end Clipping

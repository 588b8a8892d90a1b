import Verif.Lemmas.Shaped.TwinForm
import Verif.Lemmas.Shaped.TwinRegions
import Verif.Properties.Regions
import Verif.Properties.PolygonsHole
import Verif.Properties.Arrangement
import Verif.Lemmas.Region.Wedge

/-!
# C47: results do not depend on the order of the operands and of equal events

`tb` and `tb'` are two ways in which the priority queue may order events of which none precedes the other one.

For polygons this holds although recorded events below may be out of date (compare `Properties/PolygonsHole.lean`): they
are so in the same places whatever the order of the operands.
-/

namespace Clipping

/-! ## Regions -/

/-- **C47** `intersect_regions`: the order of the operands and of equal events does not matter. -/
theorem intersectRegions_comm (o : Orient) (tb tb' : TieBreak) {a : Contour} {b : Contour} (va : SimpleContour a)
    (vb : SimpleContour b) : intersectRegions o tb a b = intersectRegions o tb' b a :=
  holelessIntersection_comm (validRegions_single va).polygons (validRegions_single vb).polygons (by simp) (by simp) tb tb'

/-- **C47** `intersect_region_with_multiregion`: the order of equal events does not matter, and the result is the one for the
region as a multiregion, in any order. -/
theorem intersectRegionWithMultiregion_comm (o : Orient) (tb tb' : TieBreak) {a : Contour} {b : List Contour}
    (va : SimpleContour a) (nb : b ≠ []) (vb : ValidRegions b) :
    intersectRegionWithMultiregion o tb a b = intersectRegionWithMultiregion o tb' a b ∧
    intersectRegionWithMultiregion o tb a b = intersectMultiregions o tb' b [a] := by
  have h := holelessIntersection_comm (o := o) (validRegions_single va).polygons vb.polygons (by simp) nb
  exact ⟨(h tb tb').trans (h tb' tb').symm, h tb tb'⟩

/-- **C47** `intersect_multiregions`: the order of the operands and of equal events does not matter. -/
theorem intersectMultiregions_comm (o : Orient) (tb tb' : TieBreak) {a : List Contour} {b : List Contour} (na : a ≠ [])
    (va : ValidRegions a) (nb : b ≠ []) (vb : ValidRegions b) :
    intersectMultiregions o tb a b = intersectMultiregions o tb' b a :=
  holelessIntersection_comm va.polygons vb.polygons na nb tb tb'

/-- **C47** `complete_intersect_regions`: the order of the operands and of equal events does not matter. -/
theorem completeIntersectRegions_comm (o : Orient) (tb tb' : TieBreak) {a : Contour} {b : Contour} (va : SimpleContour a)
    (vb : SimpleContour b) : completeIntersectRegions o tb a b = completeIntersectRegions o tb' b a :=
  holelessCompleteIntersection_comm (validRegions_single va).polygons (validRegions_single vb).polygons (by simp) (by simp) tb tb'

/-- **C47** `complete_intersect_region_with_multiregion`: the order of equal events does not matter, and the result is the one for the
region as a multiregion, in any order. -/
theorem completeIntersectRegionWithMultiregion_comm (o : Orient) (tb tb' : TieBreak) {a : Contour} {b : List Contour}
    (va : SimpleContour a) (nb : b ≠ []) (vb : ValidRegions b) :
    completeIntersectRegionWithMultiregion o tb a b = completeIntersectRegionWithMultiregion o tb' a b ∧
    completeIntersectRegionWithMultiregion o tb a b = completeIntersectMultiregions o tb' b [a] := by
  have h := holelessCompleteIntersection_comm (o := o) (validRegions_single va).polygons vb.polygons (by simp) nb
  exact ⟨(h tb tb').trans (h tb' tb').symm, h tb tb'⟩

/-- **C47** `complete_intersect_multiregions`: the order of the operands and of equal events does not matter. -/
theorem completeIntersectMultiregions_comm (o : Orient) (tb tb' : TieBreak) {a : List Contour} {b : List Contour} (na : a ≠ [])
    (va : ValidRegions a) (nb : b ≠ []) (vb : ValidRegions b) :
    completeIntersectMultiregions o tb a b = completeIntersectMultiregions o tb' b a :=
  holelessCompleteIntersection_comm va.polygons vb.polygons na nb tb tb'

/-! ## Polygons -/

/-- **C47** `intersect_polygons`: the order of the operands and of equal events does not matter. -/
theorem intersectPolygons_comm (o : Orient) (tb tb' : TieBreak) {a b : Polygon} (va : ValidPolygon a) (vb : ValidPolygon b) :
    intersectPolygons o tb a b = intersectPolygons o tb' b a :=
  holeyIntersection_comm (o := o) (polygonOperand_ok va) (polygonOperand_ok vb) tb tb'

/-- **C47** `intersect_polygon_with_multipolygon`: the order of equal events does not matter, and the result is the one for the
polygon as a multipolygon, in any order. -/
theorem intersectPolygonWithMultipolygon_comm (o : Orient) (tb tb' : TieBreak) {a : Polygon} {b : List Polygon}
    (va : ValidPolygon a) (nb : b ≠ []) (vb : ValidPolygons b) :
    intersectPolygonWithMultipolygon o tb a b = intersectPolygonWithMultipolygon o tb' a b ∧
    intersectPolygonWithMultipolygon o tb a b = intersectMultipolygons o tb' b [a] := by
  have h := holeyIntersection_comm (o := o) (polygonOperand_ok va) (multipolygonOperand_ok nb vb)
  exact ⟨(h tb tb').trans (h tb' tb').symm, h tb tb'⟩

/-- **C47** `intersect_multipolygons`: the order of the operands and of equal events does not matter. -/
theorem intersectMultipolygons_comm (o : Orient) (tb tb' : TieBreak) {a b : List Polygon} (na : a ≠ [])
    (va : ValidPolygons a) (nb : b ≠ []) (vb : ValidPolygons b) :
    intersectMultipolygons o tb a b = intersectMultipolygons o tb' b a :=
  holeyIntersection_comm (o := o) (multipolygonOperand_ok na va) (multipolygonOperand_ok nb vb) tb tb'

/-- **C47** `complete_intersect_polygons`: the order of the operands and of equal events does not matter. -/
theorem completeIntersectPolygons_comm (o : Orient) (tb tb' : TieBreak) {a b : Polygon} (va : ValidPolygon a) (vb : ValidPolygon b) :
    completeIntersectPolygons o tb a b = completeIntersectPolygons o tb' b a :=
  holeyCompleteIntersection_comm (o := o) (polygonOperand_ok va) (polygonOperand_ok vb) tb tb'

/-- **C47** `complete_intersect_polygon_with_multipolygon`: the order of equal events does not matter, and the result is the one for the
polygon as a multipolygon, in any order. -/
theorem completeIntersectPolygonWithMultipolygon_comm (o : Orient) (tb tb' : TieBreak) {a : Polygon} {b : List Polygon}
    (va : ValidPolygon a) (nb : b ≠ []) (vb : ValidPolygons b) :
    completeIntersectPolygonWithMultipolygon o tb a b = completeIntersectPolygonWithMultipolygon o tb' a b ∧
    completeIntersectPolygonWithMultipolygon o tb a b = completeIntersectMultipolygons o tb' b [a] := by
  have h := holeyCompleteIntersection_comm (o := o) (polygonOperand_ok va) (multipolygonOperand_ok nb vb)
  exact ⟨(h tb tb').trans (h tb' tb').symm, h tb tb'⟩

/-- **C47** `complete_intersect_multipolygons`: the order of the operands and of equal events does not matter. -/
theorem completeIntersectMultipolygons_comm (o : Orient) (tb tb' : TieBreak) {a b : List Polygon} (na : a ≠ [])
    (va : ValidPolygons a) (nb : b ≠ []) (vb : ValidPolygons b) :
    completeIntersectMultipolygons o tb a b = completeIntersectMultipolygons o tb' b a :=
  holeyCompleteIntersection_comm (o := o) (multipolygonOperand_ok na va) (multipolygonOperand_ok nb vb) tb tb'

/-- **C47** `symmetric_subtract_polygons`: the order of the operands and of equal events does not matter. -/
theorem symmetricSubtractPolygons_comm (tb tb' : TieBreak) {a b : Polygon} (va : ValidPolygon a) (vb : ValidPolygon b) :
    symmetricSubtractPolygons tb a b = symmetricSubtractPolygons tb' b a :=
  holeySymmetricDifference_comm (polygonOperand_ok va) (polygonOperand_ok vb) tb tb'

/-- **C47** `symmetric_subtract_multipolygon_from_polygon`: the order of equal events does not matter, and the result is the one for the
polygon as a multipolygon, in any order. -/
theorem symmetricSubtractMultipolygonFromPolygon_comm (tb tb' : TieBreak) {a : Polygon} {b : List Polygon}
    (va : ValidPolygon a) (nb : b ≠ []) (vb : ValidPolygons b) :
    symmetricSubtractMultipolygonFromPolygon tb a b = symmetricSubtractMultipolygonFromPolygon tb' a b ∧
    symmetricSubtractMultipolygonFromPolygon tb a b = symmetricSubtractMultipolygons tb' b [a] := by
  have h := holeySymmetricDifference_comm (polygonOperand_ok va) (multipolygonOperand_ok nb vb)
  exact ⟨(h tb tb').trans (h tb' tb').symm, h tb tb'⟩

/-- **C47** `symmetric_subtract_multipolygons`: the order of the operands and of equal events does not matter. -/
theorem symmetricSubtractMultipolygons_comm (tb tb' : TieBreak) {a b : List Polygon} (na : a ≠ [])
    (va : ValidPolygons a) (nb : b ≠ []) (vb : ValidPolygons b) :
    symmetricSubtractMultipolygons tb a b = symmetricSubtractMultipolygons tb' b a :=
  holeySymmetricDifference_comm (multipolygonOperand_ok na va) (multipolygonOperand_ok nb vb) tb tb'

/-- **C47** `unite_polygons`: the order of the operands and of equal events does not matter. -/
theorem unitePolygons_comm (tb tb' : TieBreak) {a b : Polygon} (va : ValidPolygon a) (vb : ValidPolygon b) :
    unitePolygons tb a b = unitePolygons tb' b a :=
  holeyUnion_comm (polygonOperand_ok va) (polygonOperand_ok vb) tb tb'

/-- **C47** `unite_polygon_with_multipolygon`: the order of equal events does not matter, and the result is the one for the
polygon as a multipolygon, in any order. -/
theorem unitePolygonWithMultipolygon_comm (tb tb' : TieBreak) {a : Polygon} {b : List Polygon}
    (va : ValidPolygon a) (nb : b ≠ []) (vb : ValidPolygons b) :
    unitePolygonWithMultipolygon tb a b = unitePolygonWithMultipolygon tb' a b ∧
    unitePolygonWithMultipolygon tb a b = uniteMultipolygons tb' b [a] := by
  have h := holeyUnion_comm (polygonOperand_ok va) (multipolygonOperand_ok nb vb)
  exact ⟨(h tb tb').trans (h tb' tb').symm, h tb tb'⟩

/-- **C47** `unite_multipolygons`: the order of the operands and of equal events does not matter. -/
theorem uniteMultipolygons_comm (tb tb' : TieBreak) {a b : List Polygon} (na : a ≠ [])
    (va : ValidPolygons a) (nb : b ≠ []) (vb : ValidPolygons b) :
    uniteMultipolygons tb a b = uniteMultipolygons tb' b a :=
  holeyUnion_comm (multipolygonOperand_ok na va) (multipolygonOperand_ok nb vb) tb tb'

/-! ## Form of the operands

The lists of edges may differ in order and directions, that is to say, contours may be written from any vertex in any
direction, and holes and polygons in any order. -/

/-- **C47** `symmetric_subtract_multipolygons` of operands with a common point depends on their edges only. -/
theorem symmetricSubtractMultipolygons_form (tb tb' : TieBreak) {a b a' b' : List Polygon} (na : a ≠ [])
    (va : ValidPolygons a) (nb : b ≠ []) (vb : ValidPolygons b) (na' : a' ≠ []) (va' : ValidPolygons a') (nb' : b' ≠ [])
    (vb' : ValidPolygons b') (sa : SameSegments (a.flatMap Polygon.edges) (a'.flatMap Polygon.edges))
    (sb : SameSegments (b.flatMap Polygon.edges) (b'.flatMap Polygon.edges)) (x : (polysPts a ∩ polysPts b).Nonempty) :
    symmetricSubtractMultipolygons tb a b = symmetricSubtractMultipolygons tb' a' b' :=
  holeySymmetricDifference_form (multipolygonOperand_ok na va) (multipolygonOperand_ok nb vb) (multipolygonOperand_ok na' va')
    (multipolygonOperand_ok nb' vb') sa sb tb tb' x

/-- **C47** `unite_multipolygons` of operands with a common point depends on their edges only. -/
theorem uniteMultipolygons_form (tb tb' : TieBreak) {a b a' b' : List Polygon} (na : a ≠ [])
    (va : ValidPolygons a) (nb : b ≠ []) (vb : ValidPolygons b) (na' : a' ≠ []) (va' : ValidPolygons a') (nb' : b' ≠ [])
    (vb' : ValidPolygons b') (sa : SameSegments (a.flatMap Polygon.edges) (a'.flatMap Polygon.edges))
    (sb : SameSegments (b.flatMap Polygon.edges) (b'.flatMap Polygon.edges)) (x : (polysPts a ∩ polysPts b).Nonempty) :
    uniteMultipolygons tb a b = uniteMultipolygons tb' a' b' :=
  holeyUnion_form (multipolygonOperand_ok na va) (multipolygonOperand_ok nb vb) (multipolygonOperand_ok na' va')
    (multipolygonOperand_ok nb' vb') sa sb tb tb' x

/-! ## Examples -/

example (tb tb' : TieBreak) : intersectRegions (Classical.choose exists_orient) tb (squareContour 0 0 2) (squareContour 1 1 2) =
    intersectRegions (Classical.choose exists_orient) tb' (squareContour 1 1 2) (squareContour 0 0 2) :=
  intersectRegions_comm _ tb tb' (squareContour_simple (by norm_num)) (squareContour_simple (by norm_num))

example (tb tb' : TieBreak) : uniteMultipolygons tb exFrame exFrame' = uniteMultipolygons tb' exFrame' exFrame :=
  uniteMultipolygons_comm tb tb' (by simp [exFrame]) exFrame_valid (by simp [exFrame']) exFrame'_valid

/-- Polygons for which a hole is attached to a wrong polygon, in both orders. -/
example (tb tb' : TieBreak) : symmetricSubtractPolygons tb exTouching exWedge = symmetricSubtractPolygons tb' exWedge exTouching :=
  symmetricSubtractPolygons_comm tb tb' exTouching_valid exWedge_valid

/-- A square. -/
def exSquare : List Polygon := [⟨squareContour 0 0 2, []⟩]

/-- `exSquare` written from another vertex in the other direction. -/
def exTurned : List Polygon := [⟨⟨[⟨2, 0⟩, ⟨0, 0⟩, ⟨0, 2⟩, ⟨2, 2⟩]⟩, []⟩]

/-- A square which crosses `exSquare`. -/
def exSquare' : List Polygon := [⟨squareContour 1 1 2, []⟩]

example (tb tb' : TieBreak) : uniteMultipolygons tb exSquare exSquare' = uniteMultipolygons tb' exTurned exSquare' := by
  have s : ∀ x, ValidPolygon ⟨squareContour x x 2, []⟩ := fun x =>
    (squareContour_simple (x := x) (y := x) (a := 2) (by norm_num)).validPolygon
  refine uniteMultipolygons_form tb tb' (by simp [exSquare]) (polygonOperand_ok (s 0)).valid (by simp [exSquare'])
    (polygonOperand_ok (s 1)).valid (by simp [exTurned])
    (polygonOperand_ok (simpleCheck_spec (c := ⟨[⟨2, 0⟩, ⟨0, 0⟩, ⟨0, 2⟩, ⟨2, 2⟩]⟩) (by decide +kernel)).validPolygon).valid
    (by simp [exSquare']) (polygonOperand_ok (s 1)).valid ?_ (SameSegments.refl _) ?_
  · constructor <;> decide +kernel
  · have m : ∀ x, (⟨1, 1⟩ : Point) ∈ regionPts (squareContour x x 2).edges →
        (⟨1, 1⟩ : Point) ∈ polysPts [⟨squareContour x x 2, []⟩] := fun x hx => by
      rw [(s x).validPolygons.polysPts_eq]
      simpa [Polygon.edges] using hx
    refine ⟨⟨1, 1⟩, m 0 ?_, m 1 ?_⟩ <;> rw [square_region (by norm_num)] <;> norm_num

end Clipping

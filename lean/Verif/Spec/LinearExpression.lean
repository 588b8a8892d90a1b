import Verif.Spec.Expression
import Verif.Spec.Geometry
import Verif.Spec.Parts
import Verif.Model.Planar
import Verif.Model.PlanarMixed

/-!
# Specification vocabulary: nested Boolean operations on segments

As `Verif.Spec.Expression`, for operands made of segments, which can also be restricted to polygons or to their complement.
-/

namespace Clipping

/-- operations applied to multisegments with numbers and to multipolygons with numbers -/
inductive LinearExpression
  | operand (i : ℕ)
  | apply (k : Operation) (a b : LinearExpression)
  | within (a : LinearExpression) (j : ℕ)
  | outside (a : LinearExpression) (j : ℕ)

/-- The Boolean formula of an expression: whether a point is in the combination, if it is in the multisegments and in the multipolygons
which `v` and `w` say. -/
def LinearExpression.holds (v w : ℕ → Bool) : LinearExpression → Bool
  | .operand i => v i
  | .apply k a b => k.holds (a.holds v w) (b.holds v w)
  | .within a j => a.holds v w && w j
  | .outside a j => a.holds v w && !w j

/-- The function of the library for the operation and the kinds of the operands: a single segment is given as a segment, several ones are
given as a multisegment.  Operands of the symmetric operations are swapped if the library has the function for one order only
(`clipping/planar.py`).  The library has no functions for empty operands: what has to be done with them is evident. -/
def Operation.linearCall (tb : TieBreak) : Operation → List Segment → List Segment → Except Err Geometry
  | .intersection, [], _ => .ok .empty
  | .intersection, _, [] => .ok .empty
  | .intersection, [s], [t] => .ok (intersectSegments s t)
  | .intersection, [s], m => .ok (intersectSegmentWithMultisegment s m)
  | .intersection, m, [s] => .ok (intersectSegmentWithMultisegment s m)
  | .intersection, m, n => intersectMultisegments tb m n
  | .difference, [], _ => .ok .empty
  | .difference, m, [] => .ok (.multisegment m)
  | .difference, [s], [t] => .ok (subtractSegments s t)
  | .difference, [s], m => subtractMultisegmentFromSegment tb s m
  | .difference, m, [s] => .ok (subtractSegmentFromMultisegment m s)
  | .difference, m, n => subtractMultisegments tb m n
  | .symmetricDifference, [], n => .ok (.multisegment n)
  | .symmetricDifference, m, [] => .ok (.multisegment m)
  | .symmetricDifference, [s], [t] => .ok (symmetricSubtractSegments s t)
  | .symmetricDifference, [s], m => symmetricSubtractMultisegmentFromSegment tb s m
  | .symmetricDifference, m, [s] => symmetricSubtractMultisegmentFromSegment tb s m
  | .symmetricDifference, m, n => symmetricSubtractMultisegments tb m n
  | .union, [], n => .ok (.multisegment n)
  | .union, m, [] => .ok (.multisegment m)
  | .union, [s], [t] => .ok (uniteSegments s t)
  | .union, [s], m => .ok (uniteSegmentWithMultisegment s m)
  | .union, m, [s] => .ok (uniteSegmentWithMultisegment s m)
  | .union, m, n => uniteMultisegments tb m n

/-- intersection of segments with polygons, by the kinds of the operands -/
def withinCall (o : Orient) (tb : TieBreak) : List Segment → List Polygon → Except Err Geometry
  | [], _ => .ok .empty
  | _, [] => .ok .empty
  | [s], [p] => intersectSegmentWithPolygon o tb s p
  | [s], ps => intersectSegmentWithMultipolygon o tb s ps
  | m, [p] => intersectMultisegmentWithPolygon o tb m p
  | m, ps => intersectMultisegmentWithMultipolygon o tb m ps

/-- difference of segments and polygons, by the kinds of the operands -/
def outsideCall (o : Orient) (tb : TieBreak) : List Segment → List Polygon → Except Err Geometry
  | [], _ => .ok .empty
  | m, [] => .ok (.multisegment m)
  | [s], [p] => subtractPolygonFromSegment o tb s p
  | [s], ps => subtractMultipolygonFromSegment o tb s ps
  | m, [p] => subtractPolygonFromMultisegment o tb m p
  | m, ps => subtractMultipolygonFromMultisegment o tb m ps

/-- What C17 and C19 need: no segment of an operand has a corner of the bounding box of the other one inside. -/
def Operation.Safe : Operation → List Segment → List Segment → Prop
  | .intersection, a, b => 2 ≤ a.length → 2 ≤ b.length → (∀ box, boxOf a = .ok box → ∀ s ∈ b, NoCornerInside box s) ∧
      ∀ box, boxOf b = .ok box → ∀ s ∈ a, NoCornerInside box s
  | .difference, a, b => 2 ≤ b.length → ∀ box, boxOf a = .ok box → ∀ s ∈ b, NoCornerInside box s
  | _, _, _ => True

/-- Evaluating the expression with the library on the multisegments `v` and the multipolygons `w` gives the segments of a geometry (without
its isolated points).  Operands of differences and intersections must meet the conditions of C17, C19 and C38. -/
inductive LinearExpression.Yields (o : Orient) (tb : TieBreak) (v : ℕ → List Segment) (w : ℕ → List Polygon) :
    LinearExpression → List Segment → Prop
  | operand (i : ℕ) : Yields o tb v w (.operand i) (v i)
  | apply (k : Operation) {a b : LinearExpression} {l m : List Segment} {g : Geometry} (ha : Yields o tb v w a l) (hb : Yields o tb v w b m)
      (safe : k.Safe l m) (h : k.linearCall tb l m = .ok g) : Yields o tb v w (.apply k a b) g.linearSegments
  | within {a : LinearExpression} {l : List Segment} (j : ℕ) {g : Geometry} (ha : Yields o tb v w a l)
      (h : withinCall o tb l (w j) = .ok g) : Yields o tb v w (.within a j) g.linearSegments
  | outside {a : LinearExpression} {l : List Segment} (j : ℕ) {g : Geometry} (ha : Yields o tb v w a l)
      (safe : ∀ p ∈ w j, ∀ c ∈ p.holes, (segsPts l ∩ segsPts c.edges).Finite) (h : outsideCall o tb l (w j) = .ok g) :
      Yields o tb v w (.outside a j) g.linearSegments

end Clipping

import Verif.Model.PlanarShaped
import Verif.Spec.Outline

/-!
# Specification vocabulary: nested Boolean operations

The operations of the library on polygons and multipolygons are used one after another: the result of one of them is an operand of the
next.  An expression says which operations are applied to which operands; the same expression can be read as a Boolean formula.
-/

namespace Clipping

/-- the four Boolean operations -/
inductive Operation
  | intersection
  | difference
  | symmetricDifference
  | union
  deriving DecidableEq

/-- what an operation does with membership -/
def Operation.holds : Operation → Bool → Bool → Bool
  | .intersection, a, b => a && b
  | .difference, a, b => a && !b
  | .symmetricDifference, a, b => xor a b
  | .union, a, b => a || b

/-- operations applied to operands with numbers -/
inductive Expression
  | operand (i : ℕ)
  | apply (k : Operation) (a b : Expression)

/-- The Boolean formula of an expression: whether a point is in the combination, if it is in the operands `v` says. -/
def Expression.holds (v : ℕ → Bool) : Expression → Bool
  | .operand i => v i
  | .apply k a b => k.holds (a.holds v) (b.holds v)

/-- The function of the library for the operation and the kinds of the operands: a single polygon is given as a polygon, several ones
are given as a multipolygon.  Operands of the symmetric operations are swapped if the library has the mixed function for one order only
(`clipping/planar.py`).  The library has no functions for empty operands: what has to be done with them is evident. -/
def Operation.call (o : Orient) (tb : TieBreak) : Operation → List Polygon → List Polygon → Except Err Geometry
  | .intersection, [], _ => .ok .empty
  | .intersection, _, [] => .ok .empty
  | .intersection, [p], [q] => intersectPolygons o tb p q
  | .intersection, [p], qs => intersectPolygonWithMultipolygon o tb p qs
  | .intersection, ps, [q] => intersectPolygonWithMultipolygon o tb q ps
  | .intersection, ps, qs => intersectMultipolygons o tb ps qs
  | .difference, [], _ => .ok .empty
  | .difference, ps, [] => .ok (.multipolygon ps)
  | .difference, [p], [q] => subtractPolygons o tb p q
  | .difference, [p], qs => subtractMultipolygonFromPolygon o tb p qs
  | .difference, ps, [q] => subtractPolygonFromMultipolygon o tb ps q
  | .difference, ps, qs => subtractMultipolygons o tb ps qs
  | .symmetricDifference, [], qs => .ok (.multipolygon qs)
  | .symmetricDifference, ps, [] => .ok (.multipolygon ps)
  | .symmetricDifference, [p], [q] => symmetricSubtractPolygons tb p q
  | .symmetricDifference, [p], qs => symmetricSubtractMultipolygonFromPolygon tb p qs
  | .symmetricDifference, ps, [q] => symmetricSubtractMultipolygonFromPolygon tb q ps
  | .symmetricDifference, ps, qs => symmetricSubtractMultipolygons tb ps qs
  | .union, [], qs => .ok (.multipolygon qs)
  | .union, ps, [] => .ok (.multipolygon ps)
  | .union, [p], [q] => unitePolygons tb p q
  | .union, [p], qs => unitePolygonWithMultipolygon tb p qs
  | .union, ps, [q] => unitePolygonWithMultipolygon tb q ps
  | .union, ps, qs => uniteMultipolygons tb ps qs

/-- Evaluating the expression with the library on the operands `v` gives the polygons `ps`, and all results which are used as operands
on the way are valid. -/
inductive Expression.Yields (o : Orient) (tb : TieBreak) (v : ℕ → List Polygon) : Expression → List Polygon → Prop
  | operand (i : ℕ) : Yields o tb v (.operand i) (v i)
  | apply (k : Operation) {a b : Expression} {ps qs : List Polygon} {g : Geometry} (ha : Yields o tb v a ps) (hb : Yields o tb v b qs)
      (hp : ValidPolygons ps) (hq : ValidPolygons qs) (h : k.call o tb ps qs = .ok g) : Yields o tb v (.apply k a b) g.polygons

end Clipping

import Verif.Spec.Expression

/-!
# Specification vocabulary: polygons with holes which may be attached to wrong polygons
-/

namespace Clipping

/-- The contours of the polygons `ps` are simple and do not overlap, borders have the region with all contours inside, holes have it
outside, and every hole is within the border of one of the polygons, not necessarily its own one. -/
structure Drawn (ps : List Polygon) : Prop where
  border : ∀ p ∈ ps, SimpleContour p.border
  hole : ∀ p ∈ ps, ∀ c ∈ p.holes, SimpleContour c
  noOverlap : NoOverlap (ps.flatMap Polygon.edges)
  sides : Sided ps
  held : ∀ p ∈ ps, ∀ c ∈ p.holes, ∃ p' ∈ ps, regionPts c.edges ⊆ regionPts p'.border.edges

/-- What an operation needs: operands whose polygons are looked at one by one have to be valid.  These are both operands of an
intersection and the second operand of a difference. -/
def Operation.Demands : Operation → List Polygon → List Polygon → Prop
  | .intersection, ps, qs => ValidPolygons ps ∧ ValidPolygons qs
  | .difference, _, qs => ValidPolygons qs
  | .symmetricDifference, _, _ => True
  | .union, _, _ => True

/-- Evaluating the expression with the library on the operands `v` gives the polygons `ps`, and the operations on the way get
what they need. -/
inductive Expression.Evaluates (o : Orient) (tb : TieBreak) (v : ℕ → List Polygon) : Expression → List Polygon → Prop
  | operand (i : ℕ) : Evaluates o tb v (.operand i) (v i)
  | apply (k : Operation) {a b : Expression} {ps qs : List Polygon} {g : Geometry} (ha : Evaluates o tb v a ps)
      (hb : Evaluates o tb v b qs) (hd : k.Demands ps qs) (h : k.call o tb ps qs = .ok g) :
      Evaluates o tb v (.apply k a b) g.polygons

/-- The numbers of the operands of the expression. -/
def Expression.leaves : Expression → List ℕ
  | .operand i => [i]
  | .apply _ a b => a.leaves ++ b.leaves

/-- The edges of all operands of the expression. -/
def Expression.edges (v : ℕ → List Polygon) (x : Expression) : List Segment :=
  x.leaves.flatMap fun i => (v i).flatMap Polygon.edges

/-- The expression has unions and symmetric differences only. -/
def Expression.Additive : Expression → Prop
  | .operand _ => True
  | .apply k a b => (k = .union ∨ k = .symmetricDifference) ∧ a.Additive ∧ b.Additive

end Clipping

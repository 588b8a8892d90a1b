import Verif.Spec.Drawn

/-!
# Specification vocabulary: an operation with many operands, one after the other
-/

namespace Clipping

/-- Calling the operation with the result so far and the next operand, from the first to the last one. -/
def Operation.fold (o : Orient) (tb : TieBreak) (k : Operation) (a : List Polygon) : List (List Polygon) → Except Err (List Polygon)
  | [] => .ok a
  | b :: l => do
    let g ← k.call o tb a b
    Operation.fold o tb k g.polygons l

/-- Operands which are put together in pairs, their results in pairs and so on: `unary_union`-like trees of any shape. -/
inductive Grouping
  | leaf (a : List Polygon)
  | node (l r : Grouping)

/-- The operands at the leaves of the tree. -/
def Grouping.leaves : Grouping → List (List Polygon)
  | .leaf a => [a]
  | .node l r => l.leaves ++ r.leaves

/-- Calling the operation at all nodes of the tree, from the leaves to the root. -/
def Operation.tree (o : Orient) (tb : TieBreak) (k : Operation) : Grouping → Except Err (List Polygon)
  | .leaf a => .ok a
  | .node l r => do
    let a ← Operation.tree o tb k l
    let b ← Operation.tree o tb k r
    let g ← k.call o tb a b
    return g.polygons

/-- The edges of many operands. -/
def allEdges (l : List (List Polygon)) : List Segment := l.flatMap fun a => a.flatMap Polygon.edges

end Clipping

import Verif.Spec.PointSet
import Mathlib.Algebra.Group.Even
import Mathlib.Algebra.Ring.Parity

/-!
# Specification vocabulary: regions given by their edges
-/

namespace Clipping

/-- The vertical ray which goes down from `m` crosses the segment. -/
def IsBelow (e : Segment) (m : Point) : Prop :=
  e.lo.x ≤ m.x ∧ m.x < e.hi.x ∧ 0 < cross e.lo e.hi m

instance (e : Segment) (m : Point) : Decidable (IsBelow e m) := by unfold IsBelow; infer_instance

/-- The even-odd rule: `m` is inside of the region with the edges `E` if the ray which goes down from
`m` crosses an odd number of them.  (To be used for points which are not on an edge.) -/
def Inside (E : List Segment) (m : Point) : Prop := Odd (E.countP fun e => decide (IsBelow e m))

instance (E : List Segment) (m : Point) : Decidable (Inside E m) := by unfold Inside; infer_instance

/-- Points of the region with the edges `E`. -/
def regionPts (E : List Segment) : Set Point := {m | m ∈ segsPts E ∨ Inside E m}

/-- number of segments which start or end at `q` -/
def degree (E : List Segment) (q : Point) : ℕ :=
  E.countP (fun e => decide (e.start = q)) + E.countP fun e => decide (e.stop = q)

/-- `E` are the directed edges of a region: proper segments which do not overlap, an even number of which
meets in every point, and each of which has the interior of the region on its left.

(The last condition at an inner point `m` of an edge which is on no other edge: the rays down from `m` and from
the points right above `m` differ in this edge.  Thus the interior is above the edge exactly if
the number of edges strictly below is even, and "above" is "left" for edges directed from left to right.) -/
structure IsBoundary (E : List Segment) : Prop where
  noOverlap : NoOverlap E
  even : ∀ q, Even (degree E q)
  left : ∀ e ∈ E, ∀ m ∈ e.pts, ¬ e.IsEnd m → (∀ e' ∈ E, m ∈ e'.pts → e' = e) →
    (e.start < e.stop ↔ ¬ Inside E m)

end Clipping

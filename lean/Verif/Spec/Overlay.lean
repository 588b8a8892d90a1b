import Verif.Spec.Polygon
import Verif.Spec.Arrangement

/-!
# Specification vocabulary: Boolean combinations of two regions given by their edges
-/

namespace Clipping

/-- `m` is in the combination of the regions with the edges `A` and `B`.  (To be used for points which are on no
edge.) -/
def Combined (op : Bool → Bool → Bool) (A B : List Segment) (m : Point) : Prop :=
  op (decide (Inside A m)) (decide (Inside B m)) = true

/-- Both the inside and the outside of the combination of two regions come arbitrarily close to `m`. -/
def Separates (op : Bool → Bool → Bool) (A B : List Segment) (m : Point) : Prop :=
  ∀ δ > 0, ∃ q q', Near δ m q ∧ Near δ m q' ∧ q ∉ segsPts (A ++ B) ∧ q' ∉ segsPts (A ++ B) ∧
    Combined op A B q ∧ ¬ Combined op A B q'

/-- `T` is the boundary of the combination of the regions with the edges `A` and `B`: parts of these edges which meet
in common ends only, exactly those which have the inside and the outside of the combination on their sides.  (All points
count but the ends of edges and the points where edges cross or touch.) -/
structure IsBoundaryOf (op : Bool → Bool → Bool) (A B T : List Segment) : Prop where
  proper : ∀ t ∈ T, t.Proper
  parts : ∀ t ∈ T, ∃ e ∈ A ++ B, t.pts ⊆ e.pts
  endsOnly : EndsOnly T
  even : ∀ q, Even (degree T q)
  inside : ∀ q, q ∉ segsPts (A ++ B) → (Inside T q ↔ Combined op A B q)
  separates : ∀ m, ¬ Vertex (A ++ B) m → (m ∈ segsPts T ↔ Separates op A B m)

end Clipping

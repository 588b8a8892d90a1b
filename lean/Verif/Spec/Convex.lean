import Verif.Spec.PointSet

/-!
# Specification vocabulary: convex sets
-/

namespace Clipping

/-- The set contains the segment between any two of its points. -/
def ConvexSet (K : Set Point) : Prop := ∀ p ∈ K, ∀ q ∈ K, (Segment.mk p q).pts ⊆ K

end Clipping

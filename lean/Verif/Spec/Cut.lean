import Verif.Spec.Arrangement

/-!
# Specification vocabulary: parts of segments which are cut only where something meets them
-/

namespace Clipping

/-- The segments `r` are parts of the segments `L` which do not overlap each other.  They begin and end only at end points of segments of
`L` and `E` and at single common points of two of these segments. -/
structure CutOnly (L E r : List Segment) : Prop where
  noOverlap : NoOverlap r
  part : ∀ c ∈ r, PartOf c L
  ends : ∀ c ∈ r, ∀ v, c.IsEnd v → Vertex (L ++ E) v

end Clipping

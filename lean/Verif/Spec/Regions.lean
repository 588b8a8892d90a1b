import Verif.Spec.Polygon

/-!
# Specification vocabulary: valid multiregions
-/

namespace Clipping

/-- Simple contours which do not overlap and no two of which have common interior points. -/
structure ValidRegions (cs : List Contour) : Prop where
  simple : ∀ c ∈ cs, SimpleContour c
  noOverlap : NoOverlap (cs.flatMap Contour.edges)
  apart : cs.Pairwise fun c d => Apart c.edges d.edges ∧ Apart d.edges c.edges

/-- The points on and inside of some of the contours. -/
def regionsPts (cs : List Contour) : Set Point := {m | ∃ c ∈ cs, m ∈ regionPts c.edges}

end Clipping

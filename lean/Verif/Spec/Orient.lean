import Verif.Spec.Polygon
import Verif.Model.BoundingShaped

/-!
# Specification of the functions of the library `orient`

`clipping` calls three functions of `orient.planar`, which is not a part of the repository.  They are
parameters of the model; this is what is assumed of them, where it is assumed.
-/

namespace Clipping

/-- The functions of `orient` do what they are documented to do for simple contours and segments of positive
length. -/
structure OrientOk (o : Orient) : Prop where
  boundary : ∀ c p, SimpleContour c → (o.pointInRegion p c = .boundary ↔ p ∈ segsPts c.edges)
  interior : ∀ c p, SimpleContour c → (o.pointInRegion p c = .interior ↔ p ∉ segsPts c.edges ∧ Inside c.edges p)
  component : ∀ c s, SimpleContour c → s.Proper → (o.segmentInRegion s c = .component ↔ s.pts ⊆ segsPts c.edges)
  within : ∀ c s, SimpleContour c → s.Proper → (o.segmentInRegion s c = .within ↔
    s.pts ⊆ regionPts c.edges ∧ ∀ p ∈ s.pts, p ∉ segsPts c.edges)
  enclosed : ∀ c s, SimpleContour c → s.Proper → (o.segmentInRegion s c = .enclosed ↔
    s.pts ⊆ regionPts c.edges ∧ ¬ s.pts ⊆ segsPts c.edges ∧ ∃ p ∈ s.pts, p ∈ segsPts c.edges)
  cross : ∀ c s, SimpleContour c → s.Proper → (o.segmentInRegion s c = .cross ↔
    (∃ p ∈ s.pts, p ∉ segsPts c.edges ∧ Inside c.edges p) ∧ ∃ p ∈ s.pts, p ∉ regionPts c.edges)
  overlap : ∀ c s, SimpleContour c → s.Proper → (o.segmentInContour s c = .overlap ↔
    ¬ s.pts ⊆ segsPts c.edges ∧ (s.pts ∩ segsPts c.edges).Infinite)

end Clipping

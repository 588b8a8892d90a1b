import Verif.Spec.PointSet
import Mathlib.Data.Finset.Prod

/-!
# Specification vocabulary: how often segments meet
-/

namespace Clipping

open Classical in
/-- The number of ordered pairs of segments which have a common point; every segment makes a pair with itself. -/
noncomputable def contacts (l : List Segment) : ℕ :=
  ((l.toFinset ×ˢ l.toFinset).filter fun p => (p.1.pts ∩ p.2.pts).Nonempty).card

end Clipping

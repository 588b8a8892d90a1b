import Verif.Spec.PointSet
import Mathlib.Data.List.Rotate

/-!
# Specification vocabulary: vertices which can be dropped from a closed curve
-/

namespace Clipping

/-- In cyclic order `ws` are the vertices `vs` without a vertex which is on the line through its neighbours.
(`l ~r l'` means that `l'` is a rotation of `l`.) -/
def DropsVertex (vs ws : List Point) : Prop :=
  ∃ a b c rest, vs ~r (a :: b :: c :: rest) ∧ ws ~r (a :: c :: rest) ∧ cross a b c = 0

/-- In cyclic order `ws` are the vertices `vs` without some vertices, each of which was on the line through its neighbours
when it was dropped. -/
inductive DropsVertices : List Point → List Point → Prop
  | refl (vs : List Point) : DropsVertices vs vs
  | step {vs ws us : List Point} : DropsVertex vs ws → DropsVertices ws us → DropsVertices vs us

end Clipping

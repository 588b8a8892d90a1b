import Verif.Spec.Complete
import Verif.Model.Holey
import Verif.Model.Holeless

/-!
# Kinds of results
-/

namespace Clipping

theorem unpackPolygons_kind (ps : List Polygon) : (unpackPolygons ps).IsPolygonal := by
  unfold unpackPolygons
  split <;> simp [Geometry.IsPolygonal]

theorem unpackRegions_kind (cs : List Contour) : (unpackRegions cs).IsPolygonal := by
  unfold unpackRegions
  split <;> simp [Geometry.IsPolygonal]

/-- Calculations which return geometries of a kind only -/
def Returns (P : Geometry → Prop) (x : Except Err Geometry) : Prop := ∀ g, x = .ok g → P g

theorem Returns.pure {P : Geometry → Prop} {g : Geometry} (h : P g) : Returns P (pure g) := by
  rintro g' ⟨⟩; exact h

theorem Returns.bind {α : Type} {P : Geometry → Prop} {x : Except Err α} {f : α → Except Err Geometry} (h : ∀ a, Returns P (f a)) :
    Returns P (x >>= f) := by
  intro g hg
  cases x with
  | error e => cases hg
  | ok a => exact h a g hg

theorem Returns.ite {P : Geometry → Prop} {c : Prop} [Decidable c] {x y : Except Err Geometry} (h : Returns P x) (h' : Returns P y) :
    Returns P (if c then x else y) := by
  split <;> assumption

theorem holeyIntersection_kind (orient : Orient) (tb : TieBreak) (first second : ShapedOperand) :
    Returns Geometry.IsPolygonal (holeyIntersection orient tb first second) := by
  unfold holeyIntersection
  refine .bind fun _ => .bind fun _ => .ite (.pure trivial) (.ite (.pure trivial) (.ite (.pure trivial) ?_))
  exact .bind fun _ => .bind fun _ => .bind fun _ => .bind fun _ => .pure (unpackPolygons_kind _)

theorem holelessIntersection_kind (orient : Orient) (tb : TieBreak) (first second : List Contour) :
    Returns Geometry.IsPolygonal (holelessIntersection orient tb first second) := by
  unfold holelessIntersection
  refine .bind fun _ => .bind fun _ => .ite (.pure trivial) (.ite (.pure trivial) (.ite (.pure trivial) ?_))
  exact .bind fun _ => .bind fun _ => .pure (unpackRegions_kind _)

end Clipping

import Verif.Spec.Polygon

/-!
# Vertices which touch edges
-/

namespace Clipping

/-- Where an end point of an edge lies inside of another edge, there is an edge which reaches this point from the left
and is not on the line of the edge touched, or at most two edges end there. -/
def FewTouch (E : List Segment) : Prop :=
  ∀ e ∈ E, ∀ v, e.IsEnd v → ∀ u ∈ E, v ∈ u.pts → ¬ u.IsEnd v →
    (∃ f ∈ E, v ∈ f.pts ∧ f.lo < v ∧ cross u.start u.stop f.lo ≠ 0) ∨ degree E v ≤ 2

/-- Where a vertex of a polygon lies inside of an edge, there is an edge of one of the two polygons which reaches
this point from the left and is not on the line of the edge touched, or at most two edges of all polygons end there. -/
def FewTouchEach (P Q : List Polygon) : Prop :=
  ∀ p ∈ P ++ Q, ∀ e ∈ p.edges, ∀ v, e.IsEnd v → ∀ p' ∈ P ++ Q, ∀ u ∈ p'.edges, v ∈ u.pts → ¬ u.IsEnd v →
    (∃ f ∈ p.edges ++ p'.edges, v ∈ f.pts ∧ f.lo < v ∧ cross u.start u.stop f.lo ≠ 0) ∨
      degree ((P ++ Q).flatMap Polygon.edges) v ≤ 2

/-- No two contours of the polygons have a common point. -/
def Detached (P : List Polygon) : Prop :=
  (P.flatMap fun p => p.border :: p.holes).Pairwise fun c d => ∀ q ∈ segsPts c.edges, q ∉ segsPts d.edges

/-- The points of `X` which are on none of the edges `E`, and the points near which there are such points arbitrarily
close. -/
def closureOff (E : List Segment) (X : Set Point) : Set Point :=
  {q | ∀ δ > 0, ∃ z, Near δ q z ∧ z ∉ segsPts E ∧ z ∈ X}

end Clipping

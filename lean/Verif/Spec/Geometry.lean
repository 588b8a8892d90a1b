import Verif.Spec.PointSet
import Verif.Model.Geometry

/-!
# Specification vocabulary: point sets and well-formedness of result geometries
-/

namespace Clipping

/-- Edges of a contour: `v₀v₁, v₁v₂, …, vₙv₀`. -/
def Contour.edges (c : Contour) : List Segment :=
  match c.vertices with
  | [] => []
  | v :: vs => List.zipWith Segment.mk (v :: vs) (vs ++ [v])

/-- The edge passes (strictly) below `p`: the half-open rule of the crossing-number test. -/
def Segment.Below (e : Segment) (p : Point) : Prop :=
  e.lo.x ≤ p.x ∧ p.x < e.hi.x ∧ 0 < cross e.lo e.hi p

instance (e : Segment) (p : Point) : Decidable (e.Below p) :=
  inferInstanceAs (Decidable (_ ∧ _ ∧ _))

/-- `p` is inside the closed curve made of these edges: an odd number of them is below `p`. -/
def OddBelow (edges : List Segment) (p : Point) : Prop :=
  Odd (edges.countP fun e => decide (e.Below p))

/-- Points of a polygon: boundary points, and points with an odd number of edges below. -/
def Polygon.pts (g : Polygon) : Set Point :=
  let es := g.border.edges ++ (g.holes.map Contour.edges).flatten
  {p | p ∈ segsPts es ∨ OddBelow es p}

/-- Points of a geometry. -/
def Geometry.pts : Geometry → Set Point
  | .empty => ∅
  | .multipoint ps => {p | p ∈ ps}
  | .segment s => s.pts
  | .multisegment l => segsPts l
  | .polygon g => g.pts
  | .multipolygon gs => {p | ∃ g ∈ gs, p ∈ g.pts}
  | .mix d l s => d.pts ∪ l.pts ∪ s.pts

/-- `R` is the regularized difference of `A` and `B`: it contains everything of `A` off `B`, lies in
`A`, and meets `B` in finitely many points only. -/
structure IsDifference (A B R : Set Point) : Prop where
  covers : A \ B ⊆ R
  within : R ⊆ A
  finite : (R ∩ B).Finite

/-- `R` is the regularized symmetric difference of `A` and `B`. -/
structure IsSymmetricDifference (A B R : Set Point) : Prop where
  covers : (A \ B) ∪ (B \ A) ⊆ R
  within : R ⊆ A ∪ B
  finite : (R ∩ (A ∩ B)).Finite

/-- `R` is the regularized intersection of `A` and `B`: it lies in both and misses at most finitely
many common points. -/
structure IsIntersection (A B R : Set Point) : Prop where
  within : R ⊆ A ∩ B
  finite : ((A ∩ B) \ R).Finite

/-- Well-formed result of a linear operation: no zero-length segment, a multisegment has at least two
segments and no two of them cross or overlap, a multipoint has at least one point and no repeated
points, a mix has a multipoint and a linear part. -/
def Geometry.LinearOk : Geometry → Prop
  | .empty => True
  | .multipoint ps => ps ≠ [] ∧ ps.Nodup
  | .segment s => s.Proper
  | .multisegment l => 2 ≤ l.length ∧ ValidSegments l
  | .mix d l s => (∃ ps, d = .multipoint ps ∧ ps ≠ [] ∧ ps.Nodup) ∧
      ((∃ t, l = .segment t ∧ t.Proper) ∨ (∃ t, l = .multisegment t ∧ 2 ≤ t.length ∧ ValidSegments t))
      ∧ s = .empty
  | .polygon _ => False
  | .multipolygon _ => False

/-- The geometry consists of segments only (no isolated points). -/
def Geometry.IsSegments : Geometry → Prop
  | .empty => True
  | .segment _ => True
  | .multisegment _ => True
  | _ => False

end Clipping

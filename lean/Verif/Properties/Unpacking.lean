import Verif.Model.Unpacking
import Verif.Spec.Geometry
import Verif.Lemmas.Segments

/-! # C27: results are reported in canonical form -/

namespace Clipping

/-- Canonical form of a collection: `Empty` iff nothing, the element itself iff one, else the
collection. -/
theorem unpackSegments_canonical (l : List Segment) :
    (unpackSegments l = .empty ↔ l = []) ∧
    (∀ s, unpackSegments l = .segment s ↔ l = [s]) ∧
    (∀ m, unpackSegments l = .multisegment m ↔ l = m ∧ 2 ≤ l.length) := by
  match l with
  | [] => simp [unpackSegments]
  | [s] => simp [unpackSegments]
  | s :: t :: r => simp [unpackSegments]

theorem unpackPoints_canonical (l : List Point) :
    (unpackPoints l = .empty ↔ l = []) ∧ (∀ m, unpackPoints l = .multipoint m ↔ l = m ∧ l ≠ []) := by
  match l with
  | [] => simp [unpackPoints]
  | s :: r => simp [unpackPoints]

theorem unpackPolygons_canonical (l : List Polygon) :
    (unpackPolygons l = .empty ↔ l = []) ∧
    (∀ s, unpackPolygons l = .polygon s ↔ l = [s]) ∧
    (∀ m, unpackPolygons l = .multipolygon m ↔ l = m ∧ 2 ≤ l.length) := by
  match l with
  | [] => simp [unpackPolygons]
  | [s] => simp [unpackPolygons]
  | s :: t :: r => simp [unpackPolygons]

/-- `unpack_regions` is `unpack_polygons` of hole-free polygons. -/
theorem unpackRegions_canonical (l : List Contour) :
    unpackRegions l = unpackPolygons (l.map fun c => ⟨c, []⟩) := by
  match l with
  | [] => rfl
  | [s] => rfl
  | s :: t :: r => rfl

/-- `unpack_linear_mix` keeps exactly the points of its parts, and returns a `Mix` only when both parts
are non-empty. -/
theorem unpackLinearMix_canonical (d l : Geometry) :
    (unpackLinearMix d l).pts = d.pts ∪ l.pts ∧
    (d ≠ .empty → l ≠ .empty → unpackLinearMix d l = .mix d l .empty) ∧
    (d = .empty → unpackLinearMix d l = l) ∧ (l = .empty → unpackLinearMix d l = d) := by
  unfold unpackLinearMix
  cases d <;> cases l <;> simp [Geometry.isEmpty, Geometry.pts]

/-- `unpack_mix` keeps exactly the points of its parts, returns the only non-empty part when there is
one, and a `Mix` whenever there are two. -/
theorem unpackMix_canonical (d l s : Geometry) :
    (unpackMix d l s).pts = d.pts ∪ l.pts ∪ s.pts ∧
    (l = .empty → s = .empty → unpackMix d l s = d) ∧
    (d = .empty → s = .empty → unpackMix d l s = l) ∧
    (d = .empty → l = .empty → unpackMix d l s = s) ∧
    ((d ≠ .empty ∧ l ≠ .empty) ∨ (d ≠ .empty ∧ s ≠ .empty) ∨ (l ≠ .empty ∧ s ≠ .empty) →
      unpackMix d l s = .mix d l s) := by
  unfold unpackMix
  cases d <;> cases l <;> cases s <;> simp [Geometry.isEmpty, Geometry.pts]

/-- **C27** collected: the list-based unpackers keep the points. -/
theorem unpack_pts (segments : List Segment) (points : List Point) (polygons : List Polygon) :
    (unpackSegments segments).pts = segsPts segments ∧
    (unpackPoints points).pts = {p | p ∈ points} ∧
    (unpackPolygons polygons).pts = {p | ∃ g ∈ polygons, p ∈ g.pts} := by
  refine ⟨unpackSegments_pts _, ?_, ?_⟩
  · match points with
    | [] => simp [unpackPoints, Geometry.pts]
    | s :: r => rfl
  · match polygons with
    | [] => simp [unpackPolygons, Geometry.pts]
    | [s] => simp [unpackPolygons, Geometry.pts]
    | s :: t :: r => rfl

example : unpackLinearMix (.multipoint [⟨1, 2⟩]) (.segment ⟨⟨0, 0⟩, ⟨1, 0⟩⟩)
    = .mix (.multipoint [⟨1, 2⟩]) (.segment ⟨⟨0, 0⟩, ⟨1, 0⟩⟩) .empty := rfl

end Clipping

import Verif.Lemmas.Mixed.Pieces
import Verif.Properties.Mixed
import Verif.Properties.Size

/-!
# C73: segments of results on a linear and a shaped operand

The segments of a result of `intersect_*`, `complete_intersect_*`, `subtract_*`, `unite_*` and `symmetric_subtract_*` on a segment or
multisegment and a polygon or multipolygon are parts of segments of the linear operand.  They do not overlap, and they begin and end only
where the linear operand does or where one of its segments meets another one or an edge (`CutOnly`, `Spec/Cut.lean`).  So there are at most
as many of them as pairs of segments and edges which meet.
-/

namespace Clipping

theorem linear_shaped_proper {l : List Segment} {ps : List Polygon} (hl : NoOverlap l) (hp : ValidPolygons ps) :
    ∀ s ∈ l ++ ps.flatMap Polygon.edges, s.Proper := fun s hs => (List.mem_append.1 hs).elim (hl.1 s) (hp.noOverlap.1 s)

theorem CutOnly.sized {L : List Segment} {ps : List Polygon} {r : List Segment} (hl : NoOverlap L) (hp : ValidPolygons ps)
    (h : CutOnly L (ps.flatMap Polygon.edges) r) :
    CutOnly L (ps.flatMap Polygon.edges) r ∧ r.length ≤ contacts (L ++ ps.flatMap Polygon.edges) :=
  ⟨h, h.length_le (linear_shaped_proper hl hp)⟩

theorem CutOnly.sized_single {L : List Segment} {p : Polygon} {r : List Segment} (hl : NoOverlap L) (hp : ValidPolygon p)
    (h : CutOnly L ([p].flatMap Polygon.edges) r) : CutOnly L p.edges r ∧ r.length ≤ contacts (L ++ p.edges) := by
  have e : [p].flatMap Polygon.edges = p.edges := by simp
  rw [e] at h
  exact ⟨h, h.length_le fun s hs => (List.mem_append.1 hs).elim (hl.1 s) (hp.noOverlap.1 s)⟩

variable {o : Orient} (tb : TieBreak)

/-- **C73** Results on a segment and a polygon. -/
theorem segment_with_polygon_cut {a : Segment} {b : Polygon} (hs : a.Proper) (hp : ValidPolygon b) :
    (∃ g, intersectSegmentWithPolygon o tb a b = .ok g ∧ CutOnly [a] b.edges g.linearSegments ∧
      g.linearSegments.length ≤ contacts ([a] ++ b.edges)) ∧
    (∃ g, completeIntersectSegmentWithPolygon o tb a b = .ok g ∧ CutOnly [a] b.edges g.linearSegments ∧
      g.linearSegments.length ≤ contacts ([a] ++ b.edges)) ∧
    (∃ g, subtractPolygonFromSegment o tb a b = .ok g ∧ CutOnly [a] b.edges g.linearSegments ∧
      g.linearSegments.length ≤ contacts ([a] ++ b.edges)) ∧
    (∃ g, uniteSegmentWithPolygon o tb a b = .ok g ∧ CutOnly [a] b.edges g.linearSegments ∧
      g.linearSegments.length ≤ contacts ([a] ++ b.edges)) ∧
    (∃ g, symmetricSubtractPolygonFromSegment o tb a b = .ok g ∧ CutOnly [a] b.edges g.linearSegments ∧
      g.linearSegments.length ≤ contacts ([a] ++ b.edges)) := by
  have k₁ := segmentOperand_ok hs
  have k₂ := polygonOperand_ok hp
  have sz {r} := CutOnly.sized_single (r := r) k₁.no hp
  refine ⟨?_, ?_, ?_, ?_, ?_⟩
  · obtain ⟨g, e, h⟩ := mixedIntersection_cut (o := o) tb k₁ k₂; exact ⟨g, e, sz h⟩
  · obtain ⟨g, e, h⟩ := mixedCompleteIntersection_cut (o := o) tb k₁ k₂; exact ⟨g, e, sz h⟩
  · obtain ⟨g, e, h⟩ := mixedDifference_cut (o := o) tb k₁ k₂ rfl; exact ⟨g, e, sz h⟩
  · obtain ⟨g, e, h⟩ := mixedUnion_cut (o := o) tb k₁ k₂ rfl rfl; exact ⟨g, e, sz h⟩
  · obtain ⟨g, e, h⟩ := mixedUnion_cut (o := o) tb k₁ k₂ rfl rfl; exact ⟨g, e, sz h⟩

/-- **C73** Results on a segment and a multipolygon. -/
theorem segment_with_multipolygon_cut {a : Segment} {b : List Polygon} (hs : a.Proper) (hb : b ≠ []) (vb : ValidPolygons b) :
    (∃ g, intersectSegmentWithMultipolygon o tb a b = .ok g ∧ CutOnly [a] (b.flatMap Polygon.edges) g.linearSegments ∧
      g.linearSegments.length ≤ contacts ([a] ++ b.flatMap Polygon.edges)) ∧
    (∃ g, completeIntersectSegmentWithMultipolygon o tb a b = .ok g ∧ CutOnly [a] (b.flatMap Polygon.edges) g.linearSegments ∧
      g.linearSegments.length ≤ contacts ([a] ++ b.flatMap Polygon.edges)) ∧
    (∃ g, subtractMultipolygonFromSegment o tb a b = .ok g ∧ CutOnly [a] (b.flatMap Polygon.edges) g.linearSegments ∧
      g.linearSegments.length ≤ contacts ([a] ++ b.flatMap Polygon.edges)) ∧
    (∃ g, uniteSegmentWithMultipolygon o tb a b = .ok g ∧ CutOnly [a] (b.flatMap Polygon.edges) g.linearSegments ∧
      g.linearSegments.length ≤ contacts ([a] ++ b.flatMap Polygon.edges)) ∧
    (∃ g, symmetricSubtractMultipolygonFromSegment o tb a b = .ok g ∧ CutOnly [a] (b.flatMap Polygon.edges) g.linearSegments ∧
      g.linearSegments.length ≤ contacts ([a] ++ b.flatMap Polygon.edges)) := by
  have k₁ := segmentOperand_ok hs
  have k₂ := multipolygonOperand_ok hb vb
  have sz {r} := CutOnly.sized (r := r) k₁.no vb
  refine ⟨?_, ?_, ?_, ?_, ?_⟩
  · obtain ⟨g, e, h⟩ := mixedIntersection_cut (o := o) tb k₁ k₂; exact ⟨g, e, sz h⟩
  · obtain ⟨g, e, h⟩ := mixedCompleteIntersection_cut (o := o) tb k₁ k₂; exact ⟨g, e, sz h⟩
  · obtain ⟨g, e, h⟩ := mixedDifference_cut (o := o) tb k₁ k₂ rfl; exact ⟨g, e, sz h⟩
  · obtain ⟨g, e, h⟩ := mixedUnion_cut (o := o) tb k₁ k₂ rfl rfl; exact ⟨g, e, sz h⟩
  · obtain ⟨g, e, h⟩ := mixedUnion_cut (o := o) tb k₁ k₂ rfl rfl; exact ⟨g, e, sz h⟩

/-- **C73** Results on a multisegment and a polygon. -/
theorem multisegment_with_polygon_cut {a : List Segment} {b : Polygon} (ha : a ≠ []) (na : NoOverlap a) (hp : ValidPolygon b) :
    (∃ g, intersectMultisegmentWithPolygon o tb a b = .ok g ∧ CutOnly a b.edges g.linearSegments ∧
      g.linearSegments.length ≤ contacts (a ++ b.edges)) ∧
    (∃ g, completeIntersectMultisegmentWithPolygon o tb a b = .ok g ∧ CutOnly a b.edges g.linearSegments ∧
      g.linearSegments.length ≤ contacts (a ++ b.edges)) ∧
    (∃ g, subtractPolygonFromMultisegment o tb a b = .ok g ∧ CutOnly a b.edges g.linearSegments ∧
      g.linearSegments.length ≤ contacts (a ++ b.edges)) ∧
    (∃ g, uniteMultisegmentWithPolygon o tb a b = .ok g ∧ CutOnly a b.edges g.linearSegments ∧
      g.linearSegments.length ≤ contacts (a ++ b.edges)) ∧
    (∃ g, symmetricSubtractPolygonFromMultisegment o tb a b = .ok g ∧ CutOnly a b.edges g.linearSegments ∧
      g.linearSegments.length ≤ contacts (a ++ b.edges)) := by
  have k₁ := multisegmentOperand_ok ha na
  have k₂ := polygonOperand_ok hp
  have sz {r} := CutOnly.sized_single (r := r) k₁.no hp
  refine ⟨?_, ?_, ?_, ?_, ?_⟩
  · obtain ⟨g, e, h⟩ := mixedIntersection_cut (o := o) tb k₁ k₂; exact ⟨g, e, sz h⟩
  · obtain ⟨g, e, h⟩ := mixedCompleteIntersection_cut (o := o) tb k₁ k₂; exact ⟨g, e, sz h⟩
  · obtain ⟨g, e, h⟩ := mixedDifference_cut (o := o) tb k₁ k₂ rfl; exact ⟨g, e, sz h⟩
  · obtain ⟨g, e, h⟩ := mixedUnion_cut (o := o) tb k₁ k₂ rfl rfl; exact ⟨g, e, sz h⟩
  · obtain ⟨g, e, h⟩ := mixedUnion_cut (o := o) tb k₁ k₂ rfl rfl; exact ⟨g, e, sz h⟩

/-- **C73** Results on a multisegment and a multipolygon. -/
theorem multisegment_with_multipolygon_cut {a : List Segment} {b : List Polygon} (ha : a ≠ []) (na : NoOverlap a) (hb : b ≠ [])
    (vb : ValidPolygons b) :
    (∃ g, intersectMultisegmentWithMultipolygon o tb a b = .ok g ∧ CutOnly a (b.flatMap Polygon.edges) g.linearSegments ∧
      g.linearSegments.length ≤ contacts (a ++ b.flatMap Polygon.edges)) ∧
    (∃ g, completeIntersectMultisegmentWithMultipolygon o tb a b = .ok g ∧ CutOnly a (b.flatMap Polygon.edges) g.linearSegments ∧
      g.linearSegments.length ≤ contacts (a ++ b.flatMap Polygon.edges)) ∧
    (∃ g, subtractMultipolygonFromMultisegment o tb a b = .ok g ∧ CutOnly a (b.flatMap Polygon.edges) g.linearSegments ∧
      g.linearSegments.length ≤ contacts (a ++ b.flatMap Polygon.edges)) ∧
    (∃ g, uniteMultisegmentWithMultipolygon o tb a b = .ok g ∧ CutOnly a (b.flatMap Polygon.edges) g.linearSegments ∧
      g.linearSegments.length ≤ contacts (a ++ b.flatMap Polygon.edges)) ∧
    (∃ g, symmetricSubtractMultipolygonFromMultisegment o tb a b = .ok g ∧ CutOnly a (b.flatMap Polygon.edges) g.linearSegments ∧
      g.linearSegments.length ≤ contacts (a ++ b.flatMap Polygon.edges)) := by
  have k₁ := multisegmentOperand_ok ha na
  have k₂ := multipolygonOperand_ok hb vb
  have sz {r} := CutOnly.sized (r := r) k₁.no vb
  refine ⟨?_, ?_, ?_, ?_, ?_⟩
  · obtain ⟨g, e, h⟩ := mixedIntersection_cut (o := o) tb k₁ k₂; exact ⟨g, e, sz h⟩
  · obtain ⟨g, e, h⟩ := mixedCompleteIntersection_cut (o := o) tb k₁ k₂; exact ⟨g, e, sz h⟩
  · obtain ⟨g, e, h⟩ := mixedDifference_cut (o := o) tb k₁ k₂ rfl; exact ⟨g, e, sz h⟩
  · obtain ⟨g, e, h⟩ := mixedUnion_cut (o := o) tb k₁ k₂ rfl rfl; exact ⟨g, e, sz h⟩
  · obtain ⟨g, e, h⟩ := mixedUnion_cut (o := o) tb k₁ k₂ rfl rfl; exact ⟨g, e, sz h⟩

/-- The segments of the examples of `Properties/Mixed.lean` meet the hypotheses; five segments are returned, see there. -/
example : ∃ g, subtractPolygonFromMultisegment noOrient .id exCut (frame 0 0 4 1 2) = .ok g ∧
    CutOnly exCut (frame 0 0 4 1 2).edges g.linearSegments ∧ g.linearSegments.length ≤ contacts (exCut ++ (frame 0 0 4 1 2).edges) :=
  (multisegment_with_polygon_cut TieBreak.id (by simp [exCut]) exCut_noOverlap (frame_valid (by norm_num) (by norm_num) (by norm_num))).2.2.1

/-- A cut elsewhere is not allowed: the halves of a segment alone. -/
example : ¬ CutOnly [⟨⟨0, 0⟩, ⟨2, 0⟩⟩] [] [⟨⟨0, 0⟩, ⟨1, 0⟩⟩, ⟨⟨1, 0⟩, ⟨2, 0⟩⟩] := by
  intro h
  have := h.length_le (by simp; decide +kernel)
  have := this.trans (contacts_le _)
  simp at this

end Clipping

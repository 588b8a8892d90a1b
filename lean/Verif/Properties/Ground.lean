import Verif.Lemmas.SegmentOps

/-!
# The modelled ground primitives are what their documentation says

These theorems tie the executable definitions of `Verif/Ground/Basic.lean` to point sets.  They are
part of the statement of the trusted base: any implementation of `segments_relation` /
`segments_intersection` with the same point-set meaning is equal to the one used here.
-/

namespace Clipping

/-- `segments_relation` is the only relation with the documented meaning. -/
theorem segmentsRelation_characterized (s t : Segment) (hs : s.Proper) (ht : t.Proper) (r : Relation) :
    segmentsRelation s t = r ↔ RelationMeaning s t r :=
  ⟨fun h => h ▸ relation_spec hs ht, fun h => relation_unique hs ht (relation_spec hs ht) h⟩

/-- `segments_intersection` of touching or crossing segments is their only common point. -/
theorem segmentsIntersection_characterized (s t : Segment) (hs : s.Proper) (ht : t.Proper)
    (h : segmentsRelation s t = .touch ∨ segmentsRelation s t = .cross) (p : Point) :
    segmentsIntersection s t = p ↔ p ∈ s.pts ∧ p ∈ t.pts := by
  obtain ⟨h1, h2, h3⟩ := intersection_spec hs ht h
  exact ⟨by rintro rfl; exact ⟨h1, h2⟩, fun ⟨a, b⟩ => (h3 p a b).symm⟩

/-- Boxes contain their segments, tightly. -/
theorem segmentBox_spec (s : Segment) :
    s.pts ⊆ (segmentBox s).pts ∧ ∀ b : Box, s.pts ⊆ b.pts → (segmentBox s).pts ⊆ b.pts := by
  constructor
  · rintro p ⟨t, h0, h1, hx, hy⟩
    refine ⟨?_, ?_, ?_, ?_⟩ <;> simp only [segmentBox]
    · rw [hx]; rcases le_total s.start.x s.stop.x with h | h
      · rw [min_eq_left h]; nlinarith
      · rw [min_eq_right h]; nlinarith
    · rw [hx]; rcases le_total s.start.x s.stop.x with h | h
      · rw [max_eq_right h]; nlinarith
      · rw [max_eq_left h]; nlinarith
    · rw [hy]; rcases le_total s.start.y s.stop.y with h | h
      · rw [min_eq_left h]; nlinarith
      · rw [min_eq_right h]; nlinarith
    · rw [hy]; rcases le_total s.start.y s.stop.y with h | h
      · rw [max_eq_right h]; nlinarith
      · rw [max_eq_left h]; nlinarith
  · rintro b h p ⟨h1, h2, h3, h4⟩
    obtain ⟨a1, a2, a3, a4⟩ := h s.start_mem
    obtain ⟨b1, b2, b3, b4⟩ := h s.stop_mem
    simp only [segmentBox] at *
    exact ⟨(le_min a1 b1).trans h1, h2.trans (max_le a2 b2), (le_min a3 b3).trans h3,
      h4.trans (max_le a4 b4)⟩

example : (Segment.mk ⟨0, 0⟩ ⟨4, 4⟩).Proper ∧ (Segment.mk ⟨0, 4⟩ ⟨4, 0⟩).Proper ∧
    segmentsRelation ⟨⟨0, 0⟩, ⟨4, 4⟩⟩ ⟨⟨0, 4⟩, ⟨4, 0⟩⟩ = .cross := by
  refine ⟨?_, ?_, ?_⟩ <;> decide +kernel

end Clipping

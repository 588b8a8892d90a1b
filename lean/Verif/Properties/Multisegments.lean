import Verif.Lemmas.MultisegmentOps

/-!
# C07–C10: the sweep-free segment/multisegment functions
-/

namespace Clipping

/-- A valid multisegment with a T-junction, used as witness below. -/
def exM : List Segment := [⟨⟨0, 0⟩, ⟨4, 0⟩⟩, ⟨⟨4, 0⟩, ⟨6, 0⟩⟩, ⟨⟨2, 0⟩, ⟨2, 3⟩⟩]
def exSeg : Segment := ⟨⟨5, 0⟩, ⟨1, 0⟩⟩

theorem exM_valid : ValidSegments exM := by
  have r : ∀ s ∈ exM, ∀ t ∈ exM, s ≠ t → segmentsRelation s t = .touch ∨ segmentsRelation s t = .disjoint := by
    decide +kernel
  have p : ∀ s ∈ exM, s.Proper := by decide +kernel
  refine ⟨p, ?_⟩
  have nd : exM.Nodup := by decide +kernel
  refine List.Pairwise.imp_of_mem ?_ nd
  intro a b ha hb hne
  have hm := relation_spec (p a ha) (p b hb)
  rcases r a ha b hb hne with h | h <;> rw [h] at hm
  · obtain ⟨c, -, -, hu, he⟩ := hm
    exact ok_of_common hu fun _ _ => he
  · exact ok_of_disjoint hm

/-- **C07** `intersect_segment_with_multisegment` returns the regularized intersection: only common
points, missing at most finitely many, no isolated points. -/
theorem intersectSegmentWithMultisegment_intersection (s : Segment) (m : List Segment) (hs : s.Proper)
    (hm : ∀ t ∈ m, t.Proper) :
    IsIntersection s.pts (segsPts m) (intersectSegmentWithMultisegment s m).pts ∧
      (intersectSegmentWithMultisegment s m).IsSegments := by
  have h := intersectList_spec hs m hm
  unfold intersectSegmentWithMultisegment
  rw [unpackSegments_pts]
  refine ⟨⟨?_, h.covers⟩, unpackSegments_isSegments _⟩
  rintro p ⟨r, hr, hp⟩
  obtain ⟨t, ht, a, b⟩ := h.within r hr
  exact ⟨b hp, t, ht, a hp⟩

example : exSeg.Proper ∧ (∀ t ∈ exM, t.Proper) ∧ intersectSegmentWithMultisegmentList exSeg exM =
    [⟨⟨1, 0⟩, ⟨4, 0⟩⟩, ⟨⟨4, 0⟩, ⟨5, 0⟩⟩] := by
  refine ⟨?_, ?_, ?_⟩ <;> decide +kernel

/-- **C08** `subtract_segment_from_multisegment` returns the regularized difference. -/
theorem subtractSegmentFromMultisegment_difference (m : List Segment) (s : Segment) (hs : s.Proper)
    (hm : ValidSegments m) :
    IsDifference (segsPts m) s.pts (subtractSegmentFromMultisegment m s).pts ∧
      (subtractSegmentFromMultisegment m s).IsSegments := by
  have h := subtractList_spec hs m hm
  unfold subtractSegmentFromMultisegment
  rw [unpackSegments_pts]
  refine ⟨⟨h.covers, ?_, ?_⟩, unpackSegments_isSegments _⟩
  · rintro p ⟨r, hr, hp⟩
    obtain ⟨t, ht, a⟩ := h.within r hr
    exact ⟨t, ht, a hp⟩
  · exact segsPts_finite_inter fun r hr => compatible_finite (h.compatible r hr).1

example : exSeg.Proper ∧ ValidSegments exM ∧ subtractSegmentFromMultisegmentList exSeg exM =
    [⟨⟨0, 0⟩, ⟨1, 0⟩⟩, ⟨⟨5, 0⟩, ⟨6, 0⟩⟩, ⟨⟨2, 0⟩, ⟨2, 3⟩⟩] := by
  refine ⟨by decide +kernel, exM_valid, by decide +kernel⟩

/-- **C09** `unite_segment_with_multisegment` returns exactly the points of the operands. -/
theorem uniteSegmentWithMultisegment_exact (s : Segment) (m : List Segment) (hs : s.Proper)
    (hm : ValidSegments m) :
    (uniteSegmentWithMultisegment s m).pts = s.pts ∪ segsPts m := by
  have h := subtractList_spec hs m hm
  unfold uniteSegmentWithMultisegment
  rw [unpackSegments_pts, segsPts_append, segsPts_cons, segsPts_nil, Set.union_empty]
  ext p
  constructor
  · rintro (⟨r, hr, hp⟩ | hp)
    · obtain ⟨t, ht, a⟩ := h.within r hr
      exact Or.inr ⟨t, ht, a hp⟩
    · exact Or.inl hp
  · rintro (hp | hp)
    · exact Or.inr hp
    · by_cases hq : p ∈ s.pts
      · exact Or.inr hq
      · exact Or.inl (h.covers ⟨hp, hq⟩)

example : exSeg.Proper ∧ ValidSegments exM := ⟨by decide +kernel, exM_valid⟩

/-- **C10** results of the three segment/multisegment functions are well-formed. -/
theorem multisegment_results_ok (s : Segment) (m : List Segment) (hs : s.Proper) (hm : ValidSegments m) :
    (intersectSegmentWithMultisegment s m).LinearOk ∧ (subtractSegmentFromMultisegment m s).LinearOk ∧
      (uniteSegmentWithMultisegment s m).LinearOk := by
  have h := subtractList_spec hs m hm
  refine ⟨?_, ?_, ?_⟩
  · exact unpackSegments_ok ((intersectList_spec hs m hm.1).valid hm)
  · exact unpackSegments_ok h.valid
  · refine unpackSegments_ok ⟨?_, ?_⟩
    · intro r hr
      rcases List.mem_append.1 hr with hr | hr
      · exact h.valid.1 r hr
      · rw [List.mem_singleton.1 hr]; exact hs
    · rw [List.pairwise_append]
      refine ⟨h.valid.2, List.pairwise_singleton _ _, ?_⟩
      intro a ha b hb
      rw [List.mem_singleton.1 hb]; exact h.compatible a ha

end Clipping

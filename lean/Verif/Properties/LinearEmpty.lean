import Verif.Properties.LinearWritten

/-!
# C61: results with segments are empty exactly if there is nothing in them
-/

namespace Clipping

theorem Geometry.LinearOk.empty_iff {g : Geometry} (h : g.LinearOk) : g = .empty ↔ g.pts = ∅ := by
  constructor
  · rintro rfl
    rfl
  · intro e
    have n : ∀ q, q ∉ g.discretePoints ∧ q ∉ segsPts g.linearSegments := fun q => by
      have := h.pts_iff q
      rw [e] at this
      exact not_or.1 (this.not.1 id)
    have n1 : g.discretePoints = [] := List.eq_nil_iff_forall_not_mem.2 fun q => (n q).1
    have n2 : g.linearSegments = [] := List.eq_nil_iff_forall_not_mem.2 fun s hs => (n s.start).2 ⟨s, hs, s.start_mem⟩
    cases g with
    | empty => rfl
    | multipoint ps => exact (h.1 n1).elim
    | segment s => cases n2
    | multisegment l =>
      have := h.1
      rw [show l = [] from n2] at this
      cases this
    | polygon p => exact h.elim
    | multipolygon ps => exact h.elim
    | mix d l s =>
      obtain ⟨⟨ps, rfl, hp, -⟩, -⟩ := h
      exact (hp n1).elim

section

variable {A B : Set Point} {g : Geometry}

/-- A geometry of segments with finitely many points is empty. -/
theorem Geometry.IsSegments.empty_of_finite (hs : g.IsSegments) (hok : g.LinearOk) (h : g.pts.Finite) : g = .empty := by
  rw [hok.empty_iff, hs.pts_eq]
  refine (segsPts_eq_of_finite hok.proper (l' := []) (by simp) ?_ ?_).trans segsPts_nil
  · rw [hs.pts_eq] at h
    exact h.subset Set.sdiff_subset
  · rw [segsPts_nil, Set.empty_sdiff]
    exact Set.finite_empty

theorem IsIntersection.empty_iff (hs : g.IsSegments) (hok : g.LinearOk) (h : IsIntersection A B g.pts) : g = .empty ↔ (A ∩ B).Finite := by
  constructor
  · rintro rfl
    have := h.finite
    rwa [show Geometry.empty.pts = ∅ from rfl, Set.sdiff_empty] at this
  · exact fun hf => hs.empty_of_finite hok (hf.subset h.within)

theorem IsDifference.empty_iff (hs : g.IsSegments) (hok : g.LinearOk) (h : IsDifference A B g.pts) : g = .empty ↔ A ⊆ B := by
  constructor
  · rintro rfl
    exact Set.sdiff_eq_empty.1 (Set.subset_empty_iff.1 h.covers)
  · exact fun hf => hs.empty_of_finite hok (h.finite.subset fun q hq => ⟨hq, hf (h.within hq)⟩)

theorem IsSymmetricDifference.empty_iff (hs : g.IsSegments) (hok : g.LinearOk) (h : IsSymmetricDifference A B g.pts) :
    g = .empty ↔ A = B := by
  constructor
  · rintro rfl
    refine Set.Subset.antisymm (fun q hq => ?_) fun q hq => ?_
    · by_contra hb
      exact h.covers (Or.inl ⟨hq, hb⟩)
    · by_contra hb
      exact h.covers (Or.inr ⟨hq, hb⟩)
  · rintro rfl
    refine hs.empty_of_finite hok (h.finite.subset fun q hq => ⟨hq, ?_⟩)
    have := h.within hq
    rw [Set.union_self] at this
    exact ⟨this, this⟩

end

/-! ## Two segments -/

section

variable {s t : Segment} (hs : s.Proper) (ht : t.Proper)
include hs ht

/-- **C61** `intersect_segments` -/
theorem intersectSegments_empty : intersectSegments s t = .empty ↔ s.pts ∩ t.pts = ∅ := by
  rw [(segments_results_ok s t hs ht).1.empty_iff, intersectSegments_exact s t hs ht]

/-- **C61** `subtract_segments` -/
theorem subtractSegments_empty : subtractSegments s t = .empty ↔ s.pts ⊆ t.pts := by
  obtain ⟨h, k⟩ := subtractSegments_difference s t hs ht
  exact h.empty_iff k (segments_results_ok s t hs ht).2.1

/-- **C61** `symmetric_subtract_segments` -/
theorem symmetricSubtractSegments_empty : symmetricSubtractSegments s t = .empty ↔ s.pts = t.pts := by
  obtain ⟨h, k⟩ := symmetricSubtractSegments_symmetricDifference s t hs ht
  exact h.empty_iff k (segments_results_ok s t hs ht).2.2.1

/-- **C61** `unite_segments` -/
theorem uniteSegments_empty : uniteSegments s t ≠ .empty := by
  rw [Ne, (segments_results_ok s t hs ht).2.2.2.empty_iff, uniteSegments_exact s t hs ht]
  exact Set.Nonempty.ne_empty ⟨s.start, Or.inl s.start_mem⟩

end

/-! ## A segment and a multisegment -/

section

variable {s : Segment} {m : List Segment} (hs : s.Proper) (hm : ValidSegments m)
include hs hm

/-- **C61** `intersect_segment_with_multisegment` -/
theorem intersectSegmentWithMultisegment_empty : intersectSegmentWithMultisegment s m = .empty ↔ (s.pts ∩ segsPts m).Finite := by
  obtain ⟨h, k⟩ := intersectSegmentWithMultisegment_intersection s m hs hm.1
  exact h.empty_iff k (multisegment_results_ok s m hs hm).1

/-- **C61** `subtract_segment_from_multisegment` -/
theorem subtractSegmentFromMultisegment_empty : subtractSegmentFromMultisegment m s = .empty ↔ segsPts m ⊆ s.pts := by
  obtain ⟨h, k⟩ := subtractSegmentFromMultisegment_difference m s hs hm
  exact h.empty_iff k (multisegment_results_ok s m hs hm).2.1

/-- **C61** `unite_segment_with_multisegment` -/
theorem uniteSegmentWithMultisegment_empty : uniteSegmentWithMultisegment s m ≠ .empty := by
  rw [Ne, (multisegment_results_ok s m hs hm).2.2.empty_iff, uniteSegmentWithMultisegment_exact s m hs hm]
  exact Set.Nonempty.ne_empty ⟨s.start, Or.inl s.start_mem⟩

variable (tb : TieBreak) (lm : 2 ≤ m.length)
include lm

/-- **C61** `complete_intersect_segment_with_multisegment` -/
theorem completeIntersectSegmentWithMultisegment_empty :
    completeIntersectSegmentWithMultisegment tb s m = .ok .empty ↔ s.pts ∩ segsPts m = ∅ := by
  obtain ⟨ps, l, e, h, -⟩ := completeIntersectSegmentWithMultisegment_intersection tb hs (List.ne_nil_of_length_pos (by omega)) hm.noOverlap
  have k := multisegment_operations_wellFormed tb lm lm hm hm hs _ (Or.inr (Or.inr (Or.inr (Or.inr (Or.inr (Or.inl e))))))
  rw [e, ← h, ← k.empty_iff, Except.ok.injEq]

/-- **C61** `subtract_multisegment_from_segment`: only if the minuend is in the subtrahend; the converse fails with C19. -/
theorem subtractMultisegmentFromSegment_subset_of_empty :
    subtractMultisegmentFromSegment tb s m = .ok .empty → s.pts ⊆ segsPts m := by
  obtain ⟨g, e, -, h, -⟩ := subtractMultisegmentFromSegment_difference_partial tb hs (List.ne_nil_of_length_pos (by omega)) hm.noOverlap
  rw [e, Except.ok.injEq]
  rintro rfl
  exact Set.sdiff_eq_empty.1 (Set.subset_empty_iff.1 h)

/-- **C61** `symmetric_subtract_multisegment_from_segment` -/
theorem symmetricSubtractMultisegmentFromSegment_empty :
    symmetricSubtractMultisegmentFromSegment tb s m = .ok .empty ↔ s.pts = segsPts m := by
  obtain ⟨g, e, k, h⟩ := symmetricSubtractMultisegmentFromSegment_difference tb hs (List.ne_nil_of_length_pos (by omega)) hm.noOverlap
  rw [e, Except.ok.injEq]
  exact h.empty_iff k (multisegment_operations_wellFormed tb lm lm hm hm hs _ (by tauto))

end

/-! ## Two multisegments -/

section

variable {a b : List Segment} (la : 2 ≤ a.length) (lb : 2 ≤ b.length) (va : ValidSegments a) (vb : ValidSegments b) (tb : TieBreak)
include la lb va vb

/-- **C61** `complete_intersect_multisegments` -/
theorem completeIntersectMultisegments_empty : completeIntersectMultisegments tb a b = .ok .empty ↔ segsPts a ∩ segsPts b = ∅ := by
  obtain ⟨ps, l, e, h, -⟩ := completeIntersectMultisegments_intersection tb (List.ne_nil_of_length_pos (by omega))
    (List.ne_nil_of_length_pos (by omega)) va.noOverlap vb.noOverlap
  have k := multisegment_operations_wellFormed tb la lb va vb (s := ⟨⟨0, 0⟩, ⟨1, 0⟩⟩) (by decide +kernel) _ (Or.inl e)
  rw [e, ← h, ← k.empty_iff, Except.ok.injEq]

/-- **C61** `intersect_multisegments` returns nothing if there are finitely many common points; the converse fails with C17. -/
theorem intersectMultisegments_empty_of_finite : (segsPts a ∩ segsPts b).Finite → intersectMultisegments tb a b = .ok .empty := by
  obtain ⟨g, e, k, h, -⟩ := intersectMultisegments_intersection_partial tb (List.ne_nil_of_length_pos (by omega))
    (List.ne_nil_of_length_pos (by omega)) va.noOverlap vb.noOverlap
  intro hf
  rw [e, k.empty_of_finite (multisegment_operations_wellFormed tb la lb va vb (s := ⟨⟨0, 0⟩, ⟨1, 0⟩⟩) (by decide +kernel) _
    (Or.inr (Or.inl e))) (hf.subset h)]

/-- **C61** `subtract_multisegments`: only if the minuend is in the subtrahend; the converse fails with C19. -/
theorem subtractMultisegments_subset_of_empty : subtractMultisegments tb a b = .ok .empty → segsPts a ⊆ segsPts b := by
  obtain ⟨g, e, -, h, -⟩ := subtractMultisegments_difference_partial tb (List.ne_nil_of_length_pos (by omega))
    (List.ne_nil_of_length_pos (by omega)) va.noOverlap vb.noOverlap
  rw [e, Except.ok.injEq]
  rintro rfl
  exact Set.sdiff_eq_empty.1 (Set.subset_empty_iff.1 h)

/-- **C61** `symmetric_subtract_multisegments` -/
theorem symmetricSubtractMultisegments_empty : symmetricSubtractMultisegments tb a b = .ok .empty ↔ segsPts a = segsPts b := by
  obtain ⟨g, e, k, h⟩ := symmetricSubtractMultisegments_difference tb (List.ne_nil_of_length_pos (by omega))
    (List.ne_nil_of_length_pos (by omega)) va.noOverlap vb.noOverlap
  rw [e, Except.ok.injEq]
  exact h.empty_iff k (multisegment_operations_wellFormed tb la lb va vb (s := ⟨⟨0, 0⟩, ⟨1, 0⟩⟩) (by decide +kernel) _ (by tauto))

/-- **C61** `unite_multisegments` -/
theorem uniteMultisegments_empty : uniteMultisegments tb a b ≠ .ok .empty := by
  obtain ⟨l, e, -⟩ := linearUnion_result tb (multisegmentOperand_ok (a := a) (List.ne_nil_of_length_pos (by omega)) va.noOverlap)
    (multisegmentOperand_ok (a := b) (List.ne_nil_of_length_pos (by omega)) vb.noOverlap)
  intro e'
  have := e.symm.trans e'
  cases this

end

/-! ## Segments and polygons -/

section

variable {o : Orient} (ok : OrientOk o) (tb : TieBreak)
include ok

/-- **C61** `intersect_segment_with_polygon` -/
theorem intersectSegmentWithPolygon_empty {a : Segment} {b : Polygon} (ha : a.Proper) (vb : ValidPolygon b) :
    intersectSegmentWithPolygon o tb a b = .ok .empty ↔ (a.pts ∩ b.pts).Finite := by
  obtain ⟨g, e, k, l, h⟩ := intersectSegmentWithPolygon_intersection ok tb (a := a) ha vb
  rw [e, Except.ok.injEq]
  exact h.empty_iff k l

/-- **C61** `complete_intersect_segment_with_polygon` -/
theorem completeIntersectSegmentWithPolygon_empty {a : Segment} {b : Polygon} (ha : a.Proper) (vb : ValidPolygon b) :
    completeIntersectSegmentWithPolygon o tb a b = .ok .empty ↔ a.pts ∩ b.pts = ∅ := by
  obtain ⟨ps, r, e, h, l, -⟩ := completeIntersectSegmentWithPolygon_intersection ok tb (a := a) ha vb
  rw [e, ← h, ← l.empty_iff, Except.ok.injEq]

/-- **C61** `subtract_polygon_from_segment`: only if the minuend is in the subtrahend; the converse fails with C38. -/
theorem subtractPolygonFromSegment_subset_of_empty {a : Segment} {b : Polygon} (ha : a.Proper) (vb : ValidPolygon b) :
    subtractPolygonFromSegment o tb a b = .ok .empty → a.pts ⊆ b.pts := by
  obtain ⟨g, e, -, h, -⟩ := subtractPolygonFromSegment_difference_partial ok tb (a := a) ha vb
  rw [e, Except.ok.injEq]
  rintro rfl
  exact Set.sdiff_eq_empty.1 (Set.subset_empty_iff.1 h)

/-- **C61** `unite_segment_with_polygon` has nothing but the polygons exactly if all points of the linear operand are in them; it is never empty. -/
theorem uniteSegmentWithPolygon_empty {a : Segment} {b : Polygon} (ha : a.Proper) (vb : ValidPolygon b) :
    (uniteSegmentWithPolygon o tb a b = .ok (.polygon b) ↔ a.pts ⊆ b.pts) ∧ uniteSegmentWithPolygon o tb a b ≠ .ok .empty := by
  obtain ⟨out, e, -, g, k, h, f⟩ := uniteSegmentWithPolygon_union ok tb (a := a) ha vb
  obtain ⟨w, l, fw⟩ := (mixed_operations_wellFormed ok tb (a := exA) (by decide) exA_valid ha vb (bs := [b]) (by simp) vb.validPolygons).2.1 out (Or.inl e)
  obtain rfl := union_linear (fun _ _ _ => by simp) (f.symm.trans fw)
  rw [e, f, ← h.empty_iff k l, Except.ok.injEq, Ne, Except.ok.injEq]
  cases g <;> simp [Geometry.isEmpty]

/-- **C61** `symmetric_subtract_polygon_from_segment` has nothing but the polygons exactly if all points of the linear operand are in them; it is never empty. -/
theorem symmetricSubtractPolygonFromSegment_empty {a : Segment} {b : Polygon} (ha : a.Proper) (vb : ValidPolygon b) :
    (symmetricSubtractPolygonFromSegment o tb a b = .ok (.polygon b) ↔ a.pts ⊆ b.pts) ∧ symmetricSubtractPolygonFromSegment o tb a b ≠ .ok .empty := by
  obtain ⟨out, e, -, g, k, h, f⟩ := symmetricSubtractPolygonFromSegment_union ok tb (a := a) ha vb
  obtain ⟨w, l, fw⟩ := (mixed_operations_wellFormed ok tb (a := exA) (by decide) exA_valid ha vb (bs := [b]) (by simp) vb.validPolygons).2.1 out (Or.inl e)
  obtain rfl := union_linear (fun _ _ _ => by simp) (f.symm.trans fw)
  rw [e, f, ← h.empty_iff k l, Except.ok.injEq, Ne, Except.ok.injEq]
  cases g <;> simp [Geometry.isEmpty]

/-- **C61** `intersect_segment_with_multipolygon` -/
theorem intersectSegmentWithMultipolygon_empty {a : Segment} {b : List Polygon} (ha : a.Proper) (hb : b ≠ []) (vb : ValidPolygons b) :
    intersectSegmentWithMultipolygon o tb a b = .ok .empty ↔ (a.pts ∩ polysPts b).Finite := by
  obtain ⟨g, e, k, l, h⟩ := intersectSegmentWithMultipolygon_intersection ok tb (a := a) ha hb vb
  rw [e, Except.ok.injEq]
  exact h.empty_iff k l

/-- **C61** `complete_intersect_segment_with_multipolygon` -/
theorem completeIntersectSegmentWithMultipolygon_empty {a : Segment} {b : List Polygon} (ha : a.Proper) (hb : b ≠ []) (vb : ValidPolygons b) :
    completeIntersectSegmentWithMultipolygon o tb a b = .ok .empty ↔ a.pts ∩ polysPts b = ∅ := by
  obtain ⟨ps, r, e, h, l, -⟩ := completeIntersectSegmentWithMultipolygon_intersection ok tb (a := a) ha hb vb
  rw [e, ← h, ← l.empty_iff, Except.ok.injEq]

/-- **C61** `subtract_multipolygon_from_segment`: only if the minuend is in the subtrahend; the converse fails with C38. -/
theorem subtractMultipolygonFromSegment_subset_of_empty {a : Segment} {b : List Polygon} (ha : a.Proper) (hb : b ≠ []) (vb : ValidPolygons b) :
    subtractMultipolygonFromSegment o tb a b = .ok .empty → a.pts ⊆ polysPts b := by
  obtain ⟨g, e, -, h, -⟩ := subtractMultipolygonFromSegment_difference_partial ok tb (a := a) ha hb vb
  rw [e, Except.ok.injEq]
  rintro rfl
  exact Set.sdiff_eq_empty.1 (Set.subset_empty_iff.1 h)

/-- **C61** `unite_segment_with_multipolygon` has nothing but the polygons exactly if all points of the linear operand are in them; it is never empty. -/
theorem uniteSegmentWithMultipolygon_empty {a : Segment} {b : List Polygon} (ha : a.Proper) (hb : b ≠ []) (vb : ValidPolygons b) :
    (uniteSegmentWithMultipolygon o tb a b = .ok (.multipolygon b) ↔ a.pts ⊆ polysPts b) ∧ uniteSegmentWithMultipolygon o tb a b ≠ .ok .empty := by
  obtain ⟨out, e, -, g, k, h, f⟩ := uniteSegmentWithMultipolygon_union ok tb (a := a) ha hb vb
  obtain ⟨w, l, fw⟩ := (mixed_operations_wellFormed ok tb (a := exA) (by decide) exA_valid ha (b := exTriangle) exTriangle_valid hb vb).2.2 out (Or.inl e)
  obtain rfl := union_linear (fun _ _ _ => by simp) (f.symm.trans fw)
  rw [e, f, ← h.empty_iff k l, Except.ok.injEq, Ne, Except.ok.injEq]
  cases g <;> simp [Geometry.isEmpty]

/-- **C61** `symmetric_subtract_multipolygon_from_segment` has nothing but the polygons exactly if all points of the linear operand are in them; it is never empty. -/
theorem symmetricSubtractMultipolygonFromSegment_empty {a : Segment} {b : List Polygon} (ha : a.Proper) (hb : b ≠ []) (vb : ValidPolygons b) :
    (symmetricSubtractMultipolygonFromSegment o tb a b = .ok (.multipolygon b) ↔ a.pts ⊆ polysPts b) ∧ symmetricSubtractMultipolygonFromSegment o tb a b ≠ .ok .empty := by
  obtain ⟨out, e, -, g, k, h, f⟩ := symmetricSubtractMultipolygonFromSegment_union ok tb (a := a) ha hb vb
  obtain ⟨w, l, fw⟩ := (mixed_operations_wellFormed ok tb (a := exA) (by decide) exA_valid ha (b := exTriangle) exTriangle_valid hb vb).2.2 out (Or.inl e)
  obtain rfl := union_linear (fun _ _ _ => by simp) (f.symm.trans fw)
  rw [e, f, ← h.empty_iff k l, Except.ok.injEq, Ne, Except.ok.injEq]
  cases g <;> simp [Geometry.isEmpty]

/-- **C61** `intersect_multisegment_with_polygon` -/
theorem intersectMultisegmentWithPolygon_empty {a : List Segment} {b : Polygon} (ha : 2 ≤ a.length) (na : ValidSegments a) (vb : ValidPolygon b) :
    intersectMultisegmentWithPolygon o tb a b = .ok .empty ↔ (segsPts a ∩ b.pts).Finite := by
  obtain ⟨g, e, k, l, h⟩ := intersectMultisegmentWithPolygon_intersection ok tb (a := a) (List.ne_nil_of_length_pos (by omega)) na.noOverlap vb
  rw [e, Except.ok.injEq]
  exact h.empty_iff k l

/-- **C61** `complete_intersect_multisegment_with_polygon` -/
theorem completeIntersectMultisegmentWithPolygon_empty {a : List Segment} {b : Polygon} (ha : 2 ≤ a.length) (na : ValidSegments a) (vb : ValidPolygon b) :
    completeIntersectMultisegmentWithPolygon o tb a b = .ok .empty ↔ segsPts a ∩ b.pts = ∅ := by
  obtain ⟨ps, r, e, h, l, -⟩ := completeIntersectMultisegmentWithPolygon_intersection ok tb (a := a) (List.ne_nil_of_length_pos (by omega)) na.noOverlap vb
  rw [e, ← h, ← l.empty_iff, Except.ok.injEq]

/-- **C61** `subtract_polygon_from_multisegment`: only if the minuend is in the subtrahend; the converse fails with C38. -/
theorem subtractPolygonFromMultisegment_subset_of_empty {a : List Segment} {b : Polygon} (ha : 2 ≤ a.length) (na : ValidSegments a) (vb : ValidPolygon b) :
    subtractPolygonFromMultisegment o tb a b = .ok .empty → segsPts a ⊆ b.pts := by
  obtain ⟨g, e, -, h, -⟩ := subtractPolygonFromMultisegment_difference_partial ok tb (a := a) (List.ne_nil_of_length_pos (by omega)) na.noOverlap vb
  rw [e, Except.ok.injEq]
  rintro rfl
  exact Set.sdiff_eq_empty.1 (Set.subset_empty_iff.1 h)

/-- **C61** `unite_multisegment_with_polygon` has nothing but the polygons exactly if all points of the linear operand are in them; it is never empty. -/
theorem uniteMultisegmentWithPolygon_empty {a : List Segment} {b : Polygon} (ha : 2 ≤ a.length) (na : ValidSegments a) (vb : ValidPolygon b) :
    (uniteMultisegmentWithPolygon o tb a b = .ok (.polygon b) ↔ segsPts a ⊆ b.pts) ∧ uniteMultisegmentWithPolygon o tb a b ≠ .ok .empty := by
  obtain ⟨out, e, -, g, k, h, f⟩ := uniteMultisegmentWithPolygon_union ok tb (a := a) (List.ne_nil_of_length_pos (by omega)) na.noOverlap vb
  obtain ⟨w, l, fw⟩ := (mixed_operations_wellFormed ok tb ha na (t := ⟨⟨0, 0⟩, ⟨1, 0⟩⟩) (by decide +kernel) vb (bs := [b]) (by simp) vb.validPolygons).2.1 out (Or.inr e)
  obtain rfl := union_linear (fun _ _ _ => by simp) (f.symm.trans fw)
  rw [e, f, ← h.empty_iff k l, Except.ok.injEq, Ne, Except.ok.injEq]
  cases g <;> simp [Geometry.isEmpty]

/-- **C61** `symmetric_subtract_polygon_from_multisegment` has nothing but the polygons exactly if all points of the linear operand are in them; it is never empty. -/
theorem symmetricSubtractPolygonFromMultisegment_empty {a : List Segment} {b : Polygon} (ha : 2 ≤ a.length) (na : ValidSegments a) (vb : ValidPolygon b) :
    (symmetricSubtractPolygonFromMultisegment o tb a b = .ok (.polygon b) ↔ segsPts a ⊆ b.pts) ∧ symmetricSubtractPolygonFromMultisegment o tb a b ≠ .ok .empty := by
  obtain ⟨out, e, -, g, k, h, f⟩ := symmetricSubtractPolygonFromMultisegment_union ok tb (a := a) (List.ne_nil_of_length_pos (by omega)) na.noOverlap vb
  obtain ⟨w, l, fw⟩ := (mixed_operations_wellFormed ok tb ha na (t := ⟨⟨0, 0⟩, ⟨1, 0⟩⟩) (by decide +kernel) vb (bs := [b]) (by simp) vb.validPolygons).2.1 out (Or.inr e)
  obtain rfl := union_linear (fun _ _ _ => by simp) (f.symm.trans fw)
  rw [e, f, ← h.empty_iff k l, Except.ok.injEq, Ne, Except.ok.injEq]
  cases g <;> simp [Geometry.isEmpty]

/-- **C61** `intersect_multisegment_with_multipolygon` -/
theorem intersectMultisegmentWithMultipolygon_empty {a : List Segment} {b : List Polygon} (ha : 2 ≤ a.length) (na : ValidSegments a) (hb : b ≠ []) (vb : ValidPolygons b) :
    intersectMultisegmentWithMultipolygon o tb a b = .ok .empty ↔ (segsPts a ∩ polysPts b).Finite := by
  obtain ⟨g, e, k, l, h⟩ := intersectMultisegmentWithMultipolygon_intersection ok tb (a := a) (List.ne_nil_of_length_pos (by omega)) na.noOverlap hb vb
  rw [e, Except.ok.injEq]
  exact h.empty_iff k l

/-- **C61** `complete_intersect_multisegment_with_multipolygon` -/
theorem completeIntersectMultisegmentWithMultipolygon_empty {a : List Segment} {b : List Polygon} (ha : 2 ≤ a.length) (na : ValidSegments a) (hb : b ≠ []) (vb : ValidPolygons b) :
    completeIntersectMultisegmentWithMultipolygon o tb a b = .ok .empty ↔ segsPts a ∩ polysPts b = ∅ := by
  obtain ⟨ps, r, e, h, l, -⟩ := completeIntersectMultisegmentWithMultipolygon_intersection ok tb (a := a) (List.ne_nil_of_length_pos (by omega)) na.noOverlap hb vb
  rw [e, ← h, ← l.empty_iff, Except.ok.injEq]

/-- **C61** `subtract_multipolygon_from_multisegment`: only if the minuend is in the subtrahend; the converse fails with C38. -/
theorem subtractMultipolygonFromMultisegment_subset_of_empty {a : List Segment} {b : List Polygon} (ha : 2 ≤ a.length) (na : ValidSegments a) (hb : b ≠ []) (vb : ValidPolygons b) :
    subtractMultipolygonFromMultisegment o tb a b = .ok .empty → segsPts a ⊆ polysPts b := by
  obtain ⟨g, e, -, h, -⟩ := subtractMultipolygonFromMultisegment_difference_partial ok tb (a := a) (List.ne_nil_of_length_pos (by omega)) na.noOverlap hb vb
  rw [e, Except.ok.injEq]
  rintro rfl
  exact Set.sdiff_eq_empty.1 (Set.subset_empty_iff.1 h)

/-- **C61** `unite_multisegment_with_multipolygon` has nothing but the polygons exactly if all points of the linear operand are in them; it is never empty. -/
theorem uniteMultisegmentWithMultipolygon_empty {a : List Segment} {b : List Polygon} (ha : 2 ≤ a.length) (na : ValidSegments a) (hb : b ≠ []) (vb : ValidPolygons b) :
    (uniteMultisegmentWithMultipolygon o tb a b = .ok (.multipolygon b) ↔ segsPts a ⊆ polysPts b) ∧ uniteMultisegmentWithMultipolygon o tb a b ≠ .ok .empty := by
  obtain ⟨out, e, -, g, k, h, f⟩ := uniteMultisegmentWithMultipolygon_union ok tb (a := a) (List.ne_nil_of_length_pos (by omega)) na.noOverlap hb vb
  obtain ⟨w, l, fw⟩ := (mixed_operations_wellFormed ok tb ha na (t := ⟨⟨0, 0⟩, ⟨1, 0⟩⟩) (by decide +kernel) (b := exTriangle) exTriangle_valid hb vb).2.2 out (Or.inr e)
  obtain rfl := union_linear (fun _ _ _ => by simp) (f.symm.trans fw)
  rw [e, f, ← h.empty_iff k l, Except.ok.injEq, Ne, Except.ok.injEq]
  cases g <;> simp [Geometry.isEmpty]

/-- **C61** `symmetric_subtract_multipolygon_from_multisegment` has nothing but the polygons exactly if all points of the linear operand are in them; it is never empty. -/
theorem symmetricSubtractMultipolygonFromMultisegment_empty {a : List Segment} {b : List Polygon} (ha : 2 ≤ a.length) (na : ValidSegments a) (hb : b ≠ []) (vb : ValidPolygons b) :
    (symmetricSubtractMultipolygonFromMultisegment o tb a b = .ok (.multipolygon b) ↔ segsPts a ⊆ polysPts b) ∧ symmetricSubtractMultipolygonFromMultisegment o tb a b ≠ .ok .empty := by
  obtain ⟨out, e, -, g, k, h, f⟩ := symmetricSubtractMultipolygonFromMultisegment_union ok tb (a := a) (List.ne_nil_of_length_pos (by omega)) na.noOverlap hb vb
  obtain ⟨w, l, fw⟩ := (mixed_operations_wellFormed ok tb ha na (t := ⟨⟨0, 0⟩, ⟨1, 0⟩⟩) (by decide +kernel) (b := exTriangle) exTriangle_valid hb vb).2.2 out (Or.inr e)
  obtain rfl := union_linear (fun _ _ _ => by simp) (f.symm.trans fw)
  rw [e, f, ← h.empty_iff k l, Except.ok.injEq, Ne, Except.ok.injEq]
  cases g <;> simp [Geometry.isEmpty]

end

/-! ## Examples -/

example (tb : TieBreak) : symmetricSubtractMultisegments tb exA exDivided = .ok .empty :=
  (symmetricSubtractMultisegments_empty (by decide) (by decide) exA_valid exDivided_valid tb).2 exDivided_points

example (tb : TieBreak) : completeIntersectMultisegmentWithPolygon (Classical.choose exists_orient) tb exA exTriangle = .ok .empty ↔
    segsPts exA ∩ exTriangle.pts = ∅ :=
  completeIntersectMultisegmentWithPolygon_empty (Classical.choose_spec exists_orient) tb (by decide) exA_valid exTriangle_valid

example : subtractSegments exS exT = .empty ↔ exS.pts ⊆ exT.pts := subtractSegments_empty (by decide +kernel) (by decide +kernel)

/-- The converse for `subtract_multisegments` fails: the minuend is in the subtrahend and the result is not empty. -/
theorem subtractMultisegmentFromSegment_not_empty : ¬ ∀ (s : Segment) (m : List Segment), s.Proper → 2 ≤ m.length → ValidSegments m →
    s.pts ⊆ segsPts m → subtractMultisegmentFromSegment .id s m = .ok .empty := by
  intro h
  have := h ⟨⟨0, 0⟩, ⟨2, 2⟩⟩ exLong (by decide +kernel) (by decide) exLong_valid
    (fun q hq => ⟨_, by simp [exLong], exDiag_sub hq⟩)
  revert this
  decide +kernel

/-- The converse for `intersect_multisegments` fails. -/
theorem intersectMultisegments_not_empty : ¬ ∀ (a b : List Segment), 2 ≤ a.length → 2 ≤ b.length → ValidSegments a → ValidSegments b →
    intersectMultisegments .id a b = .ok .empty → (segsPts a ∩ segsPts b).Finite := by
  intro h
  have := h exDiag exLong (by decide) (by decide) exDiag_valid exLong_valid (by decide +kernel)
  exact overlapping_of_finite_false (s := ⟨⟨0, 0⟩, ⟨2, 2⟩⟩) (by decide +kernel)
    (this.subset fun q hq => ⟨⟨_, by simp [exDiag], hq⟩, ⟨_, by simp [exLong], exDiag_sub hq⟩⟩)

end Clipping

import Verif.Model.Planar
import Verif.Lemmas.LinearComplete
import Verif.Properties.Multisegments

/-!
# C15–C21: the operations on multisegments which sweep

`a` and `b` are lists of segments, `tb` is how the priority queue orders events of which neither
precedes the other.  Nothing is assumed of an operand but that it has a segment and that no two of its
segments overlap (they may even cross).
-/

namespace Clipping

deriving instance DecidableEq for Geometry
deriving instance DecidableEq for Except

variable (tb : TieBreak)

theorem multisegmentOperand_ok {a : List Segment} (ha : a ≠ []) (na : NoOverlap a) :
    OperandOk (multisegmentOperand a) := ⟨ha, na, rfl⟩

theorem segmentOperand_ok {s : Segment} (hs : s.Proper) : OperandOk (segmentOperand s) := by
  refine ⟨by simp [segmentOperand], ⟨?_, ?_⟩, ?_⟩
  · simpa [segmentOperand] using hs
  · simp [segmentOperand]
  · show s.pts = segsPts [s]
    rw [segsPts_cons, segsPts_nil, Set.union_empty]

theorem unpackPoints_pts (ps : List Point) : (unpackPoints ps).pts = {q | q ∈ ps} := by
  cases ps with
  | nil => simp [unpackPoints, Geometry.pts]
  | cons p ps => rfl

theorem unpackLinearMix_pts (ps : List Point) (l : List Segment) :
    (unpackLinearMix (unpackPoints ps) (unpackSegments l)).pts = {q | q ∈ ps ∨ q ∈ segsPts l} := by
  have e : {q | q ∈ ps ∨ q ∈ segsPts l} = (unpackPoints ps).pts ∪ (unpackSegments l).pts := by
    rw [unpackPoints_pts, unpackSegments_pts]; rfl
  rw [e]
  match ps, l with
  | [], [] => simp [unpackLinearMix, unpackPoints, unpackSegments, Geometry.isEmpty, Geometry.pts]
  | [], [_] => simp [unpackLinearMix, unpackPoints, unpackSegments, Geometry.isEmpty, Geometry.pts]
  | [], _ :: _ :: _ => simp [unpackLinearMix, unpackPoints, unpackSegments, Geometry.isEmpty, Geometry.pts]
  | _ :: _, [] => simp [unpackLinearMix, unpackPoints, unpackSegments, Geometry.isEmpty, Geometry.pts]
  | _ :: _, [_] => simp [unpackLinearMix, unpackPoints, unpackSegments, Geometry.isEmpty, Geometry.pts]
  | _ :: _, _ :: _ :: _ => simp [unpackLinearMix, unpackPoints, unpackSegments, Geometry.isEmpty, Geometry.pts]

theorem segsPts_singleton (s : Segment) : segsPts [s] = s.pts := by
  rw [segsPts_cons, segsPts_nil, Set.union_empty]

/-- Two multisegments which cross, overlap and touch: witness for the theorems below. -/
def exA : List Segment := [⟨⟨0, 0⟩, ⟨4, 0⟩⟩, ⟨⟨4, -1⟩, ⟨4, 4⟩⟩, ⟨⟨0, 4⟩, ⟨2, 2⟩⟩]
def exB : List Segment := [⟨⟨6, 0⟩, ⟨2, 0⟩⟩, ⟨⟨1, -1⟩, ⟨1, 1⟩⟩, ⟨⟨2, 2⟩, ⟨4, 2⟩⟩]

theorem noOverlap_of_relations {l : List Segment} (p : ∀ s ∈ l, s.Proper) (nd : l.Nodup)
    (r : ∀ s ∈ l, ∀ t ∈ l, s ≠ t → segmentsRelation s t = .touch ∨ segmentsRelation s t = .disjoint) :
    ValidSegments l := by
  refine ⟨p, ?_⟩
  refine List.Pairwise.imp_of_mem ?_ nd
  intro a b ha hb hne
  have hm := relation_spec (p a ha) (p b hb)
  rcases r a ha b hb hne with h | h <;> rw [h] at hm
  · obtain ⟨c, -, -, hu, he⟩ := hm
    exact ok_of_common hu fun _ _ => he
  · exact ok_of_disjoint hm

theorem exA_valid : ValidSegments exA := by
  refine noOverlap_of_relations ?_ ?_ ?_ <;> decide +kernel

theorem exB_valid : ValidSegments exB := by
  refine noOverlap_of_relations ?_ ?_ ?_ <;> decide +kernel

/-- **C15** No operation on a segment and a multisegment or on two multisegments raises an exception,
and all of them come to an end, provided no two segments of the same operand overlap. -/
theorem multisegment_operations_return {a b : List Segment} {s : Segment} (ha : a ≠ []) (hb : b ≠ [])
    (na : NoOverlap a) (nb : NoOverlap b) (hs : s.Proper) :
    (∃ g, completeIntersectMultisegments tb a b = .ok g) ∧ (∃ g, intersectMultisegments tb a b = .ok g) ∧
    (∃ g, subtractMultisegments tb a b = .ok g) ∧ (∃ g, symmetricSubtractMultisegments tb a b = .ok g) ∧
    (∃ g, uniteMultisegments tb a b = .ok g) ∧
    (∃ g, completeIntersectSegmentWithMultisegment tb s a = .ok g) ∧
    (∃ g, subtractMultisegmentFromSegment tb s a = .ok g) ∧
    (∃ g, symmetricSubtractMultisegmentFromSegment tb s a = .ok g) := by
  have ka := multisegmentOperand_ok ha na
  have kb := multisegmentOperand_ok hb nb
  have ks := segmentOperand_ok hs
  refine ⟨?_, ?_, ?_, ?_, ?_, ?_, ?_, ?_⟩
  · obtain ⟨ps, l, h, -⟩ := linearCompleteIntersection_result tb ka kb; exact ⟨_, h⟩
  · obtain ⟨g, h, -⟩ := linearIntersection_result tb ka kb; exact ⟨_, h⟩
  · obtain ⟨g, h, -⟩ := linearDifference_result tb ka kb; exact ⟨_, h⟩
  · obtain ⟨g, h, -⟩ := linearSymmetricDifference_result tb ka kb; exact ⟨_, h⟩
  · obtain ⟨l, h, -⟩ := linearUnion_result tb ka kb; exact ⟨_, h⟩
  · obtain ⟨ps, l, h, -⟩ := linearCompleteIntersection_result tb ks ka; exact ⟨_, h⟩
  · obtain ⟨g, h, -⟩ := linearDifference_result tb ks ka; exact ⟨_, h⟩
  · obtain ⟨g, h, -⟩ := linearSymmetricDifference_result tb ks ka; exact ⟨_, h⟩

example : exA ≠ [] ∧ exB ≠ [] ∧ NoOverlap exA ∧ NoOverlap exB ∧ exSeg.Proper :=
  ⟨by simp [exA], by simp [exB], exA_valid.noOverlap, exB_valid.noOverlap, by decide +kernel⟩

/-- The hypothesis of C15 is needed: overlapping segments in one operand make the code raise. -/
theorem uniteMultisegments_raises : uniteMultisegments .id
    [⟨⟨0, 0⟩, ⟨2, 0⟩⟩, ⟨⟨1, 0⟩, ⟨3, 0⟩⟩] [⟨⟨0, 0⟩, ⟨3, 1⟩⟩] = .error .sameOperandOverlap := by
  decide +kernel

/-- **C16** `unite_multisegments` returns exactly the points of the operands. -/
theorem uniteMultisegments_union {a b : List Segment} (ha : a ≠ []) (hb : b ≠ []) (na : NoOverlap a)
    (nb : NoOverlap b) : ∃ g, uniteMultisegments tb a b = .ok g ∧ g.pts = segsPts a ∪ segsPts b := by
  obtain ⟨l, h, e, -⟩ := linearUnion_result tb (multisegmentOperand_ok ha na) (multisegmentOperand_ok hb nb)
  exact ⟨_, h, e⟩

example : exA ≠ [] ∧ exB ≠ [] ∧ NoOverlap exA ∧ NoOverlap exB ∧ uniteMultisegments .id exA exB =
    .ok (.multisegment [⟨⟨0, 0⟩, ⟨1, 0⟩⟩, ⟨⟨0, 4⟩, ⟨2, 2⟩⟩, ⟨⟨1, -1⟩, ⟨1, 0⟩⟩, ⟨⟨1, 0⟩, ⟨1, 1⟩⟩,
      ⟨⟨1, 0⟩, ⟨2, 0⟩⟩, ⟨⟨2, 0⟩, ⟨4, 0⟩⟩, ⟨⟨2, 2⟩, ⟨4, 2⟩⟩, ⟨⟨4, -1⟩, ⟨4, 0⟩⟩, ⟨⟨4, 0⟩, ⟨4, 2⟩⟩, ⟨⟨4, 0⟩, ⟨6, 0⟩⟩,
      ⟨⟨4, 2⟩, ⟨4, 4⟩⟩]) :=
  ⟨by simp [exA], by simp [exB], exA_valid.noOverlap, exB_valid.noOverlap, by decide +kernel⟩

/-- **C17, proved part.** `intersect_multisegments` returns a set of segments made of common points only,
and it misses at most finitely many common points *provided* no segment of an operand has a corner of
the bounding box of the other operand in its interior.  Missing (and false, see
`intersectMultisegments_incomplete`): completeness without this proviso, because of C13. -/
theorem intersectMultisegments_intersection_partial {a b : List Segment} (ha : a ≠ []) (hb : b ≠ [])
    (na : NoOverlap a) (nb : NoOverlap b) : ∃ g, intersectMultisegments tb a b = .ok g ∧ g.IsSegments ∧
      g.pts ⊆ segsPts a ∩ segsPts b ∧
      ((∀ box, boxOf a = .ok box → ∀ s ∈ b, NoCornerInside box s) →
        (∀ box, boxOf b = .ok box → ∀ s ∈ a, NoCornerInside box s) →
        IsIntersection (segsPts a) (segsPts b) g.pts) := by
  obtain ⟨g, h, h1, h2, l, rfl, -⟩ :=
    linearIntersection_result tb (multisegmentOperand_ok ha na) (multisegmentOperand_ok hb nb)
  exact ⟨_, h, unpackSegments_isSegments _, h1, fun c₁ c₂ => ⟨h1, h2 c₁ c₂⟩⟩

/-- No corner of the box lies on the segment, by orientation (for witnesses). -/
theorem noCornerInside_of {b : Box} {s : Segment} (hs : s.Proper)
    (h : ∀ v ∈ toVertices b, v = s.start ∨ v = s.stop ∨ orientation s.lo s.hi v ≠ .collinear ∨ v < s.lo ∨ s.hi < v) :
    NoCornerInside b s := by
  intro v hx hy hv
  have hm : v ∈ toVertices b := by
    obtain ⟨x, y⟩ := v
    simp only at hx hy
    rcases hx with rfl | rfl <;> rcases hy with rfl | rfl <;> simp [toVertices]
  rcases h v hm with h | h | h | h | h
  · exact Or.inl h
  · exact Or.inr h
  · exact absurd (orientation_col.2 ((Segment.mem_iff hs).1 hv).1) h
  · exact absurd (Segment.lo_le_of_mem hv) (not_le.2 h)
  · exact absurd (Segment.le_hi_of_mem hv) (not_le.2 h)

theorem exA_corners : ∀ box, boxOf exA = .ok box → ∀ s ∈ exB, NoCornerInside box s := by
  intro box hbox
  cases hbox
  intro s hs
  refine noCornerInside_of (exB_valid.1 s hs) ?_
  revert s
  decide +kernel

theorem exB_corners : ∀ box, boxOf exB = .ok box → ∀ s ∈ exA, NoCornerInside box s := by
  intro box hbox
  cases hbox
  intro s hs
  refine noCornerInside_of (exA_valid.1 s hs) ?_
  revert s
  decide +kernel

example : exA ≠ [] ∧ exB ≠ [] ∧ NoOverlap exA ∧ NoOverlap exB ∧
    (∀ box, boxOf exA = .ok box → ∀ s ∈ exB, NoCornerInside box s) ∧
    (∀ box, boxOf exB = .ok box → ∀ s ∈ exA, NoCornerInside box s) ∧
    intersectMultisegments .id exA exB = .ok (.segment ⟨⟨2, 0⟩, ⟨4, 0⟩⟩) :=
  ⟨by simp [exA], by simp [exB], exA_valid.noOverlap, exB_valid.noOverlap, exA_corners, exB_corners,
    by decide +kernel⟩

/-- Valid multisegments with a common segment which is lost by the coupled filter. -/
def exDiag : List Segment := [⟨⟨0, 0⟩, ⟨2, 2⟩⟩, ⟨⟨0, 1⟩, ⟨0, 2⟩⟩]
def exLong : List Segment := [⟨⟨-1, -1⟩, ⟨3, 3⟩⟩, ⟨⟨10, 10⟩, ⟨11, 11⟩⟩]

theorem exDiag_valid : ValidSegments exDiag := by
  refine noOverlap_of_relations ?_ ?_ ?_ <;> decide +kernel

theorem exLong_valid : ValidSegments exLong := by
  refine noOverlap_of_relations ?_ ?_ ?_ <;> decide +kernel

theorem exDiag_sub : (Segment.mk ⟨0, 0⟩ ⟨2, 2⟩).pts ⊆ (Segment.mk ⟨-1, -1⟩ ⟨3, 3⟩).pts := by
  rintro p ⟨t, h0, h1, hx, hy⟩
  refine ⟨(1 + 2 * t) / 4, ?_, ?_, ?_, ?_⟩
  · linarith
  · linarith
  · rw [hx]; dsimp only; ring
  · rw [hy]; dsimp only; ring

/-- **C17 fails**: two valid multisegments with a common segment, for which `intersect_multisegments`
returns nothing. -/
theorem intersectMultisegments_incomplete : ¬ ∀ (a b : List Segment), 2 ≤ a.length → 2 ≤ b.length →
    ValidSegments a → ValidSegments b → ∃ g, intersectMultisegments .id a b = .ok g ∧
      IsIntersection (segsPts a) (segsPts b) g.pts := by
  intro h
  obtain ⟨g, h1, h2⟩ := h exDiag exLong (by decide) (by decide) exDiag_valid exLong_valid
  have e : intersectMultisegments .id exDiag exLong = .ok .empty := by decide +kernel
  rw [e] at h1
  cases h1
  refine overlapping_of_finite_false (s := ⟨⟨0, 0⟩, ⟨2, 2⟩⟩) (by decide +kernel) (h2.finite.subset ?_)
  intro p hp
  exact ⟨⟨⟨_, by simp [exDiag], hp⟩, ⟨_, by simp [exLong], exDiag_sub hp⟩⟩, by simp [Geometry.pts]⟩

/-- **C18** `complete_intersect_multisegments` returns exactly the common points: as segments, and as
isolated points which lie on none of the returned segments. -/
theorem completeIntersectMultisegments_intersection {a b : List Segment} (ha : a ≠ []) (hb : b ≠ [])
    (na : NoOverlap a) (nb : NoOverlap b) : ∃ ps l, completeIntersectMultisegments tb a b =
      .ok (unpackLinearMix (unpackPoints ps) (unpackSegments l)) ∧
      (unpackLinearMix (unpackPoints ps) (unpackSegments l)).pts = segsPts a ∩ segsPts b ∧
      ∀ q ∈ ps, q ∉ segsPts l := by
  obtain ⟨ps, l, h, h1, -, -, h4, -⟩ :=
    linearCompleteIntersection_result tb (multisegmentOperand_ok ha na) (multisegmentOperand_ok hb nb)
  refine ⟨ps, l, h, ?_, h4⟩
  rw [unpackLinearMix_pts]
  ext q
  exact h1 q

/-- **C18**, `complete_intersect_segment_with_multisegment` -/
theorem completeIntersectSegmentWithMultisegment_intersection {s : Segment} {b : List Segment}
    (hs : s.Proper) (hb : b ≠ []) (nb : NoOverlap b) : ∃ ps l,
      completeIntersectSegmentWithMultisegment tb s b =
      .ok (unpackLinearMix (unpackPoints ps) (unpackSegments l)) ∧
      (unpackLinearMix (unpackPoints ps) (unpackSegments l)).pts = s.pts ∩ segsPts b ∧
      ∀ q ∈ ps, q ∉ segsPts l := by
  obtain ⟨ps, l, h, h1, -, -, h4, -⟩ :=
    linearCompleteIntersection_result tb (segmentOperand_ok hs) (multisegmentOperand_ok hb nb)
  refine ⟨ps, l, h, ?_, h4⟩
  rw [unpackLinearMix_pts, ← segsPts_singleton]
  ext q
  exact h1 q

example : exA ≠ [] ∧ exB ≠ [] ∧ NoOverlap exA ∧ NoOverlap exB ∧ completeIntersectMultisegments .id exA exB =
    .ok (.mix (.multipoint [⟨1, 0⟩, ⟨2, 2⟩, ⟨4, 2⟩]) (.segment ⟨⟨2, 0⟩, ⟨4, 0⟩⟩) .empty) :=
  ⟨by simp [exA], by simp [exB], exA_valid.noOverlap, exB_valid.noOverlap, by decide +kernel⟩

example : exSeg.Proper ∧ exA ≠ [] ∧ NoOverlap exA ∧
    completeIntersectSegmentWithMultisegment .id exSeg exA = .ok (.segment ⟨⟨1, 0⟩, ⟨4, 0⟩⟩) :=
  ⟨by decide +kernel, by simp [exA], exA_valid.noOverlap, by decide +kernel⟩

/-- **C19, proved part.** `subtract_multisegments` returns segments which contain every point of the
minuend off the subtrahend and no point off the minuend; they share at most finitely many points with
the subtrahend *provided* no segment of the subtrahend has a corner of the bounding box of the minuend
in its interior.  Missing (and false, see `subtractMultisegments_incomplete`): the last part without
this proviso, because of C13. -/
theorem subtractMultisegments_difference_partial {a b : List Segment} (ha : a ≠ []) (hb : b ≠ [])
    (na : NoOverlap a) (nb : NoOverlap b) : ∃ g, subtractMultisegments tb a b = .ok g ∧ g.IsSegments ∧
      segsPts a \ segsPts b ⊆ g.pts ∧ g.pts ⊆ segsPts a ∧
      ((∀ box, boxOf a = .ok box → ∀ s ∈ b, NoCornerInside box s) →
        IsDifference (segsPts a) (segsPts b) g.pts) := by
  obtain ⟨g, h, h1, h2, h3, h4⟩ :=
    linearDifference_result tb (multisegmentOperand_ok ha na) (multisegmentOperand_ok hb nb)
  refine ⟨_, h, ?_, h1, h2, fun c => ⟨h1, h2, h3 c⟩⟩
  rcases h4 with rfl | ⟨l, rfl, -⟩
  · trivial
  · exact unpackSegments_isSegments _

/-- **C19, proved part**, `subtract_multisegment_from_segment` -/
theorem subtractMultisegmentFromSegment_difference_partial {s : Segment} {b : List Segment} (hs : s.Proper)
    (hb : b ≠ []) (nb : NoOverlap b) : ∃ g, subtractMultisegmentFromSegment tb s b = .ok g ∧ g.IsSegments ∧
      s.pts \ segsPts b ⊆ g.pts ∧ g.pts ⊆ s.pts ∧
      ((∀ t ∈ b, NoCornerInside (segmentBox s) t) → IsDifference s.pts (segsPts b) g.pts) := by
  obtain ⟨g, h, h1, h2, h3, h4⟩ :=
    linearDifference_result tb (segmentOperand_ok hs) (multisegmentOperand_ok hb nb)
  simp only [segmentOperand, multisegmentOperand, segsPts_singleton] at h1 h2 h3 h4
  refine ⟨_, h, ?_, h1, h2, fun c => ⟨h1, h2, h3 ?_⟩⟩
  · rcases h4 with rfl | ⟨l, rfl, -⟩
    · trivial
    · exact unpackSegments_isSegments _
  · intro box hbox
    cases hbox
    exact c

example : exA ≠ [] ∧ exB ≠ [] ∧ NoOverlap exA ∧ NoOverlap exB ∧
    (∀ box, boxOf exA = .ok box → ∀ s ∈ exB, NoCornerInside box s) ∧
    subtractMultisegments .id exA exB = .ok (.multisegment [⟨⟨0, 0⟩, ⟨1, 0⟩⟩, ⟨⟨0, 4⟩, ⟨2, 2⟩⟩,
      ⟨⟨1, 0⟩, ⟨2, 0⟩⟩, ⟨⟨4, -1⟩, ⟨4, 0⟩⟩, ⟨⟨4, 0⟩, ⟨4, 2⟩⟩, ⟨⟨4, 2⟩, ⟨4, 4⟩⟩]) :=
  ⟨by simp [exA], by simp [exB], exA_valid.noOverlap, exB_valid.noOverlap, exA_corners, by decide +kernel⟩

/-- **C19 fails**: a valid minuend and a valid subtrahend with a common segment, which
`subtract_multisegments` leaves in the result. -/
theorem subtractMultisegments_incomplete : ¬ ∀ (a b : List Segment), 2 ≤ a.length → 2 ≤ b.length →
    ValidSegments a → ValidSegments b → ∃ g, subtractMultisegments .id a b = .ok g ∧
      IsDifference (segsPts a) (segsPts b) g.pts := by
  intro h
  obtain ⟨g, h1, h2⟩ := h exDiag exLong (by decide) (by decide) exDiag_valid exLong_valid
  have e : subtractMultisegments .id exDiag exLong = .ok (.multisegment exDiag) := by decide +kernel
  rw [e] at h1
  cases h1
  refine overlapping_of_finite_false (s := ⟨⟨0, 0⟩, ⟨2, 2⟩⟩) (by decide +kernel) (h2.finite.subset ?_)
  intro p hp
  exact ⟨⟨_, by simp [exDiag], hp⟩, ⟨_, by simp [exLong], exDiag_sub hp⟩⟩

/-- **C19 fails** for `subtract_multisegment_from_segment` as well. -/
theorem subtractMultisegmentFromSegment_incomplete : ¬ ∀ (s : Segment) (b : List Segment), s.Proper →
    2 ≤ b.length → ValidSegments b → ∃ g, subtractMultisegmentFromSegment .id s b = .ok g ∧
      IsDifference s.pts (segsPts b) g.pts := by
  intro h
  obtain ⟨g, h1, h2⟩ := h ⟨⟨0, 0⟩, ⟨2, 2⟩⟩ exLong (by decide +kernel) (by decide) exLong_valid
  have e : subtractMultisegmentFromSegment .id ⟨⟨0, 0⟩, ⟨2, 2⟩⟩ exLong =
    .ok (.segment ⟨⟨0, 0⟩, ⟨2, 2⟩⟩) := by decide +kernel
  rw [e] at h1
  cases h1
  refine overlapping_of_finite_false (s := ⟨⟨0, 0⟩, ⟨2, 2⟩⟩) (by decide +kernel) (h2.finite.subset ?_)
  intro p hp
  exact ⟨hp, ⟨_, by simp [exLong], exDiag_sub hp⟩⟩

/-- **C20** `symmetric_subtract_multisegments` returns the regularized symmetric difference. -/
theorem symmetricSubtractMultisegments_difference {a b : List Segment} (ha : a ≠ []) (hb : b ≠ [])
    (na : NoOverlap a) (nb : NoOverlap b) : ∃ g, symmetricSubtractMultisegments tb a b = .ok g ∧
      g.IsSegments ∧ IsSymmetricDifference (segsPts a) (segsPts b) g.pts := by
  obtain ⟨g, h, h1, h2⟩ :=
    linearSymmetricDifference_result tb (multisegmentOperand_ok ha na) (multisegmentOperand_ok hb nb)
  refine ⟨_, h, ?_, h1⟩
  rcases h2 with ⟨l, rfl, -⟩ | ⟨l, rfl, -⟩
  · trivial
  · exact unpackSegments_isSegments _

/-- **C20**, `symmetric_subtract_multisegment_from_segment` -/
theorem symmetricSubtractMultisegmentFromSegment_difference {s : Segment} {b : List Segment} (hs : s.Proper)
    (hb : b ≠ []) (nb : NoOverlap b) : ∃ g, symmetricSubtractMultisegmentFromSegment tb s b = .ok g ∧
      g.IsSegments ∧ IsSymmetricDifference s.pts (segsPts b) g.pts := by
  obtain ⟨g, h, h1, h2⟩ :=
    linearSymmetricDifference_result tb (segmentOperand_ok hs) (multisegmentOperand_ok hb nb)
  simp only [segmentOperand, multisegmentOperand, segsPts_singleton] at h1
  refine ⟨_, h, ?_, h1⟩
  rcases h2 with ⟨l, rfl, -⟩ | ⟨l, rfl, -⟩
  · trivial
  · exact unpackSegments_isSegments _

example : exA ≠ [] ∧ exB ≠ [] ∧ NoOverlap exA ∧ NoOverlap exB ∧ symmetricSubtractMultisegments .id exA exB =
    .ok (.multisegment [⟨⟨0, 0⟩, ⟨1, 0⟩⟩, ⟨⟨0, 4⟩, ⟨2, 2⟩⟩, ⟨⟨1, -1⟩, ⟨1, 0⟩⟩, ⟨⟨1, 0⟩, ⟨1, 1⟩⟩,
      ⟨⟨1, 0⟩, ⟨2, 0⟩⟩, ⟨⟨2, 2⟩, ⟨4, 2⟩⟩, ⟨⟨4, -1⟩, ⟨4, 0⟩⟩, ⟨⟨4, 0⟩, ⟨4, 2⟩⟩, ⟨⟨4, 0⟩, ⟨6, 0⟩⟩, ⟨⟨4, 2⟩, ⟨4, 4⟩⟩]) :=
  ⟨by simp [exA], by simp [exB], exA_valid.noOverlap, exB_valid.noOverlap, by decide +kernel⟩

/-- **C21** Results on valid multisegments are well-formed: no segment of zero length, no two segments
cross or overlap, a multisegment has at least two segments, isolated points are not repeated. -/
theorem multisegment_operations_wellFormed {a b : List Segment} {s : Segment} (ha : 2 ≤ a.length)
    (hb : 2 ≤ b.length) (na : ValidSegments a) (nb : ValidSegments b) (hs : s.Proper) :
    ∀ g, (completeIntersectMultisegments tb a b = .ok g ∨ intersectMultisegments tb a b = .ok g ∨
      subtractMultisegments tb a b = .ok g ∨ symmetricSubtractMultisegments tb a b = .ok g ∨
      uniteMultisegments tb a b = .ok g ∨ completeIntersectSegmentWithMultisegment tb s b = .ok g ∨
      subtractMultisegmentFromSegment tb s b = .ok g ∨
      symmetricSubtractMultisegmentFromSegment tb s b = .ok g) → g.LinearOk := by
  have ka : OperandOk (multisegmentOperand a) := multisegmentOperand_ok (by rintro rfl; simp at ha) na.noOverlap
  have kb : OperandOk (multisegmentOperand b) := multisegmentOperand_ok (by rintro rfl; simp at hb) nb.noOverlap
  have ks := segmentOperand_ok hs
  have mixOk : ∀ ps l, List.Nodup ps → Swept l →
      (unpackLinearMix (unpackPoints ps) (unpackSegments l)).LinearOk := by
    intro ps l hps hl
    have hv := hl.valid
    match ps, l with
    | [], [] => exact unpackSegments_ok hv
    | [], [_] => exact unpackSegments_ok hv
    | [], _ :: _ :: _ => exact unpackSegments_ok hv
    | p :: ps, [] => exact ⟨by simp, hps⟩
    | p :: ps, [t] => exact ⟨⟨_, rfl, by simp, hps⟩, Or.inl ⟨_, rfl, hv.1 t (by simp)⟩, rfl⟩
    | p :: ps, t :: u :: r => exact ⟨⟨_, rfl, by simp, hps⟩, Or.inr ⟨_, rfl, by simp, hv⟩, rfl⟩
  rintro g (h | h | h | h | h | h | h | h)
  · obtain ⟨ps, l, h', -, hps, -, -, hl⟩ := linearCompleteIntersection_result tb ka kb
    have := h'.symm.trans h; cases this
    exact mixOk ps l hps hl
  · obtain ⟨g', h', -, -, l, rfl, hl⟩ := linearIntersection_result tb ka kb
    have := h'.symm.trans h; cases this
    exact unpackSegments_ok hl.valid
  · obtain ⟨g', h', -, -, -, hl⟩ := linearDifference_result tb ka kb
    have := h'.symm.trans h; cases this
    rcases hl with rfl | ⟨l, rfl, hl⟩
    · exact ⟨ha, na⟩
    · exact unpackSegments_ok hl.valid
  · obtain ⟨g', h', -, hl⟩ := linearSymmetricDifference_result tb ka kb
    have := h'.symm.trans h; cases this
    rcases hl with ⟨l, rfl, hl⟩ | ⟨l, rfl, hl⟩
    · refine ⟨?_, hl.valid na nb⟩
      rw [hl.perm.length_eq, List.length_append]
      simp only [multisegmentOperand]; omega
    · exact unpackSegments_ok hl.valid
  · obtain ⟨l, h', -, hl, h2⟩ := linearUnion_result tb ka kb
    have := h'.symm.trans h; cases this
    refine ⟨h2 ha, ?_⟩
    rcases hl with hl | hl
    · exact hl.valid na nb
    · exact hl.valid
  · obtain ⟨ps, l, h', -, hps, -, -, hl⟩ := linearCompleteIntersection_result tb ks kb
    have := h'.symm.trans h; cases this
    exact mixOk ps l hps hl
  · obtain ⟨g', h', -, -, -, hl⟩ := linearDifference_result tb ks kb
    have := h'.symm.trans h; cases this
    rcases hl with rfl | ⟨l, rfl, hl⟩
    · exact hs
    · exact unpackSegments_ok hl.valid
  · obtain ⟨g', h', -, hl⟩ := linearSymmetricDifference_result tb ks kb
    have := h'.symm.trans h; cases this
    have vs : ValidSegments [s] := ⟨by simpa using hs, by simp⟩
    rcases hl with ⟨l, rfl, hl⟩ | ⟨l, rfl, hl⟩
    · refine ⟨?_, hl.valid vs nb⟩
      rw [hl.perm.length_eq, List.length_append]
      simp only [segmentOperand, multisegmentOperand, List.length_singleton]; omega
    · exact unpackSegments_ok hl.valid

example : 2 ≤ exA.length ∧ 2 ≤ exB.length ∧ ValidSegments exA ∧ ValidSegments exB ∧ exSeg.Proper :=
  ⟨by decide, by decide, exA_valid, exB_valid, by decide +kernel⟩

/-- Segments of a geometry made of segments. -/
def Geometry.segments : Geometry → List Segment
  | .segment s => [s]
  | .multisegment l => l
  | .mix _ l _ => l.segments
  | _ => []

/-- **C21**, order and touching.  The segments of an intersection (complete or not) have their end points
in ascending order, come in ascending order and meet in common end points only.  The same holds for the
other operations, unless the result is the minuend itself, or consists of the operands side by side
because they have no common point. -/
theorem multisegment_operations_ascending {a b : List Segment} (ha : a ≠ []) (hb : b ≠ [])
    (na : NoOverlap a) (nb : NoOverlap b) :
    (∀ g, completeIntersectMultisegments tb a b = .ok g ∨ intersectMultisegments tb a b = .ok g →
      Swept g.segments) ∧
    (∀ g, subtractMultisegments tb a b = .ok g → g = .multisegment a ∨ Swept g.segments) ∧
    (∀ g, symmetricSubtractMultisegments tb a b = .ok g ∨ uniteMultisegments tb a b = .ok g →
      ((∀ q, q ∈ segsPts a → q ∉ segsPts b) ∧ g.segments.Perm (a ++ b) ∧ g.segments.Pairwise endpointsLe) ∨
      Swept g.segments) := by
  have ka := multisegmentOperand_ok ha na
  have kb := multisegmentOperand_ok hb nb
  have us : ∀ l, (unpackSegments l).segments = l := by
    intro l
    match l with
    | [] => rfl
    | [_] => rfl
    | _ :: _ :: _ => rfl
  refine ⟨?_, ?_, ?_⟩
  · rintro g (h | h)
    · obtain ⟨ps, l, h', -, -, -, -, hl⟩ := linearCompleteIntersection_result tb ka kb
      have := h'.symm.trans h; cases this
      have : (unpackLinearMix (unpackPoints ps) (unpackSegments l)).segments = l := by
        match ps, l with
        | [], [] => rfl
        | [], [_] => rfl
        | [], _ :: _ :: _ => rfl
        | _ :: _, [] => rfl
        | _ :: _, [_] => rfl
        | _ :: _, _ :: _ :: _ => rfl
      rw [this]; exact hl
    · obtain ⟨g', h', -, -, l, rfl, hl⟩ := linearIntersection_result tb ka kb
      have := h'.symm.trans h; cases this
      rw [us]; exact hl
  · intro g h
    obtain ⟨g', h', -, -, -, hl⟩ := linearDifference_result tb ka kb
    have := h'.symm.trans h; cases this
    rcases hl with rfl | ⟨l, rfl, hl⟩
    · exact Or.inl rfl
    · rw [us]; exact Or.inr hl
  · rintro g (h | h)
    · obtain ⟨g', h', -, hl⟩ := linearSymmetricDifference_result tb ka kb
      have := h'.symm.trans h; cases this
      rcases hl with ⟨l, rfl, hl⟩ | ⟨l, rfl, hl⟩
      · exact Or.inl ⟨hl.disjoint, hl.perm, hl.sorted⟩
      · rw [us]; exact Or.inr hl
    · obtain ⟨l, h', -, hl, -⟩ := linearUnion_result tb ka kb
      have := h'.symm.trans h; cases this
      rcases hl with hl | hl
      · exact Or.inl ⟨hl.disjoint, hl.perm, hl.sorted⟩
      · exact Or.inr hl

example : exA ≠ [] ∧ exB ≠ [] ∧ NoOverlap exA ∧ NoOverlap exB :=
  ⟨by simp [exA], by simp [exB], exA_valid.noOverlap, exB_valid.noOverlap⟩

end Clipping

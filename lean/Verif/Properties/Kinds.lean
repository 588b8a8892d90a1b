import Verif.Spec.Kinds
import Verif.Lemmas.Kind
import Verif.Lemmas.Shaped.CompleteResult
import Verif.Model.PlanarMixed
import Verif.Model.PlanarShaped
import Verif.Properties.Linear

/-!
# C81: results are of the simplest type

Whatever the operands are, valid or not: if an operation returns, it returns no multipolygon or multisegment of less than two parts, no multipoint without
points, and no mix of less than two kinds of parts.  A multipolygon or multisegment which is given is expected to have two parts.
-/

namespace Clipping

theorem insertionSort_two {α : Type} (r : α → α → Prop) [DecidableRel r] {l : List α} (h : 2 ≤ l.length) : 2 ≤ (l.insertionSort r).length := by
  rwa [List.length_insertionSort]

theorem unpackLinearMix_thin (ps : List Point) (l : List Segment) : (unpackLinearMix (unpackPoints ps) (unpackSegments l)).Thin := by
  obtain ⟨h1, -⟩ := unpackPoints_discrete (ps := ps)
  obtain ⟨h2, -⟩ := unpackSegments_linear (l := l)
  unfold Geometry.Thin
  match ps, l with
  | [], [] => exact ⟨Or.inl trivial, rfl⟩
  | [], [_] => exact ⟨Or.inr (Or.inl trivial), rfl⟩
  | [], _ :: _ :: _ => exact ⟨Or.inr (Or.inl h2), rfl⟩
  | _ :: _, [] => exact ⟨Or.inl h1, rfl⟩
  | _ :: _, [_] => exact ⟨⟨h1, trivial, trivial, Or.inl ⟨by simp [unpackPoints], by simp [unpackSegments]⟩⟩, rfl⟩
  | _ :: _, _ :: _ :: _ => exact ⟨⟨h1, h2, trivial, Or.inl ⟨by simp [unpackPoints], by simp [unpackSegments]⟩⟩, rfl⟩

section

variable {orient : Orient} {tb : TieBreak}

theorem holeyDifference_kind {first second : ShapedOperand} (h : first.value.IsPolygonal) :
    Returns Geometry.IsPolygonal (holeyDifference orient tb first second) := by
  unfold holeyDifference
  refine .bind fun _ => .bind fun _ => .ite (.pure h) (.ite (.pure h) ?_)
  exact .bind fun _ => .bind fun _ => .bind fun _ => .pure (unpackPolygons_kind _)

theorem polygonsBox_ne {ps : List Polygon} {b : Box} (h : polygonsBox ps = .ok b) : ps ≠ [] := by
  rintro rfl; cases h

theorem boxOf_ne {l : List Segment} {b : Box} (h : boxOf l = .ok b) : l ≠ [] := by
  rintro rfl; cases h

theorem bind_ok {α : Type} {x : Except Err α} {f : α → Except Err Geometry} {P : Geometry → Prop} (h : ∀ a, x = .ok a → Returns P (f a)) :
    Returns P (x >>= f) := by
  intro g hg
  cases x with
  | error e => cases hg
  | ok a => exact h a rfl g hg

theorem two_of_append {α : Type} {l l' : List α} (h : l ≠ []) (h' : l' ≠ []) : 2 ≤ (l ++ l').length := by
  have := List.length_pos_of_ne_nil h
  have := List.length_pos_of_ne_nil h'
  rw [List.length_append]; omega

theorem holeySymmetricDifference_kind {first second : ShapedOperand} :
    Returns Geometry.IsPolygonal (holeySymmetricDifference tb first second) := by
  unfold holeySymmetricDifference
  refine bind_ok fun _ h => bind_ok fun _ h' => .ite (.pure ?_) (.bind fun _ => .bind fun _ => .pure (unpackPolygons_kind _))
  exact insertionSort_two _ (two_of_append (polygonsBox_ne h) (polygonsBox_ne h'))

theorem holeyUnion_kind {first second : ShapedOperand} :
    Returns Geometry.IsPolygonal (holeyUnion tb first second) := by
  unfold holeyUnion
  refine bind_ok fun _ h => bind_ok fun _ h' => .ite (.pure ?_) (.bind fun _ => .bind fun _ => .pure (unpackPolygons_kind _))
  exact insertionSort_two _ (two_of_append (polygonsBox_ne h) (polygonsBox_ne h'))

theorem holeyCompleteIntersection_kind {first second : ShapedOperand} :
    Returns Geometry.Canonical (holeyCompleteIntersection orient tb first second) := by
  unfold holeyCompleteIntersection
  refine .bind fun _ => .bind fun _ => .ite (.pure (Or.inl trivial)) (.ite (.pure (Or.inl trivial)) (.ite (.pure (Or.inl trivial)) ?_))
  exact .bind fun _ => .bind fun _ => .bind fun _ => .bind fun _ => .pure
    (unpackMix_parts (unpackPoints_discrete _).1 (unpackSegments_linear _).1 (unpackPolygons_kind _)).1

theorem holelessCompleteIntersection_kind {first second : List Contour} :
    Returns Geometry.Canonical (holelessCompleteIntersection orient tb first second) := by
  unfold holelessCompleteIntersection
  refine .bind fun _ => .bind fun _ => .ite (.pure (Or.inl trivial)) (.ite (.pure (Or.inl trivial)) (.ite (.pure (Or.inl trivial)) ?_))
  exact .bind fun _ => .bind fun _ => .pure
    (unpackMix_parts (unpackPoints_discrete _).1 (unpackSegments_linear _).1 (unpackRegions_kind _)).1

theorem linearDifference_kind {first second : LinearOperand} (h : first.value.IsLinear) :
    Returns Geometry.IsLinear (linearDifference tb first second) := by
  unfold linearDifference
  refine .bind fun _ => .bind fun _ => .ite (.pure h) (.ite (.pure h) ?_)
  exact .bind fun _ => .bind fun _ => .pure (unpackSegments_linear _).1

theorem linearIntersection_kind {first second : LinearOperand} : Returns Geometry.IsLinear (linearIntersection tb first second) := by
  unfold linearIntersection
  refine .bind fun _ => .bind fun _ => .ite (.pure trivial) (.ite (.pure trivial) (.ite (.pure trivial) ?_))
  exact .bind fun _ => .bind fun _ => .bind fun _ => .pure (unpackSegments_linear _).1

theorem linearSymmetricDifference_kind {first second : LinearOperand} : Returns Geometry.IsLinear (linearSymmetricDifference tb first second) := by
  unfold linearSymmetricDifference
  refine bind_ok fun _ h => bind_ok fun _ h' => .ite (.pure ?_) (.bind fun _ => .pure (unpackSegments_linear _).1)
  exact insertionSort_two _ (two_of_append (boxOf_ne h) (boxOf_ne h'))

theorem linearCompleteIntersection_kind {first second : LinearOperand} : Returns Geometry.Thin (linearCompleteIntersection tb first second) := by
  unfold linearCompleteIntersection
  have e : (Geometry.empty).Thin := ⟨Or.inl trivial, rfl⟩
  refine .bind fun _ => .bind fun _ => .ite (.pure e) (.ite (.pure e) (.ite (.pure e) ?_))
  exact .bind fun _ => .bind fun _ => .bind fun _ => .pure (unpackLinearMix_thin _ _)

theorem mixedDifference_kind {linear : LinearOperand} {shaped : ShapedOperand} (h : linear.value.IsLinear) :
    Returns Geometry.IsLinear (mixedDifference orient tb linear shaped) := by
  unfold mixedDifference
  refine .bind fun _ => .bind fun _ => .ite (.pure h) (.ite (.pure h) ?_)
  exact .bind fun _ => .bind fun _ => .pure (unpackSegments_linear _).1

theorem mixedIntersection_kind {linear : LinearOperand} {shaped : ShapedOperand} :
    Returns Geometry.IsLinear (mixedIntersection orient tb linear shaped) := by
  unfold mixedIntersection
  refine .bind fun _ => .bind fun _ => .ite (.pure trivial) (.ite (.pure trivial) (.ite (.pure trivial) ?_))
  exact .bind fun _ => .bind fun _ => .bind fun _ => .pure (unpackSegments_linear _).1

theorem mixedCompleteIntersection_kind {linear : LinearOperand} {shaped : ShapedOperand} :
    Returns Geometry.Thin (mixedCompleteIntersection orient tb linear shaped) := by
  unfold mixedCompleteIntersection
  have e : (Geometry.empty).Thin := ⟨Or.inl trivial, rfl⟩
  refine .bind fun _ => .bind fun _ => .ite (.pure e) (.ite (.pure e) (.ite (.pure e) ?_))
  exact .bind fun _ => .bind fun _ => .bind fun _ => .pure (unpackLinearMix_thin _ _)

theorem mixedUnion_kind {linear : LinearOperand} {shaped : ShapedOperand} (h : linear.value.IsLinear) (h' : shaped.value.IsPolygonal)
    (n : linear.value ≠ .empty) (n' : shaped.value ≠ .empty) : Returns Geometry.Pointless (mixedUnion orient tb linear shaped) := by
  unfold mixedUnion
  refine .bind fun _ => .bind fun _ => .ite (.pure ⟨⟨trivial, h, h', Or.inr (Or.inr ⟨n, n'⟩)⟩, rfl⟩) (.bind fun _ => ?_)
  refine .pure ?_
  split
  · refine ⟨canonical_of (Or.inr (Or.inr h')), ?_⟩
    cases hv : shaped.value <;> simp_all [Geometry.IsPolygonal, Geometry.discretePoints]
  · next hne =>
    refine ⟨⟨trivial, (unpackSegments_linear _).1, h', Or.inr (Or.inr ⟨fun e => hne ?_, n'⟩)⟩, rfl⟩
    rw [e]; rfl

end

/-! ## Polygons and regions -/

section

variable (o : Orient) (tb : TieBreak) {p q : Polygon} {ps qs : List Polygon} {c d : Contour} {cs ds : List Contour}

/-- **C81** Operations on polygons and multipolygons return nothing, a polygon, or a multipolygon of at least two polygons. -/
theorem polygon_operations_kind (hp : 2 ≤ ps.length) : ∀ g, (intersectPolygons o tb p q = .ok g ∨ subtractPolygons o tb p q = .ok g ∨
      symmetricSubtractPolygons tb p q = .ok g ∨ unitePolygons tb p q = .ok g ∨
      intersectPolygonWithMultipolygon o tb p qs = .ok g ∨ subtractMultipolygonFromPolygon o tb p qs = .ok g ∨
      subtractPolygonFromMultipolygon o tb ps q = .ok g ∨ symmetricSubtractMultipolygonFromPolygon tb p qs = .ok g ∨
      unitePolygonWithMultipolygon tb p qs = .ok g ∨ intersectMultipolygons o tb ps qs = .ok g ∨
      subtractMultipolygons o tb ps qs = .ok g ∨ symmetricSubtractMultipolygons tb ps qs = .ok g ∨
      uniteMultipolygons tb ps qs = .ok g) → g.IsPolygonal := by
  rintro g (h | h | h | h | h | h | h | h | h | h | h | h | h)
  · exact holeyIntersection_kind _ _ _ _ g h
  · exact holeyDifference_kind (first := polygonOperand p) trivial g h
  · exact holeySymmetricDifference_kind g h
  · exact holeyUnion_kind g h
  · exact holeyIntersection_kind _ _ _ _ g h
  · exact holeyDifference_kind (first := polygonOperand p) trivial g h
  · exact holeyDifference_kind (first := multipolygonOperand ps) hp g h
  · exact holeySymmetricDifference_kind g h
  · exact holeyUnion_kind g h
  · exact holeyIntersection_kind _ _ _ _ g h
  · exact holeyDifference_kind (first := multipolygonOperand ps) hp g h
  · exact holeySymmetricDifference_kind g h
  · exact holeyUnion_kind g h

/-- **C81** Intersections of regions and multiregions are nothing, a polygon, or a multipolygon of at least two polygons. -/
theorem region_operations_kind : ∀ g, (intersectRegions o tb c d = .ok g ∨ intersectRegionWithMultiregion o tb c ds = .ok g ∨
    intersectMultiregions o tb cs ds = .ok g) → g.IsPolygonal := by
  rintro g (h | h | h) <;> exact holelessIntersection_kind _ _ _ _ g h

/-- **C81** Complete intersections of polygons and of regions have the simplest type for their parts. -/
theorem complete_operations_kind : ∀ g, (completeIntersectPolygons o tb p q = .ok g ∨ completeIntersectPolygonWithMultipolygon o tb p qs = .ok g ∨
    completeIntersectMultipolygons o tb ps qs = .ok g ∨ completeIntersectRegions o tb c d = .ok g ∨
    completeIntersectRegionWithMultiregion o tb c ds = .ok g ∨ completeIntersectMultiregions o tb cs ds = .ok g) → g.Canonical := by
  rintro g (h | h | h | h | h | h)
  · exact holeyCompleteIntersection_kind g h
  · exact holeyCompleteIntersection_kind g h
  · exact holeyCompleteIntersection_kind g h
  · exact holelessCompleteIntersection_kind g h
  · exact holelessCompleteIntersection_kind g h
  · exact holelessCompleteIntersection_kind g h

/-! ## Segments and polygons -/

variable {s t : Segment} {l m : List Segment}

/-- **C81** Intersections of segments with polygons and differences are nothing, a segment, or a multisegment of at least two segments. -/
theorem mixed_operations_kind (hl : 2 ≤ l.length) : ∀ g, (intersectSegmentWithPolygon o tb s p = .ok g ∨
      intersectSegmentWithMultipolygon o tb s ps = .ok g ∨ intersectMultisegmentWithPolygon o tb l p = .ok g ∨
      intersectMultisegmentWithMultipolygon o tb l ps = .ok g ∨ subtractPolygonFromSegment o tb s p = .ok g ∨
      subtractMultipolygonFromSegment o tb s ps = .ok g ∨ subtractPolygonFromMultisegment o tb l p = .ok g ∨
      subtractMultipolygonFromMultisegment o tb l ps = .ok g) → g.IsLinear := by
  rintro g (h | h | h | h | h | h | h | h)
  · exact mixedIntersection_kind g h
  · exact mixedIntersection_kind g h
  · exact mixedIntersection_kind g h
  · exact mixedIntersection_kind g h
  · exact mixedDifference_kind (linear := segmentOperand s) trivial g h
  · exact mixedDifference_kind (linear := segmentOperand s) trivial g h
  · exact mixedDifference_kind (linear := multisegmentOperand l) hl g h
  · exact mixedDifference_kind (linear := multisegmentOperand l) hl g h

/-- **C81** Complete intersections of segments with polygons have no polygons and the simplest type for their points and segments. -/
theorem mixed_complete_kind : ∀ g, (completeIntersectSegmentWithPolygon o tb s p = .ok g ∨ completeIntersectSegmentWithMultipolygon o tb s ps = .ok g ∨
    completeIntersectMultisegmentWithPolygon o tb l p = .ok g ∨ completeIntersectMultisegmentWithMultipolygon o tb l ps = .ok g) → g.Thin := by
  rintro g (h | h | h | h) <;> exact mixedCompleteIntersection_kind g h

/-- **C81** Unions of segments with polygons have no isolated points and the simplest type for their segments and polygons. -/
theorem mixed_union_kind (hl : 2 ≤ l.length) (hp : 2 ≤ ps.length) : ∀ g, (uniteSegmentWithPolygon o tb s p = .ok g ∨
    uniteSegmentWithMultipolygon o tb s ps = .ok g ∨ uniteMultisegmentWithPolygon o tb l p = .ok g ∨
    uniteMultisegmentWithMultipolygon o tb l ps = .ok g ∨ symmetricSubtractPolygonFromSegment o tb s p = .ok g ∨
    symmetricSubtractMultipolygonFromSegment o tb s ps = .ok g ∨ symmetricSubtractPolygonFromMultisegment o tb l p = .ok g ∨
    symmetricSubtractMultipolygonFromMultisegment o tb l ps = .ok g) → g.Pointless := by
  have k : ∀ (x : LinearOperand) (y : ShapedOperand), (x = segmentOperand s ∨ x = multisegmentOperand l) →
      (y = polygonOperand p ∨ y = multipolygonOperand ps) → ∀ g, mixedUnion o tb x y = .ok g → g.Pointless := by
    rintro x y (rfl | rfl) (rfl | rfl)
    · exact mixedUnion_kind trivial trivial (by simp [segmentOperand]) (by simp [polygonOperand])
    · exact mixedUnion_kind trivial hp (by simp [segmentOperand]) (by simp [multipolygonOperand])
    · exact mixedUnion_kind hl trivial (by simp [multisegmentOperand]) (by simp [polygonOperand])
    · exact mixedUnion_kind hl hp (by simp [multisegmentOperand]) (by simp [multipolygonOperand])
  rintro g (h | h | h | h | h | h | h | h) <;> exact k _ _ (by simp) (by simp) g h

/-! ## Segments -/

/-- **C81** Operations on multisegments return nothing, a segment, or a multisegment of at least two segments. -/
theorem multisegment_operations_kind (hl : 2 ≤ l.length) : ∀ g, (intersectMultisegments tb l m = .ok g ∨ subtractMultisegments tb l m = .ok g ∨
      symmetricSubtractMultisegments tb l m = .ok g ∨ subtractMultisegmentFromSegment tb s m = .ok g ∨
      symmetricSubtractMultisegmentFromSegment tb s m = .ok g) → g.IsLinear := by
  rintro g (h | h | h | h | h)
  · exact linearIntersection_kind g h
  · exact linearDifference_kind (first := multisegmentOperand l) hl g h
  · exact linearSymmetricDifference_kind g h
  · exact linearDifference_kind (first := segmentOperand s) trivial g h
  · exact linearSymmetricDifference_kind g h

/-- **C81** Complete intersections of multisegments have the simplest type for their points and segments. -/
theorem multisegment_complete_kind : ∀ g, (completeIntersectMultisegments tb l m = .ok g ∨ completeIntersectSegmentWithMultisegment tb s m = .ok g) →
    g.Thin := by
  rintro g (h | h) <;> exact linearCompleteIntersection_kind g h

/-- **C81** `unite_multisegments` returns a multisegment of at least two segments. Here the code does not look how many segments there are. -/
theorem uniteMultisegments_kind (hl : 2 ≤ l.length) (hm : 2 ≤ m.length) (vl : ValidSegments l) (vm : ValidSegments m) :
    ∃ r, uniteMultisegments tb l m = .ok (.multisegment r) ∧ 2 ≤ r.length := by
  obtain ⟨r, e, -⟩ := linearUnion_result tb (multisegmentOperand_ok (a := l) (List.ne_nil_of_length_pos (by omega)) vl.noOverlap)
    (multisegmentOperand_ok (a := m) (List.ne_nil_of_length_pos (by omega)) vm.noOverlap)
  have k := multisegment_operations_wellFormed tb hl hm vl vm (s := ⟨⟨0, 0⟩, ⟨1, 0⟩⟩) (by decide +kernel) (.multisegment r)
    (Or.inr (Or.inr (Or.inr (Or.inr (Or.inl e)))))
  exact ⟨r, e, k.1⟩

/-- **C81** Operations on two segments, or a segment and a multisegment, which do not sweep. -/
theorem segment_operations_kind : (subtractSegments s t).IsLinear ∧ (symmetricSubtractSegments s t).IsLinear ∧ (uniteSegments s t).IsLinear ∧
    (intersectSegments s t).Thin ∧ (intersectSegmentWithMultisegment s l).IsLinear ∧ (subtractSegmentFromMultisegment l s).IsLinear ∧
    (uniteSegmentWithMultisegment s l).IsLinear := by
  have k1 : ∀ s t, (subtractSegmentsComposite s t).IsLinear := by
    intro s t; unfold subtractSegmentsComposite; simp only; repeat' split
    all_goals simp [Geometry.IsLinear]
  have k2 : (uniteSegmentsTouch s t).IsLinear := by
    unfold uniteSegmentsTouch; split <;> simp [Geometry.IsLinear]
  have k3 : (uniteSegmentsCross s t).IsLinear := by simp [uniteSegmentsCross, Geometry.IsLinear]
  refine ⟨?_, ?_, ?_, ?_, (unpackSegments_linear _).1, (unpackSegments_linear _).1, (unpackSegments_linear _).1⟩
  · unfold subtractSegments; split <;> first | exact k1 _ _ | trivial
  · unfold symmetricSubtractSegments
    split <;> first | exact k1 _ _ | exact k2 | exact k3 | trivial | simp [Geometry.IsLinear, symmetricSubtractSegmentsOverlap]
  · unfold uniteSegments
    split <;> first | exact k2 | exact k3 | trivial | simp [Geometry.IsLinear, uniteSegmentsOverlap]
  · unfold intersectSegments
    split <;> simp [Geometry.Thin, Geometry.Canonical, Geometry.IsDiscrete, Geometry.IsLinear, Geometry.shapedPolygons]

end

/-! ### Examples -/

/-- Two triangles with a common corner, and two with a common side. -/
example : (∃ ps, unitePolygons .id ⟨⟨[⟨0, 0⟩, ⟨2, 0⟩, ⟨2, 2⟩]⟩, []⟩ ⟨⟨[⟨2, 2⟩, ⟨4, 2⟩, ⟨4, 4⟩]⟩, []⟩ = .ok (.multipolygon ps) ∧ 2 ≤ ps.length) ∧
    ∃ p, unitePolygons .id ⟨⟨[⟨0, 0⟩, ⟨2, 0⟩, ⟨2, 2⟩]⟩, []⟩ ⟨⟨[⟨0, 0⟩, ⟨2, 2⟩, ⟨0, 2⟩]⟩, []⟩ = .ok (.polygon p) :=
  ⟨⟨[⟨⟨[⟨0, 0⟩, ⟨2, 0⟩, ⟨2, 2⟩]⟩, []⟩, ⟨⟨[⟨2, 2⟩, ⟨4, 2⟩, ⟨4, 4⟩]⟩, []⟩], by decide +kernel, by decide⟩,
    ⟨⟨[⟨0, 0⟩, ⟨2, 0⟩, ⟨2, 2⟩, ⟨0, 2⟩]⟩, []⟩, by decide +kernel⟩

/-- A union of multisegments with pieces on one line is not merged. -/
example : uniteMultisegments .id [⟨⟨0, 0⟩, ⟨1, 0⟩⟩, ⟨⟨1, 0⟩, ⟨2, 0⟩⟩] [⟨⟨0, 0⟩, ⟨1, 0⟩⟩, ⟨⟨1, 0⟩, ⟨2, 0⟩⟩] =
    .ok (.multisegment [⟨⟨0, 0⟩, ⟨1, 0⟩⟩, ⟨⟨1, 0⟩, ⟨2, 0⟩⟩]) := by decide +kernel

/-- A polygon which crosses itself and is not valid. -/
example : symmetricSubtractPolygons .id ⟨⟨[⟨0, 0⟩, ⟨2, 2⟩, ⟨2, 0⟩, ⟨0, 2⟩]⟩, []⟩ ⟨⟨[⟨0, 0⟩, ⟨4, 0⟩, ⟨4, 1⟩]⟩, []⟩ =
    .ok (.multipolygon [⟨⟨[⟨0, 0⟩, ⟨2, 0⟩, ⟨8 / 5, 2 / 5⟩]⟩, []⟩, ⟨⟨[⟨0, 0⟩, ⟨1, 1⟩, ⟨0, 2⟩]⟩, []⟩,
      ⟨⟨[⟨1, 1⟩, ⟨8 / 5, 2 / 5⟩, ⟨2, 1 / 2⟩, ⟨2, 2⟩]⟩, []⟩, ⟨⟨[⟨2, 0⟩, ⟨4, 0⟩, ⟨4, 1⟩, ⟨2, 1 / 2⟩]⟩, []⟩]) := by decide +kernel

end Clipping

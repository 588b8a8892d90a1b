import Verif.Properties.AffineLinear
import Verif.Spec.Parts

/-!
# C60: results with segments depend on the points of the operands only

A multisegment can be written with other segments (divided or joined, in another order, with other directions), a polygon with other
vertices.  The results have the same isolated points, the same points of segments, and the same region.
-/

namespace Clipping

namespace Affine

theorem identity_point (q : Point) : (translation 0 0).point q = q := by
  cases q
  simp [translation, point]

theorem identity_image (A : Set Point) : (translation 0 0).point '' A = A := by
  have : (translation 0 0).point = id := funext identity_point
  rw [this, Set.image_id]

end Affine

theorem PartsImage.same {g g' : Geometry} (h : PartsImage (Affine.translation 0 0) g g') : SameParts g g' := by
  obtain ⟨h1, h2, h3⟩ := h
  have e : (Affine.translation 0 0).point = id := funext Affine.identity_point
  rw [e, List.map_id] at h1
  rw [Affine.identity_image] at h2 h3
  exact ⟨h1.symm, h2.symm, h3.symm⟩

section

variable {g g' : Geometry} {A B : Set Point}

theorem SameParts.of_points (hok : g.LinearOk) (hok' : g'.LinearOk) (h : g'.pts = g.pts)
    (ha : ∀ q ∈ g.discretePoints, q ∉ segsPts g.linearSegments) (ha' : ∀ q ∈ g'.discretePoints, q ∉ segsPts g'.linearSegments) :
    SameParts g g' := (PartsImage.of_points hok hok' (by rw [Affine.identity_image, h]) ha ha').same

theorem SameParts.of_intersection (hs : g.IsSegments) (hok : g.LinearOk) (hs' : g'.IsSegments) (hok' : g'.LinearOk)
    (h : IsIntersection A B g.pts) (h' : IsIntersection A B g'.pts) : SameParts g g' :=
  (PartsImage.of_intersection hs hok hs' hok' h (by simpa only [Affine.identity_image] using h')).same

theorem SameParts.of_difference (hs : g.IsSegments) (hok : g.LinearOk) (hs' : g'.IsSegments) (hok' : g'.LinearOk)
    (h : IsDifference A B g.pts) (h' : IsDifference A B g'.pts) : SameParts g g' :=
  (PartsImage.of_difference hs hok hs' hok' h (by simpa only [Affine.identity_image] using h')).same

theorem SameParts.of_symmetricDifference (hs : g.IsSegments) (hok : g.LinearOk) (hs' : g'.IsSegments) (hok' : g'.LinearOk)
    (h : IsSymmetricDifference A B g.pts) (h' : IsSymmetricDifference A B g'.pts) : SameParts g g' :=
  (PartsImage.of_symmetricDifference hs hok hs' hok' h (by simpa only [Affine.identity_image] using h')).same

theorem SameParts.of_union {v v' : Geometry} (k : g.IsSegments) (kl : g.LinearOk) (k' : g'.IsSegments)
    (kl' : g'.LinearOk) (h : IsDifference A B g.pts) (h' : IsDifference A B g'.pts)
    (vd : v.discretePoints = []) (vd' : v'.discretePoints = []) (vl : v.linearSegments = []) (vl' : v'.linearSegments = [])
    (hv : regionPts (v'.shapedPolygons.flatMap Polygon.edges) = regionPts (v.shapedPolygons.flatMap Polygon.edges)) :
    SameParts (if g.isEmpty then v else .mix .empty g v) (if g'.isEmpty then v' else .mix .empty g' v') :=
  (PartsImage.of_union k kl k' kl' h (by simpa only [Affine.identity_image] using h') vd vd' vl vl'
    (by rw [Affine.identity_image, hv])).same

end

theorem polygon_region {b b' : Polygon} (vb : ValidPolygon b) (vb' : ValidPolygon b') (e : b.pts = b'.pts) :
    regionPts ((Geometry.polygon b').shapedPolygons.flatMap Polygon.edges) =
      regionPts ((Geometry.polygon b).shapedPolygons.flatMap Polygon.edges) := by
  have h := vb.validPolygons.polysPts_eq
  have h' := vb'.validPolygons.polysPts_eq
  rw [polysPts_singleton] at h h'
  exact h'.symm.trans (e.symm.trans h)

theorem multipolygon_region {b b' : List Polygon} (vb : ValidPolygons b) (vb' : ValidPolygons b') (e : polysPts b = polysPts b') :
    regionPts ((Geometry.multipolygon b').shapedPolygons.flatMap Polygon.edges) =
      regionPts ((Geometry.multipolygon b).shapedPolygons.flatMap Polygon.edges) :=
  vb'.polysPts_eq.symm.trans (e.symm.trans vb.polysPts_eq)

/-! ## A segment and a multisegment -/

section

variable {s s' : Segment} {m m' : List Segment} (hs : s.Proper) (hs' : s'.Proper) (es : s.pts = s'.pts) (hm : ValidSegments m)
  (hm' : ValidSegments m') (em : segsPts m = segsPts m')
include hs hs' es hm hm' em

/-- **C60** `intersect_segment_with_multisegment` -/
theorem intersectSegmentWithMultisegment_points :
    SameParts (intersectSegmentWithMultisegment s m) (intersectSegmentWithMultisegment s' m') := by
  obtain ⟨h, k⟩ := intersectSegmentWithMultisegment_intersection s m hs hm.1
  obtain ⟨h', k'⟩ := intersectSegmentWithMultisegment_intersection s' m' hs' hm'.1
  rw [← es, ← em] at h'
  exact .of_intersection k (multisegment_results_ok s m hs hm).1 k' (multisegment_results_ok _ _ hs' hm').1 h h'

/-- **C60** `subtract_segment_from_multisegment` -/
theorem subtractSegmentFromMultisegment_points :
    SameParts (subtractSegmentFromMultisegment m s) (subtractSegmentFromMultisegment m' s') := by
  obtain ⟨h, k⟩ := subtractSegmentFromMultisegment_difference m s hs hm
  obtain ⟨h', k'⟩ := subtractSegmentFromMultisegment_difference m' s' hs' hm'
  rw [← es, ← em] at h'
  exact .of_difference k (multisegment_results_ok s m hs hm).2.1 k' (multisegment_results_ok _ _ hs' hm').2.1 h h'

/-- **C60** `unite_segment_with_multisegment` -/
theorem uniteSegmentWithMultisegment_points :
    SameParts (uniteSegmentWithMultisegment s m) (uniteSegmentWithMultisegment s' m') := by
  have e := uniteSegmentWithMultisegment_exact s m hs hm
  have e' := uniteSegmentWithMultisegment_exact _ _ hs' hm'
  rw [← es, ← em, ← e] at e'
  have off : ∀ l : List Segment, ∀ q ∈ (unpackSegments l).discretePoints, q ∉ segsPts (unpackSegments l).linearSegments := by
    intro l q hq
    rw [(unpackSegments_isSegments l).discrete] at hq
    cases hq
  exact .of_points (multisegment_results_ok s m hs hm).2.2 (multisegment_results_ok _ _ hs' hm').2.2 e' (off _) (off _)

variable (tb tb' : TieBreak) (lm : 2 ≤ m.length) (lm' : 2 ≤ m'.length)
include lm lm'

/-- **C60** `complete_intersect_segment_with_multisegment` -/
theorem completeIntersectSegmentWithMultisegment_points : ∃ g g', completeIntersectSegmentWithMultisegment tb s m = .ok g ∧
    completeIntersectSegmentWithMultisegment tb' s' m' = .ok g' ∧ SameParts g g' := by
  obtain ⟨ps, l, e, h, off⟩ := completeIntersectSegmentWithMultisegment_intersection tb hs (List.ne_nil_of_length_pos (by omega)) hm.noOverlap
  obtain ⟨ps', l', e', h', off'⟩ := completeIntersectSegmentWithMultisegment_intersection tb' hs' (List.ne_nil_of_length_pos (by omega))
    hm'.noOverlap
  refine ⟨_, _, e, e', .of_points ?_ ?_ ?_ (unpackLinearMix_off off) (unpackLinearMix_off off')⟩
  · exact multisegment_operations_wellFormed tb lm lm hm hm hs _ (by tauto)
  · exact multisegment_operations_wellFormed tb' lm' lm' hm' hm' hs' _ (by tauto)
  · rw [h, h', es, em]

/-- **C60** `symmetric_subtract_multisegment_from_segment` -/
theorem symmetricSubtractMultisegmentFromSegment_points : ∃ g g', symmetricSubtractMultisegmentFromSegment tb s m = .ok g ∧
    symmetricSubtractMultisegmentFromSegment tb' s' m' = .ok g' ∧ SameParts g g' := by
  obtain ⟨g, e, k, h⟩ := symmetricSubtractMultisegmentFromSegment_difference tb hs (List.ne_nil_of_length_pos (by omega)) hm.noOverlap
  obtain ⟨g', e', k', h'⟩ := symmetricSubtractMultisegmentFromSegment_difference tb' hs' (List.ne_nil_of_length_pos (by omega)) hm'.noOverlap
  rw [← es, ← em] at h'
  refine ⟨g, g', e, e', .of_symmetricDifference k ?_ k' ?_ h h'⟩
  · exact multisegment_operations_wellFormed tb lm lm hm hm hs _ (by tauto)
  · exact multisegment_operations_wellFormed tb' lm' lm' hm' hm' hs' _ (by tauto)

end

/-! ## Two multisegments -/

section

variable {a b a' b' : List Segment} (la : 2 ≤ a.length) (lb : 2 ≤ b.length) (va : ValidSegments a) (vb : ValidSegments b)
  (la' : 2 ≤ a'.length) (lb' : 2 ≤ b'.length) (va' : ValidSegments a') (vb' : ValidSegments b') (ea : segsPts a = segsPts a')
  (eb : segsPts b = segsPts b') (tb tb' : TieBreak)
include la lb va vb la' lb' va' vb' ea eb

/-- **C60** `complete_intersect_multisegments` -/
theorem completeIntersectMultisegments_points : ∃ g g', completeIntersectMultisegments tb a b = .ok g ∧
    completeIntersectMultisegments tb' a' b' = .ok g' ∧ SameParts g g' := by
  obtain ⟨ps, l, e, h, off⟩ := completeIntersectMultisegments_intersection tb (List.ne_nil_of_length_pos (by omega))
    (List.ne_nil_of_length_pos (by omega)) va.noOverlap vb.noOverlap
  obtain ⟨ps', l', e', h', off'⟩ := completeIntersectMultisegments_intersection tb' (List.ne_nil_of_length_pos (by omega))
    (List.ne_nil_of_length_pos (by omega)) va'.noOverlap vb'.noOverlap
  refine ⟨_, _, e, e', .of_points ?_ ?_ ?_ (unpackLinearMix_off off) (unpackLinearMix_off off')⟩
  · exact multisegment_operations_wellFormed tb la lb va vb (s := ⟨⟨0, 0⟩, ⟨1, 0⟩⟩) (by decide +kernel) _ (by tauto)
  · exact multisegment_operations_wellFormed tb' la' lb' va' vb' (s := ⟨⟨0, 0⟩, ⟨1, 0⟩⟩) (by decide +kernel) _ (by tauto)
  · rw [h, h', ea, eb]

/-- **C60** `symmetric_subtract_multisegments` -/
theorem symmetricSubtractMultisegments_points : ∃ g g', symmetricSubtractMultisegments tb a b = .ok g ∧
    symmetricSubtractMultisegments tb' a' b' = .ok g' ∧ SameParts g g' := by
  obtain ⟨g, e, k, h⟩ := symmetricSubtractMultisegments_difference tb (List.ne_nil_of_length_pos (by omega))
    (List.ne_nil_of_length_pos (by omega)) va.noOverlap vb.noOverlap
  obtain ⟨g', e', k', h'⟩ := symmetricSubtractMultisegments_difference tb' (List.ne_nil_of_length_pos (by omega))
    (List.ne_nil_of_length_pos (by omega)) va'.noOverlap vb'.noOverlap
  rw [← ea, ← eb] at h'
  refine ⟨g, g', e, e', .of_symmetricDifference k ?_ k' ?_ h h'⟩
  · exact multisegment_operations_wellFormed tb la lb va vb (s := ⟨⟨0, 0⟩, ⟨1, 0⟩⟩) (by decide +kernel) _ (by tauto)
  · exact multisegment_operations_wellFormed tb' la' lb' va' vb' (s := ⟨⟨0, 0⟩, ⟨1, 0⟩⟩) (by decide +kernel) _ (by tauto)

/-- **C60** `unite_multisegments` -/
theorem uniteMultisegments_points : ∃ g g', uniteMultisegments tb a b = .ok g ∧
    uniteMultisegments tb' a' b' = .ok g' ∧ SameParts g g' := by
  obtain ⟨l, e, h, -⟩ := linearUnion_result tb (multisegmentOperand_ok (a := a) (List.ne_nil_of_length_pos (by omega)) va.noOverlap)
    (multisegmentOperand_ok (a := b) (List.ne_nil_of_length_pos (by omega)) vb.noOverlap)
  obtain ⟨l', e', h', -⟩ := linearUnion_result tb' (multisegmentOperand_ok (a := a') (List.ne_nil_of_length_pos (by omega)) va'.noOverlap)
    (multisegmentOperand_ok (a := b') (List.ne_nil_of_length_pos (by omega)) vb'.noOverlap)
  refine ⟨_, _, e, e', .of_points ?_ ?_ ?_ (by simp [Geometry.discretePoints]) (by simp [Geometry.discretePoints])⟩
  · exact multisegment_operations_wellFormed tb la lb va vb (s := ⟨⟨0, 0⟩, ⟨1, 0⟩⟩) (by decide +kernel) _
      (Or.inr (Or.inr (Or.inr (Or.inr (Or.inl e)))))
  · exact multisegment_operations_wellFormed tb' la' lb' va' vb' (s := ⟨⟨0, 0⟩, ⟨1, 0⟩⟩) (by decide +kernel) _
      (Or.inr (Or.inr (Or.inr (Or.inr (Or.inl e')))))
  · change segsPts l' = segsPts l
    change segsPts l' = segsPts a' ∪ segsPts b' at h'
    change segsPts l = segsPts a ∪ segsPts b at h
    rw [h, h', ea, eb]

end

/-! ## Segments and polygons -/

section

variable {o o' : Orient} (ok : OrientOk o) (ok' : OrientOk o') (tb tb' : TieBreak)
include ok ok'

/-- **C60** `intersect_segment_with_polygon` -/
theorem intersectSegmentWithPolygon_points {a a' : Segment} {b b' : Polygon} (ha : a.Proper) (ha' : a'.Proper) (ea : a.pts = a'.pts)
    (vb : ValidPolygon b) (vb' : ValidPolygon b') (eb : b.pts = b'.pts) :
    ∃ g g', intersectSegmentWithPolygon o tb a b = .ok g ∧ intersectSegmentWithPolygon o' tb' a' b' = .ok g' ∧ SameParts g g' := by
  obtain ⟨g, e, k, l, h⟩ := intersectSegmentWithPolygon_intersection ok tb (a := a) ha vb
  obtain ⟨g', e', k', l', h'⟩ := intersectSegmentWithPolygon_intersection ok' tb' (a := a') ha' vb'
  rw [← ea, ← eb] at h'
  exact ⟨g, g', e, e', .of_intersection k l k' l' h h'⟩

/-- **C60** `complete_intersect_segment_with_polygon` -/
theorem completeIntersectSegmentWithPolygon_points {a a' : Segment} {b b' : Polygon} (ha : a.Proper) (ha' : a'.Proper) (ea : a.pts = a'.pts)
    (vb : ValidPolygon b) (vb' : ValidPolygon b') (eb : b.pts = b'.pts) :
    ∃ g g', completeIntersectSegmentWithPolygon o tb a b = .ok g ∧ completeIntersectSegmentWithPolygon o' tb' a' b' = .ok g' ∧ SameParts g g' := by
  obtain ⟨ps, r, e, h, l, off, -⟩ := completeIntersectSegmentWithPolygon_intersection ok tb (a := a) ha vb
  obtain ⟨ps', r', e', h', l', off', -⟩ := completeIntersectSegmentWithPolygon_intersection ok' tb' (a := a') ha' vb'
  refine ⟨_, _, e, e', .of_points l l' ?_ (unpackLinearMix_off off) (unpackLinearMix_off off')⟩
  rw [h, h', ea, eb]

/-- **C60** `unite_segment_with_polygon` -/
theorem uniteSegmentWithPolygon_points {a a' : Segment} {b b' : Polygon} (ha : a.Proper) (ha' : a'.Proper) (ea : a.pts = a'.pts)
    (vb : ValidPolygon b) (vb' : ValidPolygon b') (eb : b.pts = b'.pts) :
    ∃ g g', uniteSegmentWithPolygon o tb a b = .ok g ∧ uniteSegmentWithPolygon o' tb' a' b' = .ok g' ∧ SameParts g g' := by
  obtain ⟨out, e, -, g, k, h, f⟩ := uniteSegmentWithPolygon_union ok tb (a := a) ha vb
  obtain ⟨out', e', -, g', k', h', f'⟩ := uniteSegmentWithPolygon_union ok' tb' (a := a') ha' vb'
  rw [← ea, ← eb] at h'
  obtain ⟨w, l, fw⟩ := (mixed_operations_wellFormed ok tb (a := exA) (by decide) exA_valid ha vb (bs := [b]) (by simp) vb.validPolygons).2.1 out (Or.inl e)
  obtain ⟨w', l', fw'⟩ := (mixed_operations_wellFormed ok' tb' (a := exA) (by decide) exA_valid ha' vb' (bs := [b']) (by simp) vb'.validPolygons).2.1 out' (Or.inl e')
  obtain rfl := union_linear (fun _ _ _ => by simp) (f.symm.trans fw)
  obtain rfl := union_linear (fun _ _ _ => by simp) (f'.symm.trans fw')
  refine ⟨out, out', e, e', ?_⟩
  rw [f, f']
  exact .of_union k l k' l' h h' rfl rfl rfl rfl (polygon_region vb vb' eb)

/-- **C60** `symmetric_subtract_polygon_from_segment` -/
theorem symmetricSubtractPolygonFromSegment_points {a a' : Segment} {b b' : Polygon} (ha : a.Proper) (ha' : a'.Proper) (ea : a.pts = a'.pts)
    (vb : ValidPolygon b) (vb' : ValidPolygon b') (eb : b.pts = b'.pts) :
    ∃ g g', symmetricSubtractPolygonFromSegment o tb a b = .ok g ∧ symmetricSubtractPolygonFromSegment o' tb' a' b' = .ok g' ∧ SameParts g g' := by
  obtain ⟨out, e, -, g, k, h, f⟩ := symmetricSubtractPolygonFromSegment_union ok tb (a := a) ha vb
  obtain ⟨out', e', -, g', k', h', f'⟩ := symmetricSubtractPolygonFromSegment_union ok' tb' (a := a') ha' vb'
  rw [← ea, ← eb] at h'
  obtain ⟨w, l, fw⟩ := (mixed_operations_wellFormed ok tb (a := exA) (by decide) exA_valid ha vb (bs := [b]) (by simp) vb.validPolygons).2.1 out (Or.inl e)
  obtain ⟨w', l', fw'⟩ := (mixed_operations_wellFormed ok' tb' (a := exA) (by decide) exA_valid ha' vb' (bs := [b']) (by simp) vb'.validPolygons).2.1 out' (Or.inl e')
  obtain rfl := union_linear (fun _ _ _ => by simp) (f.symm.trans fw)
  obtain rfl := union_linear (fun _ _ _ => by simp) (f'.symm.trans fw')
  refine ⟨out, out', e, e', ?_⟩
  rw [f, f']
  exact .of_union k l k' l' h h' rfl rfl rfl rfl (polygon_region vb vb' eb)

/-- **C60** `intersect_segment_with_multipolygon` -/
theorem intersectSegmentWithMultipolygon_points {a a' : Segment} {b b' : List Polygon} (ha : a.Proper) (ha' : a'.Proper) (ea : a.pts = a'.pts)
    (hb : b ≠ []) (vb : ValidPolygons b) (hb' : b' ≠ []) (vb' : ValidPolygons b')
    (eb : polysPts b = polysPts b') :
    ∃ g g', intersectSegmentWithMultipolygon o tb a b = .ok g ∧ intersectSegmentWithMultipolygon o' tb' a' b' = .ok g' ∧ SameParts g g' := by
  obtain ⟨g, e, k, l, h⟩ := intersectSegmentWithMultipolygon_intersection ok tb (a := a) ha hb vb
  obtain ⟨g', e', k', l', h'⟩ := intersectSegmentWithMultipolygon_intersection ok' tb' (a := a') ha' hb' vb'
  rw [← ea, ← eb] at h'
  exact ⟨g, g', e, e', .of_intersection k l k' l' h h'⟩

/-- **C60** `complete_intersect_segment_with_multipolygon` -/
theorem completeIntersectSegmentWithMultipolygon_points {a a' : Segment} {b b' : List Polygon} (ha : a.Proper) (ha' : a'.Proper) (ea : a.pts = a'.pts)
    (hb : b ≠ []) (vb : ValidPolygons b) (hb' : b' ≠ []) (vb' : ValidPolygons b')
    (eb : polysPts b = polysPts b') :
    ∃ g g', completeIntersectSegmentWithMultipolygon o tb a b = .ok g ∧ completeIntersectSegmentWithMultipolygon o' tb' a' b' = .ok g' ∧ SameParts g g' := by
  obtain ⟨ps, r, e, h, l, off, -⟩ := completeIntersectSegmentWithMultipolygon_intersection ok tb (a := a) ha hb vb
  obtain ⟨ps', r', e', h', l', off', -⟩ := completeIntersectSegmentWithMultipolygon_intersection ok' tb' (a := a') ha' hb' vb'
  refine ⟨_, _, e, e', .of_points l l' ?_ (unpackLinearMix_off off) (unpackLinearMix_off off')⟩
  rw [h, h', ea, eb]

/-- **C60** `unite_segment_with_multipolygon` -/
theorem uniteSegmentWithMultipolygon_points {a a' : Segment} {b b' : List Polygon} (ha : a.Proper) (ha' : a'.Proper) (ea : a.pts = a'.pts)
    (hb : b ≠ []) (vb : ValidPolygons b) (hb' : b' ≠ []) (vb' : ValidPolygons b')
    (eb : polysPts b = polysPts b') :
    ∃ g g', uniteSegmentWithMultipolygon o tb a b = .ok g ∧ uniteSegmentWithMultipolygon o' tb' a' b' = .ok g' ∧ SameParts g g' := by
  obtain ⟨out, e, -, g, k, h, f⟩ := uniteSegmentWithMultipolygon_union ok tb (a := a) ha hb vb
  obtain ⟨out', e', -, g', k', h', f'⟩ := uniteSegmentWithMultipolygon_union ok' tb' (a := a') ha' hb' vb'
  rw [← ea, ← eb] at h'
  obtain ⟨w, l, fw⟩ := (mixed_operations_wellFormed ok tb (a := exA) (by decide) exA_valid ha (b := exTriangle) exTriangle_valid hb vb).2.2 out (Or.inl e)
  obtain ⟨w', l', fw'⟩ := (mixed_operations_wellFormed ok' tb' (a := exA) (by decide) exA_valid ha' (b := exTriangle) exTriangle_valid hb' vb').2.2 out' (Or.inl e')
  obtain rfl := union_linear (fun _ _ _ => by simp) (f.symm.trans fw)
  obtain rfl := union_linear (fun _ _ _ => by simp) (f'.symm.trans fw')
  refine ⟨out, out', e, e', ?_⟩
  rw [f, f']
  exact .of_union k l k' l' h h' rfl rfl rfl rfl (multipolygon_region vb vb' eb)

/-- **C60** `symmetric_subtract_multipolygon_from_segment` -/
theorem symmetricSubtractMultipolygonFromSegment_points {a a' : Segment} {b b' : List Polygon} (ha : a.Proper) (ha' : a'.Proper) (ea : a.pts = a'.pts)
    (hb : b ≠ []) (vb : ValidPolygons b) (hb' : b' ≠ []) (vb' : ValidPolygons b')
    (eb : polysPts b = polysPts b') :
    ∃ g g', symmetricSubtractMultipolygonFromSegment o tb a b = .ok g ∧ symmetricSubtractMultipolygonFromSegment o' tb' a' b' = .ok g' ∧ SameParts g g' := by
  obtain ⟨out, e, -, g, k, h, f⟩ := symmetricSubtractMultipolygonFromSegment_union ok tb (a := a) ha hb vb
  obtain ⟨out', e', -, g', k', h', f'⟩ := symmetricSubtractMultipolygonFromSegment_union ok' tb' (a := a') ha' hb' vb'
  rw [← ea, ← eb] at h'
  obtain ⟨w, l, fw⟩ := (mixed_operations_wellFormed ok tb (a := exA) (by decide) exA_valid ha (b := exTriangle) exTriangle_valid hb vb).2.2 out (Or.inl e)
  obtain ⟨w', l', fw'⟩ := (mixed_operations_wellFormed ok' tb' (a := exA) (by decide) exA_valid ha' (b := exTriangle) exTriangle_valid hb' vb').2.2 out' (Or.inl e')
  obtain rfl := union_linear (fun _ _ _ => by simp) (f.symm.trans fw)
  obtain rfl := union_linear (fun _ _ _ => by simp) (f'.symm.trans fw')
  refine ⟨out, out', e, e', ?_⟩
  rw [f, f']
  exact .of_union k l k' l' h h' rfl rfl rfl rfl (multipolygon_region vb vb' eb)

/-- **C60** `intersect_multisegment_with_polygon` -/
theorem intersectMultisegmentWithPolygon_points {a a' : List Segment} {b b' : Polygon} (ha : 2 ≤ a.length) (na : ValidSegments a) (ha' : 2 ≤ a'.length) (na' : ValidSegments a')
    (ea : segsPts a = segsPts a')
    (vb : ValidPolygon b) (vb' : ValidPolygon b') (eb : b.pts = b'.pts) :
    ∃ g g', intersectMultisegmentWithPolygon o tb a b = .ok g ∧ intersectMultisegmentWithPolygon o' tb' a' b' = .ok g' ∧ SameParts g g' := by
  obtain ⟨g, e, k, l, h⟩ := intersectMultisegmentWithPolygon_intersection ok tb (a := a) (List.ne_nil_of_length_pos (by omega)) na.noOverlap vb
  obtain ⟨g', e', k', l', h'⟩ := intersectMultisegmentWithPolygon_intersection ok' tb' (a := a') (List.ne_nil_of_length_pos (by omega)) na'.noOverlap vb'
  rw [← ea, ← eb] at h'
  exact ⟨g, g', e, e', .of_intersection k l k' l' h h'⟩

/-- **C60** `complete_intersect_multisegment_with_polygon` -/
theorem completeIntersectMultisegmentWithPolygon_points {a a' : List Segment} {b b' : Polygon} (ha : 2 ≤ a.length) (na : ValidSegments a) (ha' : 2 ≤ a'.length) (na' : ValidSegments a')
    (ea : segsPts a = segsPts a')
    (vb : ValidPolygon b) (vb' : ValidPolygon b') (eb : b.pts = b'.pts) :
    ∃ g g', completeIntersectMultisegmentWithPolygon o tb a b = .ok g ∧ completeIntersectMultisegmentWithPolygon o' tb' a' b' = .ok g' ∧ SameParts g g' := by
  obtain ⟨ps, r, e, h, l, off, -⟩ := completeIntersectMultisegmentWithPolygon_intersection ok tb (a := a) (List.ne_nil_of_length_pos (by omega)) na.noOverlap vb
  obtain ⟨ps', r', e', h', l', off', -⟩ := completeIntersectMultisegmentWithPolygon_intersection ok' tb' (a := a') (List.ne_nil_of_length_pos (by omega)) na'.noOverlap vb'
  refine ⟨_, _, e, e', .of_points l l' ?_ (unpackLinearMix_off off) (unpackLinearMix_off off')⟩
  rw [h, h', ea, eb]

/-- **C60** `unite_multisegment_with_polygon` -/
theorem uniteMultisegmentWithPolygon_points {a a' : List Segment} {b b' : Polygon} (ha : 2 ≤ a.length) (na : ValidSegments a) (ha' : 2 ≤ a'.length) (na' : ValidSegments a')
    (ea : segsPts a = segsPts a')
    (vb : ValidPolygon b) (vb' : ValidPolygon b') (eb : b.pts = b'.pts) :
    ∃ g g', uniteMultisegmentWithPolygon o tb a b = .ok g ∧ uniteMultisegmentWithPolygon o' tb' a' b' = .ok g' ∧ SameParts g g' := by
  obtain ⟨out, e, -, g, k, h, f⟩ := uniteMultisegmentWithPolygon_union ok tb (a := a) (List.ne_nil_of_length_pos (by omega)) na.noOverlap vb
  obtain ⟨out', e', -, g', k', h', f'⟩ := uniteMultisegmentWithPolygon_union ok' tb' (a := a') (List.ne_nil_of_length_pos (by omega)) na'.noOverlap vb'
  rw [← ea, ← eb] at h'
  obtain ⟨w, l, fw⟩ := (mixed_operations_wellFormed ok tb ha na (t := ⟨⟨0, 0⟩, ⟨1, 0⟩⟩) (by decide +kernel) vb (bs := [b]) (by simp) vb.validPolygons).2.1 out (Or.inr e)
  obtain ⟨w', l', fw'⟩ := (mixed_operations_wellFormed ok' tb' ha' na' (t := ⟨⟨0, 0⟩, ⟨1, 0⟩⟩) (by decide +kernel) vb' (bs := [b']) (by simp) vb'.validPolygons).2.1 out' (Or.inr e')
  obtain rfl := union_linear (fun _ _ _ => by simp) (f.symm.trans fw)
  obtain rfl := union_linear (fun _ _ _ => by simp) (f'.symm.trans fw')
  refine ⟨out, out', e, e', ?_⟩
  rw [f, f']
  exact .of_union k l k' l' h h' rfl rfl rfl rfl (polygon_region vb vb' eb)

/-- **C60** `symmetric_subtract_polygon_from_multisegment` -/
theorem symmetricSubtractPolygonFromMultisegment_points {a a' : List Segment} {b b' : Polygon} (ha : 2 ≤ a.length) (na : ValidSegments a) (ha' : 2 ≤ a'.length) (na' : ValidSegments a')
    (ea : segsPts a = segsPts a')
    (vb : ValidPolygon b) (vb' : ValidPolygon b') (eb : b.pts = b'.pts) :
    ∃ g g', symmetricSubtractPolygonFromMultisegment o tb a b = .ok g ∧ symmetricSubtractPolygonFromMultisegment o' tb' a' b' = .ok g' ∧ SameParts g g' := by
  obtain ⟨out, e, -, g, k, h, f⟩ := symmetricSubtractPolygonFromMultisegment_union ok tb (a := a) (List.ne_nil_of_length_pos (by omega)) na.noOverlap vb
  obtain ⟨out', e', -, g', k', h', f'⟩ := symmetricSubtractPolygonFromMultisegment_union ok' tb' (a := a') (List.ne_nil_of_length_pos (by omega)) na'.noOverlap vb'
  rw [← ea, ← eb] at h'
  obtain ⟨w, l, fw⟩ := (mixed_operations_wellFormed ok tb ha na (t := ⟨⟨0, 0⟩, ⟨1, 0⟩⟩) (by decide +kernel) vb (bs := [b]) (by simp) vb.validPolygons).2.1 out (Or.inr e)
  obtain ⟨w', l', fw'⟩ := (mixed_operations_wellFormed ok' tb' ha' na' (t := ⟨⟨0, 0⟩, ⟨1, 0⟩⟩) (by decide +kernel) vb' (bs := [b']) (by simp) vb'.validPolygons).2.1 out' (Or.inr e')
  obtain rfl := union_linear (fun _ _ _ => by simp) (f.symm.trans fw)
  obtain rfl := union_linear (fun _ _ _ => by simp) (f'.symm.trans fw')
  refine ⟨out, out', e, e', ?_⟩
  rw [f, f']
  exact .of_union k l k' l' h h' rfl rfl rfl rfl (polygon_region vb vb' eb)

/-- **C60** `intersect_multisegment_with_multipolygon` -/
theorem intersectMultisegmentWithMultipolygon_points {a a' : List Segment} {b b' : List Polygon} (ha : 2 ≤ a.length) (na : ValidSegments a) (ha' : 2 ≤ a'.length) (na' : ValidSegments a')
    (ea : segsPts a = segsPts a')
    (hb : b ≠ []) (vb : ValidPolygons b) (hb' : b' ≠ []) (vb' : ValidPolygons b')
    (eb : polysPts b = polysPts b') :
    ∃ g g', intersectMultisegmentWithMultipolygon o tb a b = .ok g ∧ intersectMultisegmentWithMultipolygon o' tb' a' b' = .ok g' ∧ SameParts g g' := by
  obtain ⟨g, e, k, l, h⟩ := intersectMultisegmentWithMultipolygon_intersection ok tb (a := a) (List.ne_nil_of_length_pos (by omega)) na.noOverlap hb vb
  obtain ⟨g', e', k', l', h'⟩ := intersectMultisegmentWithMultipolygon_intersection ok' tb' (a := a') (List.ne_nil_of_length_pos (by omega)) na'.noOverlap hb' vb'
  rw [← ea, ← eb] at h'
  exact ⟨g, g', e, e', .of_intersection k l k' l' h h'⟩

/-- **C60** `complete_intersect_multisegment_with_multipolygon` -/
theorem completeIntersectMultisegmentWithMultipolygon_points {a a' : List Segment} {b b' : List Polygon} (ha : 2 ≤ a.length) (na : ValidSegments a) (ha' : 2 ≤ a'.length) (na' : ValidSegments a')
    (ea : segsPts a = segsPts a')
    (hb : b ≠ []) (vb : ValidPolygons b) (hb' : b' ≠ []) (vb' : ValidPolygons b')
    (eb : polysPts b = polysPts b') :
    ∃ g g', completeIntersectMultisegmentWithMultipolygon o tb a b = .ok g ∧ completeIntersectMultisegmentWithMultipolygon o' tb' a' b' = .ok g' ∧ SameParts g g' := by
  obtain ⟨ps, r, e, h, l, off, -⟩ := completeIntersectMultisegmentWithMultipolygon_intersection ok tb (a := a) (List.ne_nil_of_length_pos (by omega)) na.noOverlap hb vb
  obtain ⟨ps', r', e', h', l', off', -⟩ := completeIntersectMultisegmentWithMultipolygon_intersection ok' tb' (a := a') (List.ne_nil_of_length_pos (by omega)) na'.noOverlap hb' vb'
  refine ⟨_, _, e, e', .of_points l l' ?_ (unpackLinearMix_off off) (unpackLinearMix_off off')⟩
  rw [h, h', ea, eb]

/-- **C60** `unite_multisegment_with_multipolygon` -/
theorem uniteMultisegmentWithMultipolygon_points {a a' : List Segment} {b b' : List Polygon} (ha : 2 ≤ a.length) (na : ValidSegments a) (ha' : 2 ≤ a'.length) (na' : ValidSegments a')
    (ea : segsPts a = segsPts a')
    (hb : b ≠ []) (vb : ValidPolygons b) (hb' : b' ≠ []) (vb' : ValidPolygons b')
    (eb : polysPts b = polysPts b') :
    ∃ g g', uniteMultisegmentWithMultipolygon o tb a b = .ok g ∧ uniteMultisegmentWithMultipolygon o' tb' a' b' = .ok g' ∧ SameParts g g' := by
  obtain ⟨out, e, -, g, k, h, f⟩ := uniteMultisegmentWithMultipolygon_union ok tb (a := a) (List.ne_nil_of_length_pos (by omega)) na.noOverlap hb vb
  obtain ⟨out', e', -, g', k', h', f'⟩ := uniteMultisegmentWithMultipolygon_union ok' tb' (a := a') (List.ne_nil_of_length_pos (by omega)) na'.noOverlap hb' vb'
  rw [← ea, ← eb] at h'
  obtain ⟨w, l, fw⟩ := (mixed_operations_wellFormed ok tb ha na (t := ⟨⟨0, 0⟩, ⟨1, 0⟩⟩) (by decide +kernel) (b := exTriangle) exTriangle_valid hb vb).2.2 out (Or.inr e)
  obtain ⟨w', l', fw'⟩ := (mixed_operations_wellFormed ok' tb' ha' na' (t := ⟨⟨0, 0⟩, ⟨1, 0⟩⟩) (by decide +kernel) (b := exTriangle) exTriangle_valid hb' vb').2.2 out' (Or.inr e')
  obtain rfl := union_linear (fun _ _ _ => by simp) (f.symm.trans fw)
  obtain rfl := union_linear (fun _ _ _ => by simp) (f'.symm.trans fw')
  refine ⟨out, out', e, e', ?_⟩
  rw [f, f']
  exact .of_union k l k' l' h h' rfl rfl rfl rfl (multipolygon_region vb vb' eb)

/-- **C60** `symmetric_subtract_multipolygon_from_multisegment` -/
theorem symmetricSubtractMultipolygonFromMultisegment_points {a a' : List Segment} {b b' : List Polygon} (ha : 2 ≤ a.length) (na : ValidSegments a) (ha' : 2 ≤ a'.length) (na' : ValidSegments a')
    (ea : segsPts a = segsPts a')
    (hb : b ≠ []) (vb : ValidPolygons b) (hb' : b' ≠ []) (vb' : ValidPolygons b')
    (eb : polysPts b = polysPts b') :
    ∃ g g', symmetricSubtractMultipolygonFromMultisegment o tb a b = .ok g ∧ symmetricSubtractMultipolygonFromMultisegment o' tb' a' b' = .ok g' ∧ SameParts g g' := by
  obtain ⟨out, e, -, g, k, h, f⟩ := symmetricSubtractMultipolygonFromMultisegment_union ok tb (a := a) (List.ne_nil_of_length_pos (by omega)) na.noOverlap hb vb
  obtain ⟨out', e', -, g', k', h', f'⟩ := symmetricSubtractMultipolygonFromMultisegment_union ok' tb' (a := a') (List.ne_nil_of_length_pos (by omega)) na'.noOverlap hb' vb'
  rw [← ea, ← eb] at h'
  obtain ⟨w, l, fw⟩ := (mixed_operations_wellFormed ok tb ha na (t := ⟨⟨0, 0⟩, ⟨1, 0⟩⟩) (by decide +kernel) (b := exTriangle) exTriangle_valid hb vb).2.2 out (Or.inr e)
  obtain ⟨w', l', fw'⟩ := (mixed_operations_wellFormed ok' tb' ha' na' (t := ⟨⟨0, 0⟩, ⟨1, 0⟩⟩) (by decide +kernel) (b := exTriangle) exTriangle_valid hb' vb').2.2 out' (Or.inr e')
  obtain rfl := union_linear (fun _ _ _ => by simp) (f.symm.trans fw)
  obtain rfl := union_linear (fun _ _ _ => by simp) (f'.symm.trans fw')
  refine ⟨out, out', e, e', ?_⟩
  rw [f, f']
  exact .of_union k l k' l' h h' rfl rfl rfl rfl (multipolygon_region vb vb' eb)

end

/-! ## Examples -/

/-- `exA` with a divided segment -/
def exDivided : List Segment := [⟨⟨4, 4⟩, ⟨4, -1⟩⟩, ⟨⟨0, 0⟩, ⟨1, 0⟩⟩, ⟨⟨4, 0⟩, ⟨1, 0⟩⟩, ⟨⟨0, 4⟩, ⟨2, 2⟩⟩]

theorem exDivided_valid : ValidSegments exDivided := by
  refine noOverlap_of_relations (by decide +kernel) (by decide +kernel) ?_
  decide +kernel

theorem exDivided_points : segsPts exA = segsPts exDivided := by
  have e1 : (⟨⟨4, 4⟩, ⟨4, -1⟩⟩ : Segment).pts = (⟨⟨4, -1⟩, ⟨4, 4⟩⟩ : Segment).pts := Segment.rev_pts ⟨⟨4, -1⟩, ⟨4, 4⟩⟩
  have e2 : (⟨⟨0, 0⟩, ⟨4, 0⟩⟩ : Segment).pts = (⟨⟨0, 0⟩, ⟨1, 0⟩⟩ : Segment).pts ∪ (⟨⟨4, 0⟩, ⟨1, 0⟩⟩ : Segment).pts := by
    ext ⟨x, y⟩
    simp only [Segment.pts, Set.mem_union, Set.mem_ofPred_eq]
    constructor
    · rintro ⟨t, h0, h1, hx, hy⟩
      by_cases h : t ≤ 1 / 4
      · exact Or.inl ⟨4 * t, by linarith, by linarith, by linarith, by linarith⟩
      · exact Or.inr ⟨(4 - 4 * t) / 3, by linarith, by linarith, by linarith, by linarith⟩
    · rintro (⟨t, h0, h1, hx, hy⟩ | ⟨t, h0, h1, hx, hy⟩)
      · exact ⟨t / 4, by linarith, by linarith, by linarith, by linarith⟩
      · exact ⟨1 - 3 * t / 4, by linarith, by linarith, by linarith, by linarith⟩
  simp only [exA, exDivided, segsPts_cons, segsPts_nil, e1, e2]
  ext q
  simp only [Set.mem_union]
  tauto

/-- For `intersect_multisegments` this fails with C17: the result on `exLong` changes if its first segment is divided. -/
theorem intersectMultisegments_not_points : ¬ ∀ (a b b' : List Segment), 2 ≤ a.length → 2 ≤ b.length → 2 ≤ b'.length →
    ValidSegments a → ValidSegments b → ValidSegments b' → segsPts b = segsPts b' → ∃ g g', intersectMultisegments .id a b = .ok g ∧
      intersectMultisegments .id a b' = .ok g' ∧ SameParts g g' := by
  intro h
  have e1 : (⟨⟨-1, -1⟩, ⟨3, 3⟩⟩ : Segment).pts = (⟨⟨-1, -1⟩, ⟨2, 2⟩⟩ : Segment).pts ∪ (⟨⟨2, 2⟩, ⟨3, 3⟩⟩ : Segment).pts := by
    ext ⟨x, y⟩
    simp only [Segment.pts, Set.mem_union, Set.mem_ofPred_eq]
    constructor
    · rintro ⟨t, h0, h1, hx, hy⟩
      by_cases h : t ≤ 3 / 4
      · exact Or.inl ⟨4 * t / 3, by linarith, by linarith, by linarith, by linarith⟩
      · exact Or.inr ⟨4 * t - 3, by linarith, by linarith, by linarith, by linarith⟩
    · rintro (⟨t, h0, h1, hx, hy⟩ | ⟨t, h0, h1, hx, hy⟩)
      · exact ⟨3 * t / 4, by linarith, by linarith, by linarith, by linarith⟩
      · exact ⟨(t + 3) / 4, by linarith, by linarith, by linarith, by linarith⟩
  have e2 : (⟨⟨-1, -1⟩, ⟨2, 2⟩⟩ : Segment).pts = (⟨⟨-1, -1⟩, ⟨0, 0⟩⟩ : Segment).pts ∪ (⟨⟨0, 0⟩, ⟨2, 2⟩⟩ : Segment).pts := by
    ext ⟨x, y⟩
    simp only [Segment.pts, Set.mem_union, Set.mem_ofPred_eq]
    constructor
    · rintro ⟨t, h0, h1, hx, hy⟩
      by_cases h : t ≤ 1 / 3
      · exact Or.inl ⟨3 * t, by linarith, by linarith, by linarith, by linarith⟩
      · exact Or.inr ⟨(3 * t - 1) / 2, by linarith, by linarith, by linarith, by linarith⟩
    · rintro (⟨t, h0, h1, hx, hy⟩ | ⟨t, h0, h1, hx, hy⟩)
      · exact ⟨t / 3, by linarith, by linarith, by linarith, by linarith⟩
      · exact ⟨(2 * t + 1) / 3, by linarith, by linarith, by linarith, by linarith⟩
  obtain ⟨g, g', e, e', p⟩ := h exDiag exLong [⟨⟨-1, -1⟩, ⟨0, 0⟩⟩, ⟨⟨0, 0⟩, ⟨2, 2⟩⟩, ⟨⟨2, 2⟩, ⟨3, 3⟩⟩, ⟨⟨10, 10⟩, ⟨11, 11⟩⟩] (by decide)
    (by decide) (by decide) exDiag_valid exLong_valid
    (noOverlap_of_relations (by decide +kernel) (by decide +kernel) (by decide +kernel))
    (by simp only [exLong, segsPts_cons, segsPts_nil, e1, e2, Set.union_assoc])
  have k : intersectMultisegments .id exDiag exLong = .ok .empty := by decide +kernel
  have k' : intersectMultisegments .id exDiag [⟨⟨-1, -1⟩, ⟨0, 0⟩⟩, ⟨⟨0, 0⟩, ⟨2, 2⟩⟩, ⟨⟨2, 2⟩, ⟨3, 3⟩⟩, ⟨⟨10, 10⟩, ⟨11, 11⟩⟩] =
    .ok (.segment ⟨⟨0, 0⟩, ⟨2, 2⟩⟩) := by decide +kernel
  rw [k] at e
  rw [k'] at e'
  cases e
  cases e'
  have := p.linear
  simp only [Geometry.linearSegments, segsPts_nil] at this
  exact this.symm.subset ⟨_, List.mem_singleton_self _, Segment.start_mem _⟩

example (tb tb' : TieBreak) : ∃ g g', completeIntersectMultisegments tb exA exB = .ok g ∧
    completeIntersectMultisegments tb' exDivided exB = .ok g' ∧ SameParts g g' :=
  completeIntersectMultisegments_points (by decide) (by decide) exA_valid exB_valid (by decide) (by decide) exDivided_valid exB_valid
    exDivided_points rfl tb tb'

example (tb tb' : TieBreak) : ∃ g g', uniteMultisegmentWithPolygon (Classical.choose exists_orient) tb exA exTriangle = .ok g ∧
    uniteMultisegmentWithPolygon (Classical.choose exists_orient) tb' exDivided exTriangle = .ok g' ∧ SameParts g g' :=
  uniteMultisegmentWithPolygon_points (Classical.choose_spec exists_orient) (Classical.choose_spec exists_orient) tb tb' (by decide)
    exA_valid (by decide) exDivided_valid exDivided_points exTriangle_valid exTriangle_valid rfl

end Clipping

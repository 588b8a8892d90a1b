import Verif.Lemmas.AffineLinear
import Verif.Properties.Affine
import Verif.Properties.Segments
import Verif.Properties.Linear
import Verif.Properties.Mixed

/-!
# C58: operations with segments commute with affine maps

Moving, turning, reflecting, stretching or shearing both operands moves, turns, reflects, stretches or shears the result of every
operation with a segment or multisegment which is exact or regularized in the sense of C01–C09, C16, C18, C20, C32, C37 and C39.  The
remaining operations are in C59.
-/

namespace Clipping

namespace Affine

variable (T : Affine)

theorem crossing {s t : Segment} (h : Crossing (T.segment s) (T.segment t)) : Crossing s t := by
  obtain ⟨p, hp, hp', n, n'⟩ := h
  obtain ⟨p, rfl⟩ := T.surjective p
  rw [T.segment_pts, T.mem_image] at hp hp'
  exact ⟨p, hp, hp', fun g => n (T.isEnd.2 g), fun g => n' (T.isEnd.2 g)⟩

theorem validSegments {l : List Segment} (h : ValidSegments l) : ValidSegments (l.map T.segment) := by
  refine ⟨fun s hs => ?_, ?_⟩
  · obtain ⟨t, ht, rfl⟩ := List.mem_map.1 hs
    exact T.proper.2 (h.1 t ht)
  · rw [List.pairwise_map]
    exact h.2.imp fun hn => ⟨fun g => hn.1 (T.overlapping.1 g), fun g => hn.2 (T.crossing g)⟩

theorem region_valid {ps : List Polygon} (h : ValidPolygons ps) :
    regionPts ((ps.map T.polygon).flatMap Polygon.edges) = T.point '' regionPts (ps.flatMap Polygon.edges) := by
  rw [← (T.valid_polygons h).polysPts_eq, ← h.polysPts_eq]
  exact T.polysPts_map h

end Affine

/-- A geometry which is no mix has no isolated points on its segments. -/
theorem discrete_off {g : Geometry} (h : ∀ d l s, g ≠ .mix d l s) : ∀ q ∈ g.discretePoints, q ∉ segsPts g.linearSegments := by
  cases g with
  | mix d l s => exact (h d l s rfl).elim
  | _ => simp [Geometry.discretePoints, Geometry.linearSegments, segsPts]

theorem unpackLinearMix_off {ps : List Point} {l : List Segment} (h : ∀ q ∈ ps, q ∉ segsPts l) :
    ∀ q ∈ (unpackLinearMix (unpackPoints ps) (unpackSegments l)).discretePoints,
      q ∉ segsPts (unpackLinearMix (unpackPoints ps) (unpackSegments l)).linearSegments := by
  match ps, l, h with
  | [], [], h => simpa [unpackLinearMix, unpackPoints, unpackSegments, Geometry.isEmpty, Geometry.discretePoints, Geometry.linearSegments] using h
  | [], [_], h => simpa [unpackLinearMix, unpackPoints, unpackSegments, Geometry.isEmpty, Geometry.discretePoints, Geometry.linearSegments] using h
  | [], _ :: _ :: _, h => simpa [unpackLinearMix, unpackPoints, unpackSegments, Geometry.isEmpty, Geometry.discretePoints, Geometry.linearSegments] using h
  | _ :: _, [], h => simpa [unpackLinearMix, unpackPoints, unpackSegments, Geometry.isEmpty, Geometry.discretePoints, Geometry.linearSegments] using h
  | _ :: _, [_], h => simpa [unpackLinearMix, unpackPoints, unpackSegments, Geometry.isEmpty, Geometry.discretePoints, Geometry.linearSegments] using h
  | _ :: _, _ :: _ :: _, h =>
    simpa [unpackLinearMix, unpackPoints, unpackSegments, Geometry.isEmpty, Geometry.discretePoints, Geometry.linearSegments] using h

/-! ## Two segments -/

section

variable {s t : Segment} (hs : s.Proper) (ht : t.Proper) (T : Affine)
include hs ht

/-- **C58** `intersect_segments` -/
theorem intersectSegments_affine : PartsImage T (intersectSegments s t) (intersectSegments (T.segment s) (T.segment t)) := by
  have hs' := T.proper.2 hs
  have ht' := T.proper.2 ht
  have off : ∀ s t, ∀ q ∈ (intersectSegments s t).discretePoints, q ∉ segsPts (intersectSegments s t).linearSegments := by
    intro s t
    refine discrete_off fun d l u e => ?_
    unfold intersectSegments at e
    split at e <;> cases e
  refine .of_points (segments_results_ok s t hs ht).1 (segments_results_ok _ _ hs' ht').1 ?_ (off _ _) (off _ _)
  rw [intersectSegments_exact _ _ hs ht, intersectSegments_exact _ _ hs' ht', T.segment_pts, T.segment_pts, Set.image_inter T.injective]

/-- **C58** `subtract_segments` -/
theorem subtractSegments_affine : PartsImage T (subtractSegments s t) (subtractSegments (T.segment s) (T.segment t)) := by
  have hs' := T.proper.2 hs
  have ht' := T.proper.2 ht
  obtain ⟨h, k⟩ := subtractSegments_difference s t hs ht
  obtain ⟨h', k'⟩ := subtractSegments_difference _ _ hs' ht'
  rw [T.segment_pts, T.segment_pts] at h'
  exact .of_difference k (segments_results_ok s t hs ht).2.1 k' (segments_results_ok _ _ hs' ht').2.1 h h'

/-- **C58** `symmetric_subtract_segments` -/
theorem symmetricSubtractSegments_affine :
    PartsImage T (symmetricSubtractSegments s t) (symmetricSubtractSegments (T.segment s) (T.segment t)) := by
  have hs' := T.proper.2 hs
  have ht' := T.proper.2 ht
  obtain ⟨h, k⟩ := symmetricSubtractSegments_symmetricDifference s t hs ht
  obtain ⟨h', k'⟩ := symmetricSubtractSegments_symmetricDifference _ _ hs' ht'
  rw [T.segment_pts, T.segment_pts] at h'
  exact .of_symmetricDifference k (segments_results_ok s t hs ht).2.2.1 k' (segments_results_ok _ _ hs' ht').2.2.1 h h'

/-- **C58** `unite_segments` -/
theorem uniteSegments_affine : PartsImage T (uniteSegments s t) (uniteSegments (T.segment s) (T.segment t)) := by
  have hs' := T.proper.2 hs
  have ht' := T.proper.2 ht
  have off : ∀ s t, ∀ q ∈ (uniteSegments s t).discretePoints, q ∉ segsPts (uniteSegments s t).linearSegments := by
    intro s t
    refine discrete_off fun d l u e => ?_
    unfold uniteSegments uniteSegmentsTouch uniteSegmentsCross uniteSegmentsOverlap at e
    split at e <;> first | cases e | (split at e <;> cases e)
  refine .of_points (segments_results_ok s t hs ht).2.2.2 (segments_results_ok _ _ hs' ht').2.2.2 ?_ (off _ _) (off _ _)
  rw [uniteSegments_exact _ _ hs ht, uniteSegments_exact _ _ hs' ht', T.segment_pts, T.segment_pts, Set.image_union]

end

/-! ## A segment and a multisegment -/

section

variable {s : Segment} {m : List Segment} (hs : s.Proper) (hm : ValidSegments m) (T : Affine)
include hs hm

/-- **C58** `intersect_segment_with_multisegment` -/
theorem intersectSegmentWithMultisegment_affine :
    PartsImage T (intersectSegmentWithMultisegment s m) (intersectSegmentWithMultisegment (T.segment s) (m.map T.segment)) := by
  have hs' := T.proper.2 hs
  have hm' := T.validSegments hm
  obtain ⟨h, k⟩ := intersectSegmentWithMultisegment_intersection s m hs hm.1
  obtain ⟨h', k'⟩ := intersectSegmentWithMultisegment_intersection _ _ hs' hm'.1
  rw [T.segment_pts, T.segsPts_map] at h'
  exact .of_intersection k (multisegment_results_ok s m hs hm).1 k' (multisegment_results_ok _ _ hs' hm').1 h h'

/-- **C58** `subtract_segment_from_multisegment` -/
theorem subtractSegmentFromMultisegment_affine :
    PartsImage T (subtractSegmentFromMultisegment m s) (subtractSegmentFromMultisegment (m.map T.segment) (T.segment s)) := by
  have hs' := T.proper.2 hs
  have hm' := T.validSegments hm
  obtain ⟨h, k⟩ := subtractSegmentFromMultisegment_difference m s hs hm
  obtain ⟨h', k'⟩ := subtractSegmentFromMultisegment_difference _ _ hs' hm'
  rw [T.segment_pts, T.segsPts_map] at h'
  exact .of_difference k (multisegment_results_ok s m hs hm).2.1 k' (multisegment_results_ok _ _ hs' hm').2.1 h h'

/-- **C58** `unite_segment_with_multisegment` -/
theorem uniteSegmentWithMultisegment_affine :
    PartsImage T (uniteSegmentWithMultisegment s m) (uniteSegmentWithMultisegment (T.segment s) (m.map T.segment)) := by
  have hs' := T.proper.2 hs
  have hm' := T.validSegments hm
  have e := uniteSegmentWithMultisegment_exact s m hs hm
  have e' := uniteSegmentWithMultisegment_exact _ _ hs' hm'
  rw [T.segment_pts, T.segsPts_map, ← Set.image_union, ← e] at e'
  refine .of_finite (unpackSegments_isSegments _) (multisegment_results_ok s m hs hm).2.2 (unpackSegments_isSegments _)
    (multisegment_results_ok _ _ hs' hm').2.2 ?_ ?_ <;>
  · rw [e', Set.sdiff_self]
    exact Set.finite_empty

variable (tb tb' : TieBreak) (lm : 2 ≤ m.length)
include lm

/-- **C58** `complete_intersect_segment_with_multisegment` -/
theorem completeIntersectSegmentWithMultisegment_affine : ∃ g g', completeIntersectSegmentWithMultisegment tb s m = .ok g ∧
    completeIntersectSegmentWithMultisegment tb' (T.segment s) (m.map T.segment) = .ok g' ∧ PartsImage T g g' := by
  have hs' := T.proper.2 hs
  have hm' := T.validSegments hm
  have lm' : 2 ≤ (m.map T.segment).length := by rwa [List.length_map]
  obtain ⟨ps, l, e, h, off⟩ := completeIntersectSegmentWithMultisegment_intersection tb hs (List.ne_nil_of_length_pos (by omega)) hm.noOverlap
  obtain ⟨ps', l', e', h', off'⟩ := completeIntersectSegmentWithMultisegment_intersection tb' hs' (List.ne_nil_of_length_pos (by omega))
    hm'.noOverlap
  refine ⟨_, _, e, e', .of_points ?_ ?_ ?_ (unpackLinearMix_off off) (unpackLinearMix_off off')⟩
  · exact multisegment_operations_wellFormed tb lm lm hm hm hs _ (by tauto)
  · exact multisegment_operations_wellFormed tb' lm' lm' hm' hm' hs' _ (by tauto)
  · rw [h, h', T.segment_pts, T.segsPts_map, Set.image_inter T.injective]

/-- **C58** `symmetric_subtract_multisegment_from_segment` -/
theorem symmetricSubtractMultisegmentFromSegment_affine : ∃ g g', symmetricSubtractMultisegmentFromSegment tb s m = .ok g ∧
    symmetricSubtractMultisegmentFromSegment tb' (T.segment s) (m.map T.segment) = .ok g' ∧ PartsImage T g g' := by
  have hs' := T.proper.2 hs
  have hm' := T.validSegments hm
  have lm' : 2 ≤ (m.map T.segment).length := by rwa [List.length_map]
  obtain ⟨g, e, k, h⟩ := symmetricSubtractMultisegmentFromSegment_difference tb hs (List.ne_nil_of_length_pos (by omega)) hm.noOverlap
  obtain ⟨g', e', k', h'⟩ := symmetricSubtractMultisegmentFromSegment_difference tb' hs' (List.ne_nil_of_length_pos (by omega)) hm'.noOverlap
  rw [T.segment_pts, T.segsPts_map] at h'
  refine ⟨g, g', e, e', .of_symmetricDifference k ?_ k' ?_ h h'⟩
  · exact multisegment_operations_wellFormed tb lm lm hm hm hs _ (by tauto)
  · exact multisegment_operations_wellFormed tb' lm' lm' hm' hm' hs' _ (by tauto)

end

/-! ## Two multisegments -/

section

variable {a b : List Segment} (la : 2 ≤ a.length) (lb : 2 ≤ b.length) (va : ValidSegments a) (vb : ValidSegments b) (T : Affine)
  (tb tb' : TieBreak)
include la lb va vb

/-- **C58** `complete_intersect_multisegments` -/
theorem completeIntersectMultisegments_affine : ∃ g g', completeIntersectMultisegments tb a b = .ok g ∧
    completeIntersectMultisegments tb' (a.map T.segment) (b.map T.segment) = .ok g' ∧ PartsImage T g g' := by
  have va' := T.validSegments va
  have vb' := T.validSegments vb
  have la' : 2 ≤ (a.map T.segment).length := by rwa [List.length_map]
  have lb' : 2 ≤ (b.map T.segment).length := by rwa [List.length_map]
  obtain ⟨ps, l, e, h, off⟩ := completeIntersectMultisegments_intersection tb (List.ne_nil_of_length_pos (by omega))
    (List.ne_nil_of_length_pos (by omega)) va.noOverlap vb.noOverlap
  obtain ⟨ps', l', e', h', off'⟩ := completeIntersectMultisegments_intersection tb' (List.ne_nil_of_length_pos (by omega))
    (List.ne_nil_of_length_pos (by omega)) va'.noOverlap vb'.noOverlap
  refine ⟨_, _, e, e', .of_points ?_ ?_ ?_ (unpackLinearMix_off off) (unpackLinearMix_off off')⟩
  · exact multisegment_operations_wellFormed tb la lb va vb (s := ⟨⟨0, 0⟩, ⟨1, 0⟩⟩) (by decide +kernel) _ (by tauto)
  · exact multisegment_operations_wellFormed tb' la' lb' va' vb' (s := ⟨⟨0, 0⟩, ⟨1, 0⟩⟩) (by decide +kernel) _ (by tauto)
  · rw [h, h', T.segsPts_map, T.segsPts_map, Set.image_inter T.injective]

/-- **C58** `symmetric_subtract_multisegments` -/
theorem symmetricSubtractMultisegments_affine : ∃ g g', symmetricSubtractMultisegments tb a b = .ok g ∧
    symmetricSubtractMultisegments tb' (a.map T.segment) (b.map T.segment) = .ok g' ∧ PartsImage T g g' := by
  have va' := T.validSegments va
  have vb' := T.validSegments vb
  have la' : 2 ≤ (a.map T.segment).length := by rwa [List.length_map]
  have lb' : 2 ≤ (b.map T.segment).length := by rwa [List.length_map]
  obtain ⟨g, e, k, h⟩ := symmetricSubtractMultisegments_difference tb (List.ne_nil_of_length_pos (by omega))
    (List.ne_nil_of_length_pos (by omega)) va.noOverlap vb.noOverlap
  obtain ⟨g', e', k', h'⟩ := symmetricSubtractMultisegments_difference tb' (List.ne_nil_of_length_pos (by omega))
    (List.ne_nil_of_length_pos (by omega)) va'.noOverlap vb'.noOverlap
  rw [T.segsPts_map, T.segsPts_map] at h'
  refine ⟨g, g', e, e', .of_symmetricDifference k ?_ k' ?_ h h'⟩
  · exact multisegment_operations_wellFormed tb la lb va vb (s := ⟨⟨0, 0⟩, ⟨1, 0⟩⟩) (by decide +kernel) _ (by tauto)
  · exact multisegment_operations_wellFormed tb' la' lb' va' vb' (s := ⟨⟨0, 0⟩, ⟨1, 0⟩⟩) (by decide +kernel) _ (by tauto)

/-- **C58** `unite_multisegments` -/
theorem uniteMultisegments_affine : ∃ g g', uniteMultisegments tb a b = .ok g ∧
    uniteMultisegments tb' (a.map T.segment) (b.map T.segment) = .ok g' ∧ PartsImage T g g' := by
  have va' := T.validSegments va
  have vb' := T.validSegments vb
  have la' : 2 ≤ (a.map T.segment).length := by rwa [List.length_map]
  have lb' : 2 ≤ (b.map T.segment).length := by rwa [List.length_map]
  obtain ⟨l, e, h, -⟩ := linearUnion_result tb (multisegmentOperand_ok (a := a) (List.ne_nil_of_length_pos (by omega)) va.noOverlap)
    (multisegmentOperand_ok (a := b) (List.ne_nil_of_length_pos (by omega)) vb.noOverlap)
  obtain ⟨l', e', h', -⟩ := linearUnion_result tb' (multisegmentOperand_ok (List.ne_nil_of_length_pos (by omega)) va'.noOverlap)
    (multisegmentOperand_ok (List.ne_nil_of_length_pos (by omega)) vb'.noOverlap)
  refine ⟨_, _, e, e', .of_points ?_ ?_ ?_ (by simp [Geometry.discretePoints]) (by simp [Geometry.discretePoints])⟩
  · exact multisegment_operations_wellFormed tb la lb va vb (s := ⟨⟨0, 0⟩, ⟨1, 0⟩⟩) (by decide +kernel) _
      (Or.inr (Or.inr (Or.inr (Or.inr (Or.inl e)))))
  · exact multisegment_operations_wellFormed tb' la' lb' va' vb' (s := ⟨⟨0, 0⟩, ⟨1, 0⟩⟩) (by decide +kernel) _
      (Or.inr (Or.inr (Or.inr (Or.inr (Or.inl e')))))
  · exact h'.trans (by
      change segsPts (a.map T.segment) ∪ segsPts (b.map T.segment) = T.point '' segsPts l
      rw [T.segsPts_map, T.segsPts_map, h, ← Set.image_union]
      rfl)

end

/-! ## Segments and polygons -/

/-- The linear part of a union is determined by the union. -/
theorem union_linear {g g' v : Geometry} (hv : ∀ d l s, v ≠ .mix d l s)
    (h : (if g.isEmpty then v else .mix .empty g v) = if g'.isEmpty then v else .mix .empty g' v) : g = g' := by
  have e : ∀ {g : Geometry}, g.isEmpty → g = .empty := fun {g} h => by cases g <;> first | rfl | cases h
  split_ifs at h with h1 h2 h2
  · rw [e h1, e h2]
  · exact (hv _ _ _ h).elim
  · exact (hv _ _ _ h.symm).elim
  · cases h
    rfl

theorem PartsImage.of_union {A B : Set Point} {T : Affine} {g g' v v' : Geometry} (k : g.IsSegments) (kl : g.LinearOk) (k' : g'.IsSegments)
    (kl' : g'.LinearOk) (h : IsDifference A B g.pts) (h' : IsDifference (T.point '' A) (T.point '' B) g'.pts)
    (vd : v.discretePoints = []) (vd' : v'.discretePoints = []) (vl : v.linearSegments = []) (vl' : v'.linearSegments = [])
    (hv : regionPts (v'.shapedPolygons.flatMap Polygon.edges) = T.point '' regionPts (v.shapedPolygons.flatMap Polygon.edges)) :
    PartsImage T (if g.isEmpty then v else .mix .empty g v) (if g'.isEmpty then v' else .mix .empty g' v') := by
  have e : ∀ {g : Geometry}, g.isEmpty → g = .empty := fun {g} h => by cases g <;> first | rfl | cases h
  have p := PartsImage.of_difference k kl k' kl' h h'
  have d : ∀ {g v : Geometry}, v.discretePoints = [] → (if g.isEmpty then v else .mix .empty g v).discretePoints = [] := by
    intro g v hv
    split_ifs
    · exact hv
    · rfl
  have l : ∀ {g v : Geometry}, v.linearSegments = [] →
      (if g.isEmpty then v else .mix .empty g v).linearSegments = g.linearSegments := by
    intro g v hv
    split_ifs with hg
    · rw [e hg, hv]; rfl
    · rfl
  have s : ∀ {g v : Geometry}, (if g.isEmpty then v else .mix .empty g v).shapedPolygons = v.shapedPolygons := by
    intro g v
    split_ifs <;> rfl
  refine ⟨?_, ?_, ?_⟩
  · rw [d vd, d vd']; exact .refl _
  · rw [l vl, l vl']; exact p.linear
  · rw [s, s]; exact hv

section

variable {o o' : Orient} (ok : OrientOk o) (ok' : OrientOk o') (tb tb' : TieBreak) (T : Affine)
include ok ok'

/-- **C58** `intersect_segment_with_polygon` -/
theorem intersectSegmentWithPolygon_affine {a : Segment} {b : Polygon} (ha : a.Proper) (vb : ValidPolygon b) :
    ∃ g g', intersectSegmentWithPolygon o tb a b = .ok g ∧ intersectSegmentWithPolygon o' tb' (T.segment a) (T.polygon b) = .ok g' ∧ PartsImage T g g' := by
  obtain ⟨g, e, k, l, h⟩ := intersectSegmentWithPolygon_intersection ok tb (a := a) ha vb
  obtain ⟨g', e', k', l', h'⟩ := intersectSegmentWithPolygon_intersection ok' tb' (T.proper.2 ha) (T.valid vb)
  rw [T.segment_pts, vb.pts_image T] at h'
  exact ⟨g, g', e, e', .of_intersection k l k' l' h h'⟩

/-- **C58** `complete_intersect_segment_with_polygon` -/
theorem completeIntersectSegmentWithPolygon_affine {a : Segment} {b : Polygon} (ha : a.Proper) (vb : ValidPolygon b) :
    ∃ g g', completeIntersectSegmentWithPolygon o tb a b = .ok g ∧ completeIntersectSegmentWithPolygon o' tb' (T.segment a) (T.polygon b) = .ok g' ∧ PartsImage T g g' := by
  obtain ⟨ps, r, e, h, l, off, -⟩ := completeIntersectSegmentWithPolygon_intersection ok tb (a := a) ha vb
  obtain ⟨ps', r', e', h', l', off', -⟩ := completeIntersectSegmentWithPolygon_intersection ok' tb' (T.proper.2 ha) (T.valid vb)
  rw [T.segment_pts, vb.pts_image T] at h'
  refine ⟨_, _, e, e', .of_points l l' ?_ (unpackLinearMix_off off) (unpackLinearMix_off off')⟩
  rw [h, h', Set.image_inter T.injective]

/-- **C58** `unite_segment_with_polygon` -/
theorem uniteSegmentWithPolygon_affine {a : Segment} {b : Polygon} (ha : a.Proper) (vb : ValidPolygon b) :
    ∃ g g', uniteSegmentWithPolygon o tb a b = .ok g ∧ uniteSegmentWithPolygon o' tb' (T.segment a) (T.polygon b) = .ok g' ∧ PartsImage T g g' := by
  obtain ⟨out, e, -, g, k, h, f⟩ := uniteSegmentWithPolygon_union ok tb (a := a) ha vb
  obtain ⟨out', e', -, g', k', h', f'⟩ := uniteSegmentWithPolygon_union ok' tb' (T.proper.2 ha) (T.valid vb)
  rw [T.segment_pts, vb.pts_image T] at h'
  obtain ⟨w, l, fw⟩ := (mixed_operations_wellFormed ok tb (a := exA) (by decide) exA_valid ha vb (bs := [b]) (by simp) vb.validPolygons).2.1 out (Or.inl e)
  obtain ⟨w', l', fw'⟩ := (mixed_operations_wellFormed ok' tb' (a := exA) (by decide) exA_valid (T.proper.2 ha) (T.valid vb) (bs := [T.polygon b]) (by simp) (T.valid vb).validPolygons).2.1 out' (Or.inl e')
  obtain rfl := union_linear (fun _ _ _ => by simp) (f.symm.trans fw)
  obtain rfl := union_linear (fun _ _ _ => by simp) (f'.symm.trans fw')
  refine ⟨out, out', e, e', ?_⟩
  rw [f, f']
  exact .of_union k l k' l' h h' rfl rfl rfl rfl (by
      simpa [Geometry.shapedPolygons] using T.region_valid vb.validPolygons)

/-- **C58** `symmetric_subtract_polygon_from_segment` -/
theorem symmetricSubtractPolygonFromSegment_affine {a : Segment} {b : Polygon} (ha : a.Proper) (vb : ValidPolygon b) :
    ∃ g g', symmetricSubtractPolygonFromSegment o tb a b = .ok g ∧ symmetricSubtractPolygonFromSegment o' tb' (T.segment a) (T.polygon b) = .ok g' ∧ PartsImage T g g' := by
  obtain ⟨out, e, -, g, k, h, f⟩ := symmetricSubtractPolygonFromSegment_union ok tb (a := a) ha vb
  obtain ⟨out', e', -, g', k', h', f'⟩ := symmetricSubtractPolygonFromSegment_union ok' tb' (T.proper.2 ha) (T.valid vb)
  rw [T.segment_pts, vb.pts_image T] at h'
  obtain ⟨w, l, fw⟩ := (mixed_operations_wellFormed ok tb (a := exA) (by decide) exA_valid ha vb (bs := [b]) (by simp) vb.validPolygons).2.1 out (Or.inl e)
  obtain ⟨w', l', fw'⟩ := (mixed_operations_wellFormed ok' tb' (a := exA) (by decide) exA_valid (T.proper.2 ha) (T.valid vb) (bs := [T.polygon b]) (by simp) (T.valid vb).validPolygons).2.1 out' (Or.inl e')
  obtain rfl := union_linear (fun _ _ _ => by simp) (f.symm.trans fw)
  obtain rfl := union_linear (fun _ _ _ => by simp) (f'.symm.trans fw')
  refine ⟨out, out', e, e', ?_⟩
  rw [f, f']
  exact .of_union k l k' l' h h' rfl rfl rfl rfl (by
      simpa [Geometry.shapedPolygons] using T.region_valid vb.validPolygons)

/-- **C58** `intersect_segment_with_multipolygon` -/
theorem intersectSegmentWithMultipolygon_affine {a : Segment} {b : List Polygon} (ha : a.Proper) (hb : b ≠ []) (vb : ValidPolygons b) :
    ∃ g g', intersectSegmentWithMultipolygon o tb a b = .ok g ∧ intersectSegmentWithMultipolygon o' tb' (T.segment a) (b.map T.polygon) = .ok g' ∧ PartsImage T g g' := by
  obtain ⟨g, e, k, l, h⟩ := intersectSegmentWithMultipolygon_intersection ok tb (a := a) ha hb vb
  obtain ⟨g', e', k', l', h'⟩ := intersectSegmentWithMultipolygon_intersection ok' tb' (T.proper.2 ha) (by simpa using hb) (T.valid_polygons vb)
  rw [T.segment_pts, T.polysPts_map vb] at h'
  exact ⟨g, g', e, e', .of_intersection k l k' l' h h'⟩

/-- **C58** `complete_intersect_segment_with_multipolygon` -/
theorem completeIntersectSegmentWithMultipolygon_affine {a : Segment} {b : List Polygon} (ha : a.Proper) (hb : b ≠ []) (vb : ValidPolygons b) :
    ∃ g g', completeIntersectSegmentWithMultipolygon o tb a b = .ok g ∧ completeIntersectSegmentWithMultipolygon o' tb' (T.segment a) (b.map T.polygon) = .ok g' ∧ PartsImage T g g' := by
  obtain ⟨ps, r, e, h, l, off, -⟩ := completeIntersectSegmentWithMultipolygon_intersection ok tb (a := a) ha hb vb
  obtain ⟨ps', r', e', h', l', off', -⟩ := completeIntersectSegmentWithMultipolygon_intersection ok' tb' (T.proper.2 ha) (by simpa using hb) (T.valid_polygons vb)
  rw [T.segment_pts, T.polysPts_map vb] at h'
  refine ⟨_, _, e, e', .of_points l l' ?_ (unpackLinearMix_off off) (unpackLinearMix_off off')⟩
  rw [h, h', Set.image_inter T.injective]

/-- **C58** `unite_segment_with_multipolygon` -/
theorem uniteSegmentWithMultipolygon_affine {a : Segment} {b : List Polygon} (ha : a.Proper) (hb : b ≠ []) (vb : ValidPolygons b) :
    ∃ g g', uniteSegmentWithMultipolygon o tb a b = .ok g ∧ uniteSegmentWithMultipolygon o' tb' (T.segment a) (b.map T.polygon) = .ok g' ∧ PartsImage T g g' := by
  obtain ⟨out, e, -, g, k, h, f⟩ := uniteSegmentWithMultipolygon_union ok tb (a := a) ha hb vb
  obtain ⟨out', e', -, g', k', h', f'⟩ := uniteSegmentWithMultipolygon_union ok' tb' (T.proper.2 ha) (by simpa using hb) (T.valid_polygons vb)
  rw [T.segment_pts, T.polysPts_map vb] at h'
  obtain ⟨w, l, fw⟩ := (mixed_operations_wellFormed ok tb (a := exA) (by decide) exA_valid ha (b := exTriangle) exTriangle_valid hb vb).2.2 out (Or.inl e)
  obtain ⟨w', l', fw'⟩ := (mixed_operations_wellFormed ok' tb' (a := exA) (by decide) exA_valid (T.proper.2 ha) (b := exTriangle) exTriangle_valid (by simpa using hb) (T.valid_polygons vb)).2.2 out' (Or.inl e')
  obtain rfl := union_linear (fun _ _ _ => by simp) (f.symm.trans fw)
  obtain rfl := union_linear (fun _ _ _ => by simp) (f'.symm.trans fw')
  refine ⟨out, out', e, e', ?_⟩
  rw [f, f']
  exact .of_union k l k' l' h h' rfl rfl rfl rfl (by exact T.region_valid vb)

/-- **C58** `symmetric_subtract_multipolygon_from_segment` -/
theorem symmetricSubtractMultipolygonFromSegment_affine {a : Segment} {b : List Polygon} (ha : a.Proper) (hb : b ≠ []) (vb : ValidPolygons b) :
    ∃ g g', symmetricSubtractMultipolygonFromSegment o tb a b = .ok g ∧ symmetricSubtractMultipolygonFromSegment o' tb' (T.segment a) (b.map T.polygon) = .ok g' ∧ PartsImage T g g' := by
  obtain ⟨out, e, -, g, k, h, f⟩ := symmetricSubtractMultipolygonFromSegment_union ok tb (a := a) ha hb vb
  obtain ⟨out', e', -, g', k', h', f'⟩ := symmetricSubtractMultipolygonFromSegment_union ok' tb' (T.proper.2 ha) (by simpa using hb) (T.valid_polygons vb)
  rw [T.segment_pts, T.polysPts_map vb] at h'
  obtain ⟨w, l, fw⟩ := (mixed_operations_wellFormed ok tb (a := exA) (by decide) exA_valid ha (b := exTriangle) exTriangle_valid hb vb).2.2 out (Or.inl e)
  obtain ⟨w', l', fw'⟩ := (mixed_operations_wellFormed ok' tb' (a := exA) (by decide) exA_valid (T.proper.2 ha) (b := exTriangle) exTriangle_valid (by simpa using hb) (T.valid_polygons vb)).2.2 out' (Or.inl e')
  obtain rfl := union_linear (fun _ _ _ => by simp) (f.symm.trans fw)
  obtain rfl := union_linear (fun _ _ _ => by simp) (f'.symm.trans fw')
  refine ⟨out, out', e, e', ?_⟩
  rw [f, f']
  exact .of_union k l k' l' h h' rfl rfl rfl rfl (by exact T.region_valid vb)

/-- **C58** `intersect_multisegment_with_polygon` -/
theorem intersectMultisegmentWithPolygon_affine {a : List Segment} {b : Polygon} (ha : 2 ≤ a.length) (na : ValidSegments a) (vb : ValidPolygon b) :
    ∃ g g', intersectMultisegmentWithPolygon o tb a b = .ok g ∧ intersectMultisegmentWithPolygon o' tb' (a.map T.segment) (T.polygon b) = .ok g' ∧ PartsImage T g g' := by
  obtain ⟨g, e, k, l, h⟩ := intersectMultisegmentWithPolygon_intersection ok tb (a := a) (List.ne_nil_of_length_pos (by omega)) na.noOverlap vb
  obtain ⟨g', e', k', l', h'⟩ := intersectMultisegmentWithPolygon_intersection ok' tb' (List.ne_nil_of_length_pos (by rw [List.length_map]; omega)) (T.noOverlap na.noOverlap) (T.valid vb)
  rw [T.segsPts_map, vb.pts_image T] at h'
  exact ⟨g, g', e, e', .of_intersection k l k' l' h h'⟩

/-- **C58** `complete_intersect_multisegment_with_polygon` -/
theorem completeIntersectMultisegmentWithPolygon_affine {a : List Segment} {b : Polygon} (ha : 2 ≤ a.length) (na : ValidSegments a) (vb : ValidPolygon b) :
    ∃ g g', completeIntersectMultisegmentWithPolygon o tb a b = .ok g ∧ completeIntersectMultisegmentWithPolygon o' tb' (a.map T.segment) (T.polygon b) = .ok g' ∧ PartsImage T g g' := by
  obtain ⟨ps, r, e, h, l, off, -⟩ := completeIntersectMultisegmentWithPolygon_intersection ok tb (a := a) (List.ne_nil_of_length_pos (by omega)) na.noOverlap vb
  obtain ⟨ps', r', e', h', l', off', -⟩ := completeIntersectMultisegmentWithPolygon_intersection ok' tb' (List.ne_nil_of_length_pos (by rw [List.length_map]; omega)) (T.noOverlap na.noOverlap) (T.valid vb)
  rw [T.segsPts_map, vb.pts_image T] at h'
  refine ⟨_, _, e, e', .of_points l l' ?_ (unpackLinearMix_off off) (unpackLinearMix_off off')⟩
  rw [h, h', Set.image_inter T.injective]

/-- **C58** `unite_multisegment_with_polygon` -/
theorem uniteMultisegmentWithPolygon_affine {a : List Segment} {b : Polygon} (ha : 2 ≤ a.length) (na : ValidSegments a) (vb : ValidPolygon b) :
    ∃ g g', uniteMultisegmentWithPolygon o tb a b = .ok g ∧ uniteMultisegmentWithPolygon o' tb' (a.map T.segment) (T.polygon b) = .ok g' ∧ PartsImage T g g' := by
  obtain ⟨out, e, -, g, k, h, f⟩ := uniteMultisegmentWithPolygon_union ok tb (a := a) (List.ne_nil_of_length_pos (by omega)) na.noOverlap vb
  obtain ⟨out', e', -, g', k', h', f'⟩ := uniteMultisegmentWithPolygon_union ok' tb' (List.ne_nil_of_length_pos (by rw [List.length_map]; omega)) (T.noOverlap na.noOverlap) (T.valid vb)
  rw [T.segsPts_map, vb.pts_image T] at h'
  obtain ⟨w, l, fw⟩ := (mixed_operations_wellFormed ok tb ha na (t := ⟨⟨0, 0⟩, ⟨1, 0⟩⟩) (by decide +kernel) vb (bs := [b]) (by simp) vb.validPolygons).2.1 out (Or.inr e)
  obtain ⟨w', l', fw'⟩ := (mixed_operations_wellFormed ok' tb' (by rwa [List.length_map]) (T.validSegments na) (t := ⟨⟨0, 0⟩, ⟨1, 0⟩⟩) (by decide +kernel) (T.valid vb) (bs := [T.polygon b]) (by simp) (T.valid vb).validPolygons).2.1 out' (Or.inr e')
  obtain rfl := union_linear (fun _ _ _ => by simp) (f.symm.trans fw)
  obtain rfl := union_linear (fun _ _ _ => by simp) (f'.symm.trans fw')
  refine ⟨out, out', e, e', ?_⟩
  rw [f, f']
  exact .of_union k l k' l' h h' rfl rfl rfl rfl (by
      simpa [Geometry.shapedPolygons] using T.region_valid vb.validPolygons)

/-- **C58** `symmetric_subtract_polygon_from_multisegment` -/
theorem symmetricSubtractPolygonFromMultisegment_affine {a : List Segment} {b : Polygon} (ha : 2 ≤ a.length) (na : ValidSegments a) (vb : ValidPolygon b) :
    ∃ g g', symmetricSubtractPolygonFromMultisegment o tb a b = .ok g ∧ symmetricSubtractPolygonFromMultisegment o' tb' (a.map T.segment) (T.polygon b) = .ok g' ∧ PartsImage T g g' := by
  obtain ⟨out, e, -, g, k, h, f⟩ := symmetricSubtractPolygonFromMultisegment_union ok tb (a := a) (List.ne_nil_of_length_pos (by omega)) na.noOverlap vb
  obtain ⟨out', e', -, g', k', h', f'⟩ := symmetricSubtractPolygonFromMultisegment_union ok' tb' (List.ne_nil_of_length_pos (by rw [List.length_map]; omega)) (T.noOverlap na.noOverlap) (T.valid vb)
  rw [T.segsPts_map, vb.pts_image T] at h'
  obtain ⟨w, l, fw⟩ := (mixed_operations_wellFormed ok tb ha na (t := ⟨⟨0, 0⟩, ⟨1, 0⟩⟩) (by decide +kernel) vb (bs := [b]) (by simp) vb.validPolygons).2.1 out (Or.inr e)
  obtain ⟨w', l', fw'⟩ := (mixed_operations_wellFormed ok' tb' (by rwa [List.length_map]) (T.validSegments na) (t := ⟨⟨0, 0⟩, ⟨1, 0⟩⟩) (by decide +kernel) (T.valid vb) (bs := [T.polygon b]) (by simp) (T.valid vb).validPolygons).2.1 out' (Or.inr e')
  obtain rfl := union_linear (fun _ _ _ => by simp) (f.symm.trans fw)
  obtain rfl := union_linear (fun _ _ _ => by simp) (f'.symm.trans fw')
  refine ⟨out, out', e, e', ?_⟩
  rw [f, f']
  exact .of_union k l k' l' h h' rfl rfl rfl rfl (by
      simpa [Geometry.shapedPolygons] using T.region_valid vb.validPolygons)

/-- **C58** `intersect_multisegment_with_multipolygon` -/
theorem intersectMultisegmentWithMultipolygon_affine {a : List Segment} {b : List Polygon} (ha : 2 ≤ a.length) (na : ValidSegments a) (hb : b ≠ []) (vb : ValidPolygons b) :
    ∃ g g', intersectMultisegmentWithMultipolygon o tb a b = .ok g ∧ intersectMultisegmentWithMultipolygon o' tb' (a.map T.segment) (b.map T.polygon) = .ok g' ∧ PartsImage T g g' := by
  obtain ⟨g, e, k, l, h⟩ := intersectMultisegmentWithMultipolygon_intersection ok tb (a := a) (List.ne_nil_of_length_pos (by omega)) na.noOverlap hb vb
  obtain ⟨g', e', k', l', h'⟩ := intersectMultisegmentWithMultipolygon_intersection ok' tb' (List.ne_nil_of_length_pos (by rw [List.length_map]; omega)) (T.noOverlap na.noOverlap) (by simpa using hb) (T.valid_polygons vb)
  rw [T.segsPts_map, T.polysPts_map vb] at h'
  exact ⟨g, g', e, e', .of_intersection k l k' l' h h'⟩

/-- **C58** `complete_intersect_multisegment_with_multipolygon` -/
theorem completeIntersectMultisegmentWithMultipolygon_affine {a : List Segment} {b : List Polygon} (ha : 2 ≤ a.length) (na : ValidSegments a) (hb : b ≠ []) (vb : ValidPolygons b) :
    ∃ g g', completeIntersectMultisegmentWithMultipolygon o tb a b = .ok g ∧ completeIntersectMultisegmentWithMultipolygon o' tb' (a.map T.segment) (b.map T.polygon) = .ok g' ∧ PartsImage T g g' := by
  obtain ⟨ps, r, e, h, l, off, -⟩ := completeIntersectMultisegmentWithMultipolygon_intersection ok tb (a := a) (List.ne_nil_of_length_pos (by omega)) na.noOverlap hb vb
  obtain ⟨ps', r', e', h', l', off', -⟩ := completeIntersectMultisegmentWithMultipolygon_intersection ok' tb' (List.ne_nil_of_length_pos (by rw [List.length_map]; omega)) (T.noOverlap na.noOverlap) (by simpa using hb) (T.valid_polygons vb)
  rw [T.segsPts_map, T.polysPts_map vb] at h'
  refine ⟨_, _, e, e', .of_points l l' ?_ (unpackLinearMix_off off) (unpackLinearMix_off off')⟩
  rw [h, h', Set.image_inter T.injective]

/-- **C58** `unite_multisegment_with_multipolygon` -/
theorem uniteMultisegmentWithMultipolygon_affine {a : List Segment} {b : List Polygon} (ha : 2 ≤ a.length) (na : ValidSegments a) (hb : b ≠ []) (vb : ValidPolygons b) :
    ∃ g g', uniteMultisegmentWithMultipolygon o tb a b = .ok g ∧ uniteMultisegmentWithMultipolygon o' tb' (a.map T.segment) (b.map T.polygon) = .ok g' ∧ PartsImage T g g' := by
  obtain ⟨out, e, -, g, k, h, f⟩ := uniteMultisegmentWithMultipolygon_union ok tb (a := a) (List.ne_nil_of_length_pos (by omega)) na.noOverlap hb vb
  obtain ⟨out', e', -, g', k', h', f'⟩ := uniteMultisegmentWithMultipolygon_union ok' tb' (List.ne_nil_of_length_pos (by rw [List.length_map]; omega)) (T.noOverlap na.noOverlap) (by simpa using hb) (T.valid_polygons vb)
  rw [T.segsPts_map, T.polysPts_map vb] at h'
  obtain ⟨w, l, fw⟩ := (mixed_operations_wellFormed ok tb ha na (t := ⟨⟨0, 0⟩, ⟨1, 0⟩⟩) (by decide +kernel) (b := exTriangle) exTriangle_valid hb vb).2.2 out (Or.inr e)
  obtain ⟨w', l', fw'⟩ := (mixed_operations_wellFormed ok' tb' (by rwa [List.length_map]) (T.validSegments na) (t := ⟨⟨0, 0⟩, ⟨1, 0⟩⟩) (by decide +kernel) (b := exTriangle) exTriangle_valid (by simpa using hb) (T.valid_polygons vb)).2.2 out' (Or.inr e')
  obtain rfl := union_linear (fun _ _ _ => by simp) (f.symm.trans fw)
  obtain rfl := union_linear (fun _ _ _ => by simp) (f'.symm.trans fw')
  refine ⟨out, out', e, e', ?_⟩
  rw [f, f']
  exact .of_union k l k' l' h h' rfl rfl rfl rfl (by exact T.region_valid vb)

/-- **C58** `symmetric_subtract_multipolygon_from_multisegment` -/
theorem symmetricSubtractMultipolygonFromMultisegment_affine {a : List Segment} {b : List Polygon} (ha : 2 ≤ a.length) (na : ValidSegments a) (hb : b ≠ []) (vb : ValidPolygons b) :
    ∃ g g', symmetricSubtractMultipolygonFromMultisegment o tb a b = .ok g ∧ symmetricSubtractMultipolygonFromMultisegment o' tb' (a.map T.segment) (b.map T.polygon) = .ok g' ∧ PartsImage T g g' := by
  obtain ⟨out, e, -, g, k, h, f⟩ := symmetricSubtractMultipolygonFromMultisegment_union ok tb (a := a) (List.ne_nil_of_length_pos (by omega)) na.noOverlap hb vb
  obtain ⟨out', e', -, g', k', h', f'⟩ := symmetricSubtractMultipolygonFromMultisegment_union ok' tb' (List.ne_nil_of_length_pos (by rw [List.length_map]; omega)) (T.noOverlap na.noOverlap) (by simpa using hb) (T.valid_polygons vb)
  rw [T.segsPts_map, T.polysPts_map vb] at h'
  obtain ⟨w, l, fw⟩ := (mixed_operations_wellFormed ok tb ha na (t := ⟨⟨0, 0⟩, ⟨1, 0⟩⟩) (by decide +kernel) (b := exTriangle) exTriangle_valid hb vb).2.2 out (Or.inr e)
  obtain ⟨w', l', fw'⟩ := (mixed_operations_wellFormed ok' tb' (by rwa [List.length_map]) (T.validSegments na) (t := ⟨⟨0, 0⟩, ⟨1, 0⟩⟩) (by decide +kernel) (b := exTriangle) exTriangle_valid (by simpa using hb) (T.valid_polygons vb)).2.2 out' (Or.inr e')
  obtain rfl := union_linear (fun _ _ _ => by simp) (f.symm.trans fw)
  obtain rfl := union_linear (fun _ _ _ => by simp) (f'.symm.trans fw')
  refine ⟨out, out', e, e', ?_⟩
  rw [f, f']
  exact .of_union k l k' l' h h' rfl rfl rfl rfl (by exact T.region_valid vb)

end

/-! ## Operations which miss something -/

section

variable (T : Affine) (tb tb' : TieBreak)

/-- **C59, proved part** `intersect_multisegments`: the result on the images is the image of the result, if no segment of an operand has a
corner of the box of the other one in its interior, before and after the mapping. -/
theorem intersectMultisegments_affine_partial {a b : List Segment} (la : 2 ≤ a.length) (lb : 2 ≤ b.length) (va : ValidSegments a)
    (vb : ValidSegments b) (c1 : ∀ box, boxOf a = .ok box → ∀ s ∈ b, NoCornerInside box s)
    (c2 : ∀ box, boxOf b = .ok box → ∀ s ∈ a, NoCornerInside box s)
    (c1' : ∀ box, boxOf (a.map T.segment) = .ok box → ∀ s ∈ b.map T.segment, NoCornerInside box s)
    (c2' : ∀ box, boxOf (b.map T.segment) = .ok box → ∀ s ∈ a.map T.segment, NoCornerInside box s) :
    ∃ g g', intersectMultisegments tb a b = .ok g ∧ intersectMultisegments tb' (a.map T.segment) (b.map T.segment) = .ok g' ∧
      PartsImage T g g' := by
  have va' := T.validSegments va
  have vb' := T.validSegments vb
  have la' : 2 ≤ (a.map T.segment).length := by rwa [List.length_map]
  have lb' : 2 ≤ (b.map T.segment).length := by rwa [List.length_map]
  obtain ⟨g, e, k, -, h⟩ := intersectMultisegments_intersection_partial tb (List.ne_nil_of_length_pos (by omega))
    (List.ne_nil_of_length_pos (by omega)) va.noOverlap vb.noOverlap
  obtain ⟨g', e', k', -, h'⟩ := intersectMultisegments_intersection_partial tb' (List.ne_nil_of_length_pos (by omega))
    (List.ne_nil_of_length_pos (by omega)) va'.noOverlap vb'.noOverlap
  have h := h c1 c2
  have h' := h' c1' c2'
  rw [T.segsPts_map, T.segsPts_map] at h'
  refine ⟨g, g', e, e', .of_intersection k ?_ k' ?_ h h'⟩
  · exact multisegment_operations_wellFormed tb la lb va vb (s := ⟨⟨0, 0⟩, ⟨1, 0⟩⟩) (by decide +kernel) _ (Or.inr (Or.inl e))
  · exact multisegment_operations_wellFormed tb' la' lb' va' vb' (s := ⟨⟨0, 0⟩, ⟨1, 0⟩⟩) (by decide +kernel) _ (Or.inr (Or.inl e'))

/-- **C59, proved part** `subtract_multisegments`: the result on the images is the image of the result, if no segment of the subtrahend has
a corner of the box of the minuend in its interior, before and after the mapping. -/
theorem subtractMultisegments_affine_partial {a b : List Segment} (la : 2 ≤ a.length) (lb : 2 ≤ b.length) (va : ValidSegments a)
    (vb : ValidSegments b) (c : ∀ box, boxOf a = .ok box → ∀ s ∈ b, NoCornerInside box s)
    (c' : ∀ box, boxOf (a.map T.segment) = .ok box → ∀ s ∈ b.map T.segment, NoCornerInside box s) :
    ∃ g g', subtractMultisegments tb a b = .ok g ∧ subtractMultisegments tb' (a.map T.segment) (b.map T.segment) = .ok g' ∧
      PartsImage T g g' := by
  have va' := T.validSegments va
  have vb' := T.validSegments vb
  have la' : 2 ≤ (a.map T.segment).length := by rwa [List.length_map]
  have lb' : 2 ≤ (b.map T.segment).length := by rwa [List.length_map]
  obtain ⟨g, e, k, -, -, h⟩ := subtractMultisegments_difference_partial tb (List.ne_nil_of_length_pos (by omega))
    (List.ne_nil_of_length_pos (by omega)) va.noOverlap vb.noOverlap
  obtain ⟨g', e', k', -, -, h'⟩ := subtractMultisegments_difference_partial tb' (List.ne_nil_of_length_pos (by omega))
    (List.ne_nil_of_length_pos (by omega)) va'.noOverlap vb'.noOverlap
  have h := h c
  have h' := h' c'
  rw [T.segsPts_map, T.segsPts_map] at h'
  refine ⟨g, g', e, e', .of_difference k ?_ k' ?_ h h'⟩
  · exact multisegment_operations_wellFormed tb la lb va vb (s := ⟨⟨0, 0⟩, ⟨1, 0⟩⟩) (by decide +kernel) _ (Or.inr (Or.inr (Or.inl e)))
  · exact multisegment_operations_wellFormed tb' la' lb' va' vb' (s := ⟨⟨0, 0⟩, ⟨1, 0⟩⟩) (by decide +kernel) _ (Or.inr (Or.inr (Or.inl e')))

/-- **C59, proved part** `subtract_multisegment_from_segment` -/
theorem subtractMultisegmentFromSegment_affine_partial {s : Segment} {b : List Segment} (hs : s.Proper) (lb : 2 ≤ b.length)
    (vb : ValidSegments b) (c : ∀ t ∈ b, NoCornerInside (segmentBox s) t)
    (c' : ∀ t ∈ b.map T.segment, NoCornerInside (segmentBox (T.segment s)) t) :
    ∃ g g', subtractMultisegmentFromSegment tb s b = .ok g ∧
      subtractMultisegmentFromSegment tb' (T.segment s) (b.map T.segment) = .ok g' ∧ PartsImage T g g' := by
  have hs' := T.proper.2 hs
  have vb' := T.validSegments vb
  have lb' : 2 ≤ (b.map T.segment).length := by rwa [List.length_map]
  obtain ⟨g, e, k, -, -, h⟩ := subtractMultisegmentFromSegment_difference_partial tb hs (List.ne_nil_of_length_pos (by omega)) vb.noOverlap
  obtain ⟨g', e', k', -, -, h'⟩ := subtractMultisegmentFromSegment_difference_partial tb' hs' (List.ne_nil_of_length_pos (by omega))
    vb'.noOverlap
  have h := h c
  have h' := h' c'
  rw [T.segment_pts, T.segsPts_map] at h'
  refine ⟨g, g', e, e', .of_difference k ?_ k' ?_ h h'⟩
  · exact multisegment_operations_wellFormed tb lb lb vb vb hs _ (by tauto)
  · exact multisegment_operations_wellFormed tb' lb' lb' vb' vb' hs' _ (by tauto)

end

section

variable {o o' : Orient} (ok : OrientOk o) (ok' : OrientOk o') (tb tb' : TieBreak) (T : Affine)
include ok ok'

/-- **C59, proved part** `subtract_polygon_from_segment`: if the minuend has finitely many points on the holes. -/
theorem subtractPolygonFromSegment_affine_partial {a : Segment} {b : Polygon} (ha : a.Proper) (vb : ValidPolygon b)
    (c : ∀ c ∈ b.holes, (a.pts ∩ segsPts c.edges).Finite) :
    ∃ g g', subtractPolygonFromSegment o tb a b = .ok g ∧ subtractPolygonFromSegment o' tb' (T.segment a) (T.polygon b) = .ok g' ∧ PartsImage T g g' := by
  obtain ⟨g, e, k, -, -, h⟩ := subtractPolygonFromSegment_difference_partial ok tb (a := a) ha vb
  obtain ⟨g', e', k', -, -, h'⟩ := subtractPolygonFromSegment_difference_partial ok' tb' (T.proper.2 ha) (T.valid vb)
  have h := h c
  have h' := h' (by
    intro d hd
    obtain ⟨d, hd', rfl⟩ := List.mem_map.1 hd
    rw [T.segment_pts, T.contour_edges, T.segsPts_map, ← Set.image_inter T.injective]
    exact (c d hd').image _)
  rw [T.segment_pts, vb.pts_image T] at h'
  refine ⟨g, g', e, e', .of_difference k ?_ k' ?_ h h'⟩
  · exact (mixed_operations_wellFormed ok tb (a := exA) (by decide) exA_valid ha vb (bs := [b]) (by simp) vb.validPolygons).1 g (Or.inl e)
  · exact (mixed_operations_wellFormed ok' tb' (a := exA) (by decide) exA_valid (T.proper.2 ha) (T.valid vb) (bs := [T.polygon b]) (by simp) (T.valid vb).validPolygons).1 g' (Or.inl e')

/-- **C59, proved part** `subtract_multipolygon_from_segment`: if the minuend has finitely many points on the holes. -/
theorem subtractMultipolygonFromSegment_affine_partial {a : Segment} {b : List Polygon} (ha : a.Proper) (hb : b ≠ []) (vb : ValidPolygons b)
    (c : ∀ p ∈ b, ∀ c ∈ p.holes, (a.pts ∩ segsPts c.edges).Finite) :
    ∃ g g', subtractMultipolygonFromSegment o tb a b = .ok g ∧ subtractMultipolygonFromSegment o' tb' (T.segment a) (b.map T.polygon) = .ok g' ∧ PartsImage T g g' := by
  obtain ⟨g, e, k, -, -, h⟩ := subtractMultipolygonFromSegment_difference_partial ok tb (a := a) ha hb vb
  obtain ⟨g', e', k', -, -, h'⟩ := subtractMultipolygonFromSegment_difference_partial ok' tb' (T.proper.2 ha) (by simpa using hb) (T.valid_polygons vb)
  have h := h c
  have h' := h' (by
    intro p hp d hd
    obtain ⟨p, hp', rfl⟩ := List.mem_map.1 hp
    obtain ⟨d, hd', rfl⟩ := List.mem_map.1 hd
    rw [T.segment_pts, T.contour_edges, T.segsPts_map, ← Set.image_inter T.injective]
    exact (c p hp' d hd').image _)
  rw [T.segment_pts, T.polysPts_map vb] at h'
  refine ⟨g, g', e, e', .of_difference k ?_ k' ?_ h h'⟩
  · exact (mixed_operations_wellFormed ok tb (a := exA) (by decide) exA_valid ha (b := exTriangle) exTriangle_valid hb vb).1 g (Or.inr (Or.inl e))
  · exact (mixed_operations_wellFormed ok' tb' (a := exA) (by decide) exA_valid (T.proper.2 ha) (b := exTriangle) exTriangle_valid (by simpa using hb) (T.valid_polygons vb)).1 g' (Or.inr (Or.inl e'))

/-- **C59, proved part** `subtract_polygon_from_multisegment`: if the minuend has finitely many points on the holes. -/
theorem subtractPolygonFromMultisegment_affine_partial {a : List Segment} {b : Polygon} (ha : 2 ≤ a.length) (na : ValidSegments a) (vb : ValidPolygon b)
    (c : ∀ c ∈ b.holes, (segsPts a ∩ segsPts c.edges).Finite) :
    ∃ g g', subtractPolygonFromMultisegment o tb a b = .ok g ∧ subtractPolygonFromMultisegment o' tb' (a.map T.segment) (T.polygon b) = .ok g' ∧ PartsImage T g g' := by
  obtain ⟨g, e, k, -, -, h⟩ := subtractPolygonFromMultisegment_difference_partial ok tb (a := a) (List.ne_nil_of_length_pos (by omega)) na.noOverlap vb
  obtain ⟨g', e', k', -, -, h'⟩ := subtractPolygonFromMultisegment_difference_partial ok' tb' (List.ne_nil_of_length_pos (by rw [List.length_map]; omega)) (T.noOverlap na.noOverlap) (T.valid vb)
  have h := h c
  have h' := h' (by
    intro d hd
    obtain ⟨d, hd', rfl⟩ := List.mem_map.1 hd
    rw [T.segsPts_map, T.contour_edges, T.segsPts_map, ← Set.image_inter T.injective]
    exact (c d hd').image _)
  rw [T.segsPts_map, vb.pts_image T] at h'
  refine ⟨g, g', e, e', .of_difference k ?_ k' ?_ h h'⟩
  · exact (mixed_operations_wellFormed ok tb ha na (t := ⟨⟨0, 0⟩, ⟨1, 0⟩⟩) (by decide +kernel) vb (bs := [b]) (by simp) vb.validPolygons).1 g (Or.inr (Or.inr (Or.inl e)))
  · exact (mixed_operations_wellFormed ok' tb' (by rwa [List.length_map]) (T.validSegments na) (t := ⟨⟨0, 0⟩, ⟨1, 0⟩⟩) (by decide +kernel) (T.valid vb) (bs := [T.polygon b]) (by simp) (T.valid vb).validPolygons).1 g' (Or.inr (Or.inr (Or.inl e')))

/-- **C59, proved part** `subtract_multipolygon_from_multisegment`: if the minuend has finitely many points on the holes. -/
theorem subtractMultipolygonFromMultisegment_affine_partial {a : List Segment} {b : List Polygon} (ha : 2 ≤ a.length) (na : ValidSegments a) (hb : b ≠ []) (vb : ValidPolygons b)
    (c : ∀ p ∈ b, ∀ c ∈ p.holes, (segsPts a ∩ segsPts c.edges).Finite) :
    ∃ g g', subtractMultipolygonFromMultisegment o tb a b = .ok g ∧ subtractMultipolygonFromMultisegment o' tb' (a.map T.segment) (b.map T.polygon) = .ok g' ∧ PartsImage T g g' := by
  obtain ⟨g, e, k, -, -, h⟩ := subtractMultipolygonFromMultisegment_difference_partial ok tb (a := a) (List.ne_nil_of_length_pos (by omega)) na.noOverlap hb vb
  obtain ⟨g', e', k', -, -, h'⟩ := subtractMultipolygonFromMultisegment_difference_partial ok' tb' (List.ne_nil_of_length_pos (by rw [List.length_map]; omega)) (T.noOverlap na.noOverlap) (by simpa using hb) (T.valid_polygons vb)
  have h := h c
  have h' := h' (by
    intro p hp d hd
    obtain ⟨p, hp', rfl⟩ := List.mem_map.1 hp
    obtain ⟨d, hd', rfl⟩ := List.mem_map.1 hd
    rw [T.segsPts_map, T.contour_edges, T.segsPts_map, ← Set.image_inter T.injective]
    exact (c p hp' d hd').image _)
  rw [T.segsPts_map, T.polysPts_map vb] at h'
  refine ⟨g, g', e, e', .of_difference k ?_ k' ?_ h h'⟩
  · exact (mixed_operations_wellFormed ok tb ha na (t := ⟨⟨0, 0⟩, ⟨1, 0⟩⟩) (by decide +kernel) (b := exTriangle) exTriangle_valid hb vb).1 g (Or.inr (Or.inr (Or.inr e)))
  · exact (mixed_operations_wellFormed ok' tb' (by rwa [List.length_map]) (T.validSegments na) (t := ⟨⟨0, 0⟩, ⟨1, 0⟩⟩) (by decide +kernel) (b := exTriangle) exTriangle_valid (by simpa using hb) (T.valid_polygons vb)).1 g' (Or.inr (Or.inr (Or.inr e')))

end

/-! ## Examples -/

/-- vertical shear: the diagonal becomes horizontal -/
def exShear : Affine := ⟨1, 0, -1, 1, 0, 0, by norm_num⟩

/-- **C59 fails**: valid multisegments with a common segment which `intersect_multisegments` does not find, though it finds its image under
a shear. -/
theorem intersectMultisegments_not_affine : ¬ ∀ (a b : List Segment) (T : Affine), 2 ≤ a.length → 2 ≤ b.length →
    ValidSegments a → ValidSegments b → ∃ g g', intersectMultisegments .id a b = .ok g ∧
      intersectMultisegments .id (a.map T.segment) (b.map T.segment) = .ok g' ∧ PartsImage T g g' := by
  intro h
  obtain ⟨g, g', e, e', p⟩ := h exDiag exLong exShear (by decide) (by decide) exDiag_valid exLong_valid
  have k : intersectMultisegments .id exDiag exLong = .ok .empty := by decide +kernel
  have k' : intersectMultisegments .id (exDiag.map exShear.segment) (exLong.map exShear.segment) =
    .ok (.segment ⟨⟨0, 0⟩, ⟨2, 0⟩⟩) := by decide +kernel
  rw [k] at e
  rw [k'] at e'
  cases e
  cases e'
  have := p.linear
  simp only [Geometry.linearSegments, segsPts_nil, Set.image_empty] at this
  exact this.subset ⟨_, List.mem_singleton_self _, Segment.start_mem _⟩

/-- **C59 fails** for `subtract_multisegments` as well. -/
theorem subtractMultisegments_not_affine : ¬ ∀ (a b : List Segment) (T : Affine), 2 ≤ a.length → 2 ≤ b.length →
    ValidSegments a → ValidSegments b → ∃ g g', subtractMultisegments .id a b = .ok g ∧
      subtractMultisegments .id (a.map T.segment) (b.map T.segment) = .ok g' ∧ PartsImage T g g' := by
  intro h
  obtain ⟨g, g', e, e', p⟩ := h exDiag exLong exShear (by decide) (by decide) exDiag_valid exLong_valid
  have k : subtractMultisegments .id exDiag exLong = .ok (.multisegment exDiag) := by decide +kernel
  have k' : subtractMultisegments .id (exDiag.map exShear.segment) (exLong.map exShear.segment) =
    .ok (.segment ⟨⟨0, 1⟩, ⟨0, 2⟩⟩) := by decide +kernel
  rw [k] at e
  rw [k'] at e'
  cases e
  cases e'
  have h2 : exShear.point ⟨2, 2⟩ ∈ exShear.point '' segsPts (Geometry.multisegment exDiag).linearSegments :=
    Set.mem_image_of_mem _ ⟨⟨⟨0, 0⟩, ⟨2, 2⟩⟩, by simp [Geometry.linearSegments, exDiag], Segment.stop_mem _⟩
  rw [← p.linear] at h2
  obtain ⟨s, hs, t, -, -, hx, -⟩ := h2
  simp only [Geometry.linearSegments, List.mem_singleton] at hs
  subst hs
  simp [exShear, Affine.point] at hx

/-- **C59 fails** for `subtract_multisegment_from_segment` as well. -/
theorem subtractMultisegmentFromSegment_not_affine : ¬ ∀ (s : Segment) (b : List Segment) (T : Affine), s.Proper → 2 ≤ b.length →
    ValidSegments b → ∃ g g', subtractMultisegmentFromSegment .id s b = .ok g ∧
      subtractMultisegmentFromSegment .id (T.segment s) (b.map T.segment) = .ok g' ∧ PartsImage T g g' := by
  intro h
  obtain ⟨g, g', e, e', p⟩ := h ⟨⟨0, 0⟩, ⟨2, 2⟩⟩ exLong exShear (by decide +kernel) (by decide) exLong_valid
  have k : subtractMultisegmentFromSegment .id ⟨⟨0, 0⟩, ⟨2, 2⟩⟩ exLong = .ok (.segment ⟨⟨0, 0⟩, ⟨2, 2⟩⟩) := by decide +kernel
  have k' : subtractMultisegmentFromSegment .id (exShear.segment ⟨⟨0, 0⟩, ⟨2, 2⟩⟩) (exLong.map exShear.segment) = .ok .empty := by
    decide +kernel
  rw [k] at e
  rw [k'] at e'
  cases e
  cases e'
  have h2 : exShear.point ⟨2, 2⟩ ∈ exShear.point '' segsPts (Geometry.segment ⟨⟨0, 0⟩, ⟨2, 2⟩⟩).linearSegments :=
    Set.mem_image_of_mem _ ⟨⟨⟨0, 0⟩, ⟨2, 2⟩⟩, by simp [Geometry.linearSegments], Segment.stop_mem _⟩
  rw [← p.linear] at h2
  obtain ⟨s, hs, -⟩ := h2
  simp [Geometry.linearSegments] at hs

/-- The hypotheses of C58 are met: multisegments which cross, overlap and touch, sheared. -/
example (tb tb' : TieBreak) : ∃ g g', completeIntersectMultisegments tb exA exB = .ok g ∧
    completeIntersectMultisegments tb' (exA.map exShear.segment) (exB.map exShear.segment) = .ok g' ∧ PartsImage exShear g g' :=
  completeIntersectMultisegments_affine (by decide) (by decide) exA_valid exB_valid exShear tb tb'

example (tb tb' : TieBreak) : ∃ g g', completeIntersectMultisegmentWithPolygon (Classical.choose exists_orient) tb exA exTriangle = .ok g ∧
    completeIntersectMultisegmentWithPolygon (Classical.choose exists_orient) tb' (exA.map exShear.segment) (exShear.polygon exTriangle) =
      .ok g' ∧ PartsImage exShear g g' :=
  completeIntersectMultisegmentWithPolygon_affine (Classical.choose_spec exists_orient) (Classical.choose_spec exists_orient) tb tb'
    exShear (by decide) exA_valid exTriangle_valid

example : PartsImage exShear (subtractSegments exS exT) (subtractSegments (exShear.segment exS) (exShear.segment exT)) ∧
    subtractSegments (exShear.segment exS) (exShear.segment exT) = .segment ⟨⟨0, 0⟩, ⟨2, 0⟩⟩ :=
  ⟨subtractSegments_affine (by decide +kernel) (by decide +kernel) exShear, by decide +kernel⟩

example : PartsImage exShear (subtractSegmentFromMultisegment exM exSeg)
    (subtractSegmentFromMultisegment (exM.map exShear.segment) (exShear.segment exSeg)) :=
  subtractSegmentFromMultisegment_affine (by decide +kernel) exM_valid exShear

/-- The hypotheses of C59 are met. -/
example (tb tb' : TieBreak) : ∃ g g', intersectMultisegments tb exA exB = .ok g ∧
    intersectMultisegments tb' (exA.map (Affine.translation 1 2).segment) (exB.map (Affine.translation 1 2).segment) = .ok g' ∧
    PartsImage (Affine.translation 1 2) g g' := by
  refine intersectMultisegments_affine_partial _ tb tb' (by decide) (by decide) exA_valid exB_valid exA_corners exB_corners ?_ ?_
  · intro box hbox s hs
    have e : boxOf (exA.map (Affine.translation 1 2).segment) = .ok ⟨1, 5, 1, 6⟩ := by decide +kernel
    rw [e] at hbox
    cases hbox
    exact noCornerInside_of ((Affine.translation 1 2).validSegments exB_valid |>.1 s hs) (by revert s; decide +kernel)
  · intro box hbox s hs
    have e : boxOf (exB.map (Affine.translation 1 2).segment) = .ok ⟨2, 7, 1, 4⟩ := by decide +kernel
    rw [e] at hbox
    cases hbox
    exact noCornerInside_of ((Affine.translation 1 2).validSegments exA_valid |>.1 s hs) (by revert s; decide +kernel)

end Clipping

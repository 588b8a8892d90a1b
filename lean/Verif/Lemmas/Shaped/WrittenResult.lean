import Verif.Lemmas.Shaped.Written
import Verif.Lemmas.Shaped.TwinForm
import Verif.Lemmas.Shaped.TwinRegions

/-!
# Results do not depend on how operands are written
-/

namespace Clipping

open Sweep

/-! ## Selection of polygons -/

section select

variable {o : Orient} (ok : OrientOk o)

include ok

theorem SameContour.location {c c' : Contour} (h : SameContour c c') (hc : SimpleContour c) (p : Point) :
    o.pointInRegion p c = o.pointInRegion p c' := by
  have hc' := h.simple hc
  have h1 := ok.boundary c p hc
  have h2 := ok.interior c p hc
  have h1' := ok.boundary c' p hc'
  have h2' := ok.interior c' p hc'
  rw [← h.sameEdges.segsPts_eq] at h1' h2'
  rw [← h.sameEdges.inside_iff] at h2'
  have e1 := h1.trans h1'.symm
  have e2 := h2.trans h2'.symm
  cases hl : o.pointInRegion p c <;> cases hl' : o.pointInRegion p c' <;> simp [hl, hl'] at e1 e2 ⊢

theorem SameContour.subset {c c' : Contour} (h : SameContour c c') (hc : SimpleContour c) {b : Box} (hb : b.Solid) :
    isSubsetOfRegion o b c = isSubsetOfRegion o b c' := by
  have hc' := h.simple hc
  unfold isSubsetOfRegion
  rw [Bool.eq_iff_iff, List.all_eq_true, List.all_eq_true]
  refine forall₂_congr fun s hs => ?_
  have hp := hb.edges s hs
  simp only [List.contains_cons, List.contains_nil, Bool.or_false, Bool.or_eq_true, beq_iff_eq]
  rw [ok.component c s hc hp, ok.enclosed c s hc hp, ok.within c s hc hp, ok.component c' s hc' hp,
    ok.enclosed c' s hc' hp, ok.within c' s hc' hp, h.sameEdges.segsPts_eq, h.sameEdges.regionPts_eq]

theorem SameContour.edgesCoupled {c c' : Contour} (h : SameContour c c') (hc : SimpleContour c) {b : Box} (hb : b.Solid) :
    edgesCoupled o b c = edgesCoupled o b c' := by
  have hc' := h.simple hc
  unfold Clipping.edgesCoupled
  rw [Bool.eq_iff_iff, List.any_eq_true, List.any_eq_true]
  refine exists_congr fun s => and_congr_right fun hs => ?_
  have hp := hb.edges s hs
  simp only [List.contains_cons, List.contains_nil, Bool.or_false, Bool.or_eq_true, beq_iff_eq, decide_eq_true_eq]
  rw [ok.component c s hc hp, ok.enclosed c s hc hp, ok.cross c s hc hp, ok.overlap c s hc hp, ok.component c' s hc' hp,
    ok.enclosed c' s hc' hp, ok.cross c' s hc' hp, ok.overlap c' s hc' hp, h.sameEdges.segsPts_eq,
    h.sameEdges.regionPts_eq]
  simp only [h.sameEdges.inside_iff]

theorem SamePolygon.holes_subset {p p' : Polygon} (h : SamePolygon p p') (hp : ValidPolygon p) {b : Box} (hb : b.Solid) :
    isSubsetOfMultiregion o b p.holes = isSubsetOfMultiregion o b p'.holes := by
  unfold isSubsetOfMultiregion
  rw [Bool.eq_iff_iff, List.any_eq_true, List.any_eq_true]
  constructor
  · rintro ⟨c, hc, g⟩
    obtain ⟨d, hd, r⟩ := h.holes.left hc
    exact ⟨d, hd, by rwa [← r.subset ok (hp.holes c hc) hb, ← r.box (hp.holes c hc)]⟩
  · rintro ⟨c, hc, g⟩
    obtain ⟨d, hd, r⟩ := h.holes.right hc
    exact ⟨d, hd, by rwa [r.subset ok (hp.holes d hd) hb, r.box (hp.holes d hd)]⟩

theorem SamePolygon.coupled {p p' : Polygon} (h : SamePolygon p p') (hp : ValidPolygon p) {b : Box} (hb : b.Solid) :
    coupledWithPolygon o b p = coupledWithPolygon o b p' := by
  unfold coupledWithPolygon
  have hl : (toVertices b).map (fun v => o.pointInRegion v p.border) = (toVertices b).map fun v => o.pointInRegion v p'.border :=
    List.map_congr_left fun v _ => h.border.location ok hp.border v
  have hv : (p.border.vertices.any fun v => coversPoint b v) = p'.border.vertices.any fun v => coversPoint b v := by
    rw [Bool.eq_iff_iff, List.any_eq_true, List.any_eq_true]
    exact exists_congr fun v => and_congr_left fun _ => h.border.perm.mem_iff
  dsimp only
  rw [h.border.box hp.border, hl, hv, h.holes_subset ok hp hb, h.border.subset ok hp.border hb,
    h.border.edgesCoupled ok hp.border hb]

theorem SamePolygon.intersects {p p' : Polygon} (h : SamePolygon p p') (hp : ValidPolygon p) {b : Box} (hb : b.Nonempty) :
    intersectsWithPolygon o b p = intersectsWithPolygon o b p' := by
  rw [Bool.eq_iff_iff, intersectsWithPolygon_spec ok hp hb, intersectsWithPolygon_spec ok (h.valid hp) hb,
    h.sameEdges.regionPts_eq]

theorem SamePolygons.toCoupled {ps ps' : List Polygon} (h : SamePolygons ps ps') (hp : ∀ p ∈ ps, ValidPolygon p) {b : Box}
    (hb : b.Solid) : SamePolygons (toCoupledPolygons o b ps) (toCoupledPolygons o b ps') :=
  Matched.filter h fun p hp' _ r => r.coupled ok (hp p hp') hb

theorem SamePolygons.toIntersecting {ps ps' : List Polygon} (h : SamePolygons ps ps') (hp : ∀ p ∈ ps, ValidPolygon p) {b : Box}
    (hb : b.Nonempty) : SamePolygons (toIntersectingPolygons o b ps) (toIntersectingPolygons o b ps') :=
  Matched.filter h fun p hp' _ r => r.intersects ok (hp p hp') hb

end select

/-! ## Operations on polygons -/

section polygons

variable {o : Orient} {a b a' b' : ShapedOperand} (ha : ShapedOk a) (hb : ShapedOk b) (ha' : ShapedOk a') (hb' : ShapedOk b')
  (sa : SamePolygons a.polygons a'.polygons) (sb : SamePolygons b.polygons b'.polygons)

include ha hb ha' hb' sa sb

theorem holeyIntersection_written (ok : OrientOk o) (tb tb' : TieBreak) :
    holeyIntersection o tb a b = holeyIntersection o tb' a' b' := by
  obtain ⟨ba, bb, h1, h2⟩ := boxes_ok ha hb
  have oa := polygonsBox_solid ha.valid.valid h1
  have ob := polygonsBox_solid hb.valid.valid h2
  have ta := sa.toCoupled ok ha.valid.valid ob
  have tb₀ := sb.toCoupled ok hb.valid.valid oa
  unfold holeyIntersection
  rw [← sa.box ha.valid.valid, ← sb.box hb.valid.valid, h1, h2]
  simp only [bind, Except.bind, pure, Except.pure]
  by_cases hd : disjointWith ba bb = true
  · rw [if_pos hd, if_pos hd]
  rw [if_neg hd, if_neg hd, ← Matched.isEmpty ta, ← Matched.isEmpty tb₀]
  by_cases e1 : (toCoupledPolygons o bb a.polygons).isEmpty = true
  · rw [if_pos e1, if_pos e1]
  rw [if_neg e1, if_neg e1]
  by_cases e2 : (toCoupledPolygons o ba b.polygons).isEmpty = true
  · rw [if_pos e2, if_pos e2]
  rw [if_neg e2, if_neg e2]
  have v1 := ha.valid.sublist (toCoupledPolygons_sub o bb a.polygons)
  have v2 := hb.valid.sublist (toCoupledPolygons_sub o ba b.polygons)
  have v1' := ha'.valid.sublist (toCoupledPolygons_sub o bb a'.polygons)
  have v2' := hb'.valid.sublist (toCoupledPolygons_sub o ba b'.polygons)
  obtain ⟨n₁, x₁, g₁⟩ := polygonsMaxX_spec v1.valid (isEmpty_false e1)
  obtain ⟨n₂, x₂, g₂⟩ := polygonsMaxX_spec v2.valid (isEmpty_false e2)
  obtain ⟨n₁', x₁', g₁'⟩ := polygonsMaxX_spec v1'.valid (Matched.ne ta (isEmpty_false e1))
  obtain ⟨n₂', x₂', g₂'⟩ := polygonsMaxX_spec v2'.valid (Matched.ne tb₀ (isEmpty_false e2))
  obtain ⟨h, events, h', events', ps, e, e', g, g'⟩ := holeySweep_twin intersectionRule_ok intersectionRule_for
    intersectionRule_ok intersectionRule_for tb tb' v1 v2 v1' v2'
    (stopOk_min (v1.edges_x g₁) (v2.edges_x g₂) (by simp) (by simp))
    (stopOk_min (v1'.edges_x g₁') (v2'.edges_x g₂') (by simp) (by simp)) (ta.sameEdges.append tb₀.sameEdges)
    (Combined.congr ta.sameEdges tb₀.sameEdges)
  simp only [x₁, x₂, x₁', x₂', e, e', g, g']

theorem holeyCompleteIntersection_written (ok : OrientOk o) (tb tb' : TieBreak) :
    holeyCompleteIntersection o tb a b = holeyCompleteIntersection o tb' a' b' := by
  obtain ⟨ba, bb, h1, h2⟩ := boxes_ok ha hb
  have oa := (polygonsBox_spec ha.valid.valid h1).2
  have ob := (polygonsBox_spec hb.valid.valid h2).2
  have ta := sa.toIntersecting ok ha.valid.valid ob
  have tb₀ := sb.toIntersecting ok hb.valid.valid oa
  unfold holeyCompleteIntersection
  rw [← sa.box ha.valid.valid, ← sb.box hb.valid.valid, h1, h2]
  simp only [bind, Except.bind, pure, Except.pure]
  by_cases hd : disjointWith ba bb = true
  · rw [if_pos hd, if_pos hd]
  rw [if_neg hd, if_neg hd, ← Matched.isEmpty ta, ← Matched.isEmpty tb₀]
  by_cases e1 : (toIntersectingPolygons o bb a.polygons).isEmpty = true
  · rw [if_pos e1, if_pos e1]
  rw [if_neg e1, if_neg e1]
  by_cases e2 : (toIntersectingPolygons o ba b.polygons).isEmpty = true
  · rw [if_pos e2, if_pos e2]
  rw [if_neg e2, if_neg e2]
  have sub : ∀ box ps, (toIntersectingPolygons o box ps).Sublist ps := fun _ _ => List.filter_sublist
  have v1 := ha.valid.sublist (sub bb a.polygons)
  have v2 := hb.valid.sublist (sub ba b.polygons)
  have v1' := ha'.valid.sublist (sub bb a'.polygons)
  have v2' := hb'.valid.sublist (sub ba b'.polygons)
  obtain ⟨n₁, x₁, g₁⟩ := polygonsMaxX_spec v1.valid (isEmpty_false e1)
  obtain ⟨n₂, x₂, g₂⟩ := polygonsMaxX_spec v2.valid (isEmpty_false e2)
  obtain ⟨n₁', x₁', g₁'⟩ := polygonsMaxX_spec v1'.valid (Matched.ne ta (isEmpty_false e1))
  obtain ⟨n₂', x₂', g₂'⟩ := polygonsMaxX_spec v2'.valid (Matched.ne tb₀ (isEmpty_false e2))
  obtain ⟨h, events, h', events', ps, points, segments, e, e', g, g', t, t', c, c'⟩ := holeyComplete_twin tb tb' v1 v2 v1' v2'
    (stopOk_min (v1.edges_x g₁) (v2.edges_x g₂) (by simp) (by simp))
    (stopOk_min (v1'.edges_x g₁') (v2'.edges_x g₂') (by simp) (by simp)) (ta.sameEdges.append tb₀.sameEdges)
    (Combined.congr ta.sameEdges tb₀.sameEdges) (by rw [ta.polysPts_eq, tb₀.polysPts_eq])
  simp only [x₁, x₂, x₁', x₂', e, e', g, g', t, t', c, c']

theorem holeyDifference_written (ok : OrientOk o) (tb tb' : TieBreak) :
    holeyDifference o tb a b = holeyDifference o tb' a' b' ∨
      holeyDifference o tb a b = .ok a.value ∧ holeyDifference o tb' a' b' = .ok a'.value := by
  obtain ⟨ba, bb, h1, h2⟩ := boxes_ok ha hb
  have oa := polygonsBox_solid ha.valid.valid h1
  have tb₀ := sb.toCoupled ok hb.valid.valid oa
  unfold holeyDifference
  rw [← sa.box ha.valid.valid, ← sb.box hb.valid.valid, h1, h2]
  simp only [bind, Except.bind, pure, Except.pure]
  by_cases hd : disjointWith ba bb = true
  · rw [if_pos hd, if_pos hd]
    exact Or.inr ⟨rfl, rfl⟩
  rw [if_neg hd, if_neg hd, ← Matched.isEmpty tb₀]
  by_cases e2 : (toCoupledPolygons o ba b.polygons).isEmpty = true
  · rw [if_pos e2, if_pos e2]
    exact Or.inr ⟨rfl, rfl⟩
  rw [if_neg e2, if_neg e2]
  have v2 := hb.valid.sublist (toCoupledPolygons_sub o ba b.polygons)
  have v2' := hb'.valid.sublist (toCoupledPolygons_sub o ba b'.polygons)
  obtain ⟨n₁, x₁, g₁⟩ := polygonsMaxX_spec ha.valid.valid ha.ne
  obtain ⟨n₁', x₁', g₁'⟩ := polygonsMaxX_spec ha'.valid.valid ha'.ne
  obtain ⟨h, events, h', events', ps, e, e', g, g'⟩ := holeySweep_twin differenceRule_ok differenceRule_for
    differenceRule_ok differenceRule_for tb tb' ha.valid v2 ha'.valid v2' (stopOk_first (ha.valid.edges_x g₁) (by simp))
    (stopOk_first (ha'.valid.edges_x g₁') (by simp)) (sa.sameEdges.append tb₀.sameEdges)
    (Combined.congr sa.sameEdges tb₀.sameEdges)
  left
  simp only [x₁, x₁', e, e', g, g']

theorem holeyUnion_written (tb tb' : TieBreak) :
    holeyUnion tb a b = holeyUnion tb' a' b' ∨ ∃ ps ps', holeyUnion tb a b = .ok (.multipolygon ps) ∧
      holeyUnion tb' a' b' = .ok (.multipolygon ps') ∧ SamePolygons ps ps' := by
  obtain ⟨ba, bb, h1, h2⟩ := boxes_ok ha hb
  unfold holeyUnion
  rw [← sa.box ha.valid.valid, ← sb.box hb.valid.valid, h1, h2]
  simp only [bind, Except.bind, pure, Except.pure]
  by_cases hd : disjointWith ba bb = true
  · rw [if_pos hd, if_pos hd]
    exact Or.inr ⟨_, _, rfl, rfl, (Matched.append sa sb).perm (List.perm_insertionSort _ _) (List.perm_insertionSort _ _).symm⟩
  rw [if_neg hd, if_neg hd]
  obtain ⟨h, events, h', events', ps, e, e', g, g'⟩ := holeySweep_twin unionRule_ok unionRule_for unionRule_ok unionRule_for
    tb tb' ha.valid hb.valid ha'.valid hb'.valid (stopOk_none _ _ _) (stopOk_none _ _ _) (sa.sameEdges.append sb.sameEdges)
    (Combined.congr sa.sameEdges sb.sameEdges)
  left
  simp only [e, e', g, g']

theorem holeySymmetricDifference_written (tb tb' : TieBreak) :
    holeySymmetricDifference tb a b = holeySymmetricDifference tb' a' b' ∨
      ∃ ps ps', holeySymmetricDifference tb a b = .ok (.multipolygon ps) ∧
        holeySymmetricDifference tb' a' b' = .ok (.multipolygon ps') ∧ SamePolygons ps ps' := by
  obtain ⟨ba, bb, h1, h2⟩ := boxes_ok ha hb
  unfold holeySymmetricDifference
  rw [← sa.box ha.valid.valid, ← sb.box hb.valid.valid, h1, h2]
  simp only [bind, Except.bind, pure, Except.pure]
  by_cases hd : disjointWith ba bb = true
  · rw [if_pos hd, if_pos hd]
    exact Or.inr ⟨_, _, rfl, rfl, (Matched.append sa sb).perm (List.perm_insertionSort _ _) (List.perm_insertionSort _ _).symm⟩
  rw [if_neg hd, if_neg hd]
  obtain ⟨h, events, h', events', ps, e, e', g, g'⟩ := holeySweep_twin symmetricDifferenceRule_ok symmetricDifferenceRule_for
    symmetricDifferenceRule_ok symmetricDifferenceRule_for
    tb tb' ha.valid hb.valid ha'.valid hb'.valid (stopOk_none _ _ _) (stopOk_none _ _ _) (sa.sameEdges.append sb.sameEdges)
    (Combined.congr sa.sameEdges sb.sameEdges)
  left
  simp only [e, e', g, g']

end polygons

/-! ## Operations on regions -/

theorem SameRegions.polygons {P P' : List Contour} (h : SameRegions P P') : SamePolygons (regionPolygons P) (regionPolygons P') :=
  Matched.map h fun _ _ r => ⟨r, .refl (by simp)⟩

/-- What the sweep of regions yields, for operands with the same edges. -/
theorem holelessSweep_same (tb tb' : TieBreak) {P Q P' Q' : List Contour} (hP : ValidPolygons (regionPolygons P))
    (hQ : ValidPolygons (regionPolygons Q)) (nP : P ≠ []) (nQ : Q ≠ []) (hP' : ValidPolygons (regionPolygons P'))
    (hQ' : ValidPolygons (regionPolygons Q')) (nP' : P' ≠ []) (nQ' : Q' ≠ [])
    (sP : SamePolygons (regionPolygons P) (regionPolygons P')) (sQ : SamePolygons (regionPolygons Q) (regionPolygons Q')) :
    ∃ h events h' events' cs points segments, holelessSweep tb P Q = .ok (h, events) ∧
      holelessSweep tb' P' Q' = .ok (h', events') ∧
      eventsToRegions h events = .ok cs ∧ eventsToRegions h' events' = .ok cs ∧
      eventsToRegions h (sortEvents h events) = .ok cs ∧ eventsToRegions h' (sortEvents h' events') = .ok cs ∧
      touchPoints h (groupRuns h.evStart (sortEvents h events)) = points ∧
      touchPoints h' (groupRuns h'.evStart (sortEvents h' events')) = points ∧
      commonEdges h (sortEvents h events) = segments ∧ commonEdges h' (sortEvents h' events') = segments := by
  obtain ⟨h, events, cs, e, g, g1, -, -, -, C⟩ := holelessSweep_complete tb hP hQ nP nQ
  obtain ⟨h', events', cs', e', g', g1', -, -, -, C'⟩ := holelessSweep_complete tb' hP' hQ' nP' nQ'
  obtain ⟨m₁, e₁, h₁⟩ := polygonsMaxX_spec hP.valid (regionPolygons_ne nP)
  obtain ⟨m₂, e₂, h₂⟩ := polygonsMaxX_spec hQ.valid (regionPolygons_ne nQ)
  obtain ⟨m₁', e₁', h₁'⟩ := polygonsMaxX_spec hP'.valid (regionPolygons_ne nP')
  obtain ⟨m₂', e₂', h₂'⟩ := polygonsMaxX_spec hQ'.valid (regionPolygons_ne nQ')
  have hst := stopOk_min (op := fun a b => a && b) (hP.edges_x h₁) (hQ.edges_x h₂) (by simp) (by simp)
  have hst' := stopOk_min (op := fun a b => a && b) (hP'.edges_x h₁') (hQ'.edges_x h₂') (by simp) (by simp)
  have bP := hP.isBoundary
  have bQ := hQ.isBoundary
  have bP' := hP'.isBoundary
  have bQ' := hQ'.isBoundary
  rw [regionPolygons_maxX] at e₁ e₂ e₁' e₂'
  obtain ⟨h2, ev2, f, E⟩ := shapedSweep_end (isShaped_holeless intersectionRule_ok) intersectionRule_for tb
    (some (min m₁ m₂)) bP bQ hst
  obtain ⟨h3, ev3, f', E'⟩ := shapedSweep_end (isShaped_holeless intersectionRule_ok) intersectionRule_for tb'
    (some (min m₁' m₂')) bP' bQ' hst'
  have M := shapedSweep_marked (isShaped_holeless intersectionRule_ok) bP bQ hst f E
  have M' := shapedSweep_marked (isShaped_holeless intersectionRule_ok) bP' bQ' hst' f' E'
  have u : holelessSweep tb P Q = .ok (h2, ev2) := by
    unfold holelessSweep
    rw [e₁, e₂]
    rw [regionPolygons_edges, regionPolygons_edges] at f
    exact f
  have u' : holelessSweep tb' P' Q' = .ok (h3, ev3) := by
    unfold holelessSweep
    rw [e₁', e₂']
    rw [regionPolygons_edges, regionPolygons_edges] at f'
    exact f'
  rw [e] at u; cases u
  rw [e'] at u'; cases u'
  have s₁ := hP.sameEdges.trans (sP.sameEdges.trans hP'.sameEdges.symm)
  have s₂ := hQ.sameEdges.trans (sQ.sameEdges.trans hQ'.sameEdges.symm)
  have ss := (s₁.append s₂).sameSegments
  have T := E.twin E' bP.noOverlap bQ.noOverlap bP'.noOverlap bQ'.noOverlap ss (Combined.congr s₁ s₂)
  have := eventsToRegions_twin T
  rw [g, g'] at this
  cases this
  obtain ⟨c1, c2⟩ := E.common_twin M E' M' bP.noOverlap bQ.noOverlap bP'.noOverlap bQ'.noOverlap ss C C'
    (by rw [sP.polysPts_eq, sQ.polysPts_eq]) rfl
  exact ⟨h, events, h', events', cs, _, _, e, e', g, g', g1, g1', rfl, c2.symm, rfl, c1.symm⟩

section regions

variable {o : Orient} (ok : OrientOk o) {P Q P' Q' : List Contour} (hP : ValidPolygons (regionPolygons P))
  (hQ : ValidPolygons (regionPolygons Q)) (nP : P ≠ []) (nQ : Q ≠ []) (sP : SameRegions P P') (sQ : SameRegions Q Q')

include ok hP hQ nP nQ sP sQ

theorem holelessIntersection_written (tb tb' : TieBreak) :
    holelessIntersection o tb P Q = holelessIntersection o tb' P' Q' := by
  have ha := regionsOperand_ok (regionPolygons_ne nP) hP
  have hb := regionsOperand_ok (regionPolygons_ne nQ) hQ
  have hP' := sP.polygons.valid hP
  have hQ' := sQ.polygons.valid hQ
  obtain ⟨ba, bb, h1, h2⟩ := boxes_ok ha hb
  have oa := polygonsBox_solid ha.valid.valid h1
  have ob := polygonsBox_solid hb.valid.valid h2
  have h1' : contoursBox P = .ok ba := (contoursBox_eq P).trans h1
  have h2' : contoursBox Q = .ok bb := (contoursBox_eq Q).trans h2
  have h3' : contoursBox P' = .ok ba := (contoursBox_eq P').trans ((sP.polygons.box hP.valid).symm.trans h1)
  have h4' : contoursBox Q' = .ok bb := (contoursBox_eq Q').trans ((sQ.polygons.box hQ.valid).symm.trans h2)
  have ta := sP.polygons.toCoupled ok hP.valid ob
  have tq := sQ.polygons.toCoupled ok hQ.valid oa
  rw [← toCoupledRegions_eq, ← toCoupledRegions_eq] at ta tq
  have ia := Matched.isEmpty ta
  have iq := Matched.isEmpty tq
  rw [regionPolygons_isEmpty, regionPolygons_isEmpty] at ia iq
  unfold holelessIntersection
  rw [h1', h2', h3', h4']
  simp only [bind, Except.bind, pure, Except.pure]
  by_cases hd : disjointWith ba bb = true
  · rw [if_pos hd, if_pos hd]
  rw [if_neg hd, if_neg hd, ← ia, ← iq]
  by_cases e1 : (toCoupledRegions o bb P).isEmpty = true
  · rw [if_pos e1, if_pos e1]
  rw [if_neg e1, if_neg e1]
  by_cases e2 : (toCoupledRegions o ba Q).isEmpty = true
  · rw [if_pos e2, if_pos e2]
  rw [if_neg e2, if_neg e2]
  have s1 := toCoupledPolygons_sub o bb (regionPolygons P)
  have s2 := toCoupledPolygons_sub o ba (regionPolygons Q)
  have s1' := toCoupledPolygons_sub o bb (regionPolygons P')
  have s2' := toCoupledPolygons_sub o ba (regionPolygons Q')
  rw [← toCoupledRegions_eq] at s1 s2 s1' s2'
  obtain ⟨h, events, h', events', cs, points, segments, e, e', g, g', -⟩ := holelessSweep_same tb tb' (hP.sublist s1)
    (hQ.sublist s2) (fun h => e1 (by rw [h]; rfl)) (fun h => e2 (by rw [h]; rfl)) (hP'.sublist s1') (hQ'.sublist s2')
    (fun h => e1 (by rw [ia, h]; rfl)) (fun h => e2 (by rw [iq, h]; rfl)) ta tq
  simp only [e, e', g, g']

theorem holelessCompleteIntersection_written (tb tb' : TieBreak) :
    holelessCompleteIntersection o tb P Q = holelessCompleteIntersection o tb' P' Q' := by
  have ha := regionsOperand_ok (regionPolygons_ne nP) hP
  have hb := regionsOperand_ok (regionPolygons_ne nQ) hQ
  have hP' := sP.polygons.valid hP
  have hQ' := sQ.polygons.valid hQ
  obtain ⟨ba, bb, h1, h2⟩ := boxes_ok ha hb
  have oa := (polygonsBox_spec ha.valid.valid h1).2
  have ob := (polygonsBox_spec hb.valid.valid h2).2
  have h1' : contoursBox P = .ok ba := (contoursBox_eq P).trans h1
  have h2' : contoursBox Q = .ok bb := (contoursBox_eq Q).trans h2
  have h3' : contoursBox P' = .ok ba := (contoursBox_eq P').trans ((sP.polygons.box hP.valid).symm.trans h1)
  have h4' : contoursBox Q' = .ok bb := (contoursBox_eq Q').trans ((sQ.polygons.box hQ.valid).symm.trans h2)
  have ta := sP.polygons.toIntersecting ok hP.valid ob
  have tq := sQ.polygons.toIntersecting ok hQ.valid oa
  rw [← toIntersectingRegions_eq ok ob hP.valid, ← toIntersectingRegions_eq ok ob hP'.valid] at ta
  rw [← toIntersectingRegions_eq ok oa hQ.valid, ← toIntersectingRegions_eq ok oa hQ'.valid] at tq
  have ia := Matched.isEmpty ta
  have iq := Matched.isEmpty tq
  rw [regionPolygons_isEmpty, regionPolygons_isEmpty] at ia iq
  unfold holelessCompleteIntersection
  rw [h1', h2', h3', h4']
  simp only [bind, Except.bind, pure, Except.pure]
  by_cases hd : disjointWith ba bb = true
  · rw [if_pos hd, if_pos hd]
  rw [if_neg hd, if_neg hd, ← ia, ← iq]
  by_cases e1 : (toIntersectingRegions o bb P).isEmpty = true
  · rw [if_pos e1, if_pos e1]
  rw [if_neg e1, if_neg e1]
  by_cases e2 : (toIntersectingRegions o ba Q).isEmpty = true
  · rw [if_pos e2, if_pos e2]
  rw [if_neg e2, if_neg e2]
  have sub : ∀ box cs, (regionPolygons (toIntersectingRegions o box cs)).Sublist (regionPolygons cs) := fun _ _ =>
    List.filter_sublist.map _
  obtain ⟨h, events, h', events', cs, points, segments, e, e', -, -, g, g', t, t', c, c'⟩ := holelessSweep_same tb tb'
    (hP.sublist (sub bb P)) (hQ.sublist (sub ba Q)) (fun h => e1 (by rw [h]; rfl)) (fun h => e2 (by rw [h]; rfl))
    (hP'.sublist (sub bb P')) (hQ'.sublist (sub ba Q'))
    (fun h => e1 (by rw [ia, h]; rfl)) (fun h => e2 (by rw [iq, h]; rfl)) ta tq
  simp only [e, e', g, g', t, t', c, c']

end regions

end Clipping

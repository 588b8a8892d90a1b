import Verif.Lemmas.TreeSweep.ShapedExact
import Verif.Lemmas.Shaped.RegionsResult

/-!
# Operations on valid polygons with a tree and with a list
-/

namespace Clipping

open Sweep TreeSweep

theorem holeySweep_tree (B : Balancing) (S : EventSort) {rule : ShapedRule} {op : Bool → Bool → Bool} (hr : RuleOk rule)
    (hop : RuleFor rule op) (tb : TieBreak) {xmax : Option ℚ} {P Q : List Polygon} (hP : ValidPolygons P) (hQ : ValidPolygons Q)
    (hst : StopOk op xmax (P.flatMap polygonEdges) (Q.flatMap polygonEdges))
    (some_event : ∃ s ∈ P.flatMap polygonEdges ++ Q.flatMap polygonEdges, stopAt xmax s.lo = false) :
    ∃ h events ps, holeySweep rule tb xmax P Q = .ok (h, events) ∧
      treeHoleySweep B rule tb xmax P Q = .ok (h, startId h events, events) ∧
      eventsToPolygons h events = .ok ps ∧ eventsToPolygonsChecked S h (startId h events) events = .ok ps ∧
      S.sort h events = sortEvents h events ∧ eventsToPolygons h (sortEvents h events) = .ok ps ∧
      eventsToPolygonsChecked S h (startId h events) (sortEvents h events) = .ok ps := by
  obtain ⟨h, events, e, E⟩ := holeySweep_end hr hop tb hP hQ hst
  obtain ⟨h', events', ps, e', f1, f2, f3, f4, f5⟩ := holeySweep_numbered hr hop tb hP hQ hst some_event
  rw [e] at e'
  cases e'
  refine ⟨h, events, ps, e, ?_, f2, ?_, S.order _ _ (end_distinguished E), f4, ?_⟩
  · unfold holeySweepNumbered at f1
    cases hs : sweepFirst (holeyOps rule) ⟨false, false, .none, false, none⟩ tb (stopAt xmax) (P.flatMap polygonEdges)
      (Q.flatMap polygonEdges) with
    | error x => rw [hs] at f1; cases f1
    | ok x =>
      obtain ⟨s, log⟩ := x
      rw [hs] at f1
      cases f1
      obtain ⟨tree, et⟩ := treeShapedSweepFirst_eq (B := B) (operandsOk_marked hP.isBoundary.noOverlap hQ.isBoundary.noOverlap) hs
      unfold treeHoleySweep
      rw [et]
      dsimp only
      rw [processedEvents_all, List.map_map]
      rfl
  · rw [eventsToPolygonsChecked_eq S _ E.selected, f3]
  · have perm : (sortEvents h events).Perm events := Selected.sort_perm
    rw [eventsToPolygonsChecked_eq S _ (E.selected.of_perm (perm.symm.filter _)), f5]

section holey
variable {o : Orient} {a b : ShapedOperand} (ha : ShapedOk a) (hb : ShapedOk b) (B : Balancing) (S : EventSort) (tb : TieBreak)

include ha hb

theorem treeHoleyIntersection_eq : treeHoleyIntersection o B S tb a b = holeyIntersection o tb a b := by
  obtain ⟨ba, bb, h1, h2⟩ := boxes_ok ha hb
  unfold holeyIntersection treeHoleyIntersection
  rw [h1, h2]
  simp only [bind, Except.bind, pure, Except.pure]
  split_ifs with hd e1 e2
  · rfl
  · rfl
  · rfl
  have v1 := ha.valid.sublist (toCoupledPolygons_sub o bb a.polygons)
  have v2 := hb.valid.sublist (toCoupledPolygons_sub o ba b.polygons)
  obtain ⟨n₁, x₁, g₁⟩ := polygonsMaxX_spec v1.valid (isEmpty_false e1)
  obtain ⟨n₂, x₂, g₂⟩ := polygonsMaxX_spec v2.valid (isEmpty_false e2)
  obtain ⟨h, events, ps, f1, f2, f3, f4, -⟩ := holeySweep_tree B S intersectionRule_ok intersectionRule_for tb v1 v2
    (stopOk_min (v1.edges_x g₁) (v2.edges_x g₂) (by simp) (by simp))
    (exists_event_min v1 v2 (isEmpty_false e1) (isEmpty_false e2) (v1.edges_x g₁) (v2.edges_x g₂))
  simp only [x₁, x₂, f1, f2, f3, f4]

theorem treeHoleyCompleteIntersection_eq : treeHoleyCompleteIntersection o B S tb a b = holeyCompleteIntersection o tb a b := by
  obtain ⟨ba, bb, h1, h2⟩ := boxes_ok ha hb
  unfold holeyCompleteIntersection treeHoleyCompleteIntersection
  rw [h1, h2]
  simp only [bind, Except.bind, pure, Except.pure]
  split_ifs with hd e1 e2
  · rfl
  · rfl
  · rfl
  have v1 := ha.valid.sublist (toIntersectingPolygons_sub o bb a.polygons)
  have v2 := hb.valid.sublist (toIntersectingPolygons_sub o ba b.polygons)
  obtain ⟨n₁, x₁, g₁⟩ := polygonsMaxX_spec v1.valid (isEmpty_false e1)
  obtain ⟨n₂, x₂, g₂⟩ := polygonsMaxX_spec v2.valid (isEmpty_false e2)
  obtain ⟨h, events, ps, f1, f2, -, -, f3, f4, f5⟩ := holeySweep_tree B S intersectionRule_ok intersectionRule_for tb v1 v2
    (stopOk_min (v1.edges_x g₁) (v2.edges_x g₂) (by simp) (by simp))
    (exists_event_min v1 v2 (isEmpty_false e1) (isEmpty_false e2) (v1.edges_x g₁) (v2.edges_x g₂))
  simp only [x₁, x₂, f1, f2, f3, f4, f5]

theorem treeHoleyDifference_eq : treeHoleyDifference o B S tb a b = holeyDifference o tb a b := by
  obtain ⟨ba, bb, h1, h2⟩ := boxes_ok ha hb
  unfold holeyDifference treeHoleyDifference
  rw [h1, h2]
  simp only [bind, Except.bind, pure, Except.pure]
  split_ifs with hd e2
  · rfl
  · rfl
  have v2 := hb.valid.sublist (toCoupledPolygons_sub o ba b.polygons)
  obtain ⟨n₁, x₁, g₁⟩ := polygonsMaxX_spec ha.valid.valid ha.ne
  obtain ⟨h, events, ps, f1, f2, f3, f4, -⟩ := holeySweep_tree B S differenceRule_ok differenceRule_for tb ha.valid v2
    (stopOk_first (ha.valid.edges_x g₁) (by simp)) (exists_event_first ha.valid ha.ne (ha.valid.edges_x g₁))
  simp only [x₁, f1, f2, f3, f4]

theorem treeHoleySymmetricDifference_eq : treeHoleySymmetricDifference B S tb a b = holeySymmetricDifference tb a b := by
  obtain ⟨ba, bb, h1, h2⟩ := boxes_ok ha hb
  unfold holeySymmetricDifference treeHoleySymmetricDifference
  rw [h1, h2]
  simp only [bind, Except.bind, pure, Except.pure]
  split_ifs with hd
  · rfl
  obtain ⟨h, events, ps, f1, f2, f3, f4, -⟩ := holeySweep_tree B S symmetricDifferenceRule_ok symmetricDifferenceRule_for tb
    ha.valid hb.valid (stopOk_none _ _ _) (exists_event ha.valid ha.ne)
  simp only [f1, f2, f3, f4]

theorem treeHoleyUnion_eq : treeHoleyUnion B S tb a b = holeyUnion tb a b := by
  obtain ⟨ba, bb, h1, h2⟩ := boxes_ok ha hb
  unfold holeyUnion treeHoleyUnion
  rw [h1, h2]
  simp only [bind, Except.bind, pure, Except.pure]
  split_ifs with hd
  · rfl
  obtain ⟨h, events, ps, f1, f2, f3, f4, -⟩ := holeySweep_tree B S unionRule_ok unionRule_for tb
    ha.valid hb.valid (stopOk_none _ _ _) (exists_event ha.valid ha.ne)
  simp only [f1, f2, f3, f4]

end holey

/-! ## Regions -/

theorem holelessSweep_tree (B : Balancing) (S : EventSort) (tb : TieBreak) {P Q : List Contour} (hP : ValidPolygons (regionPolygons P))
    (hQ : ValidPolygons (regionPolygons Q)) (nP : P ≠ []) (nQ : Q ≠ []) :
    ∃ h events, holelessSweep tb P Q = .ok (h, events) ∧ treeHolelessSweep B tb P Q = .ok (h, events) ∧
      eventsToRegionsChecked S h events = eventsToRegions h events ∧ S.sort h events = sortEvents h events ∧
      eventsToRegionsChecked S h (sortEvents h events) = eventsToRegions h (sortEvents h events) := by
  obtain ⟨m₁, e₁, h₁⟩ := polygonsMaxX_spec hP.valid (regionPolygons_ne nP)
  obtain ⟨m₂, e₂, h₂⟩ := polygonsMaxX_spec hQ.valid (regionPolygons_ne nQ)
  have bP := hP.isBoundary
  have bQ := hQ.isBoundary
  have hst := stopOk_min (op := fun a b => a && b) (hP.edges_x h₁) (hQ.edges_x h₂) (by simp) (by simp)
  rw [regionPolygons_maxX] at e₁ e₂
  obtain ⟨h, events, e, E⟩ := shapedSweep_end (isShaped_holeless intersectionRule_ok) intersectionRule_for tb
    (some (min m₁ m₂)) bP bQ hst
  have perm : (sortEvents h events).Perm events := Selected.sort_perm
  refine ⟨h, events, ?_, ?_, eventsToRegionsChecked_eq S E.selected, S.order _ _ (end_distinguished E),
    eventsToRegionsChecked_eq S (E.selected.of_perm (perm.symm.filter _))⟩
  · unfold holelessSweep
    rw [e₁, e₂]
    rw [regionPolygons_edges, regionPolygons_edges] at e
    exact e
  · unfold treeHolelessSweep
    rw [e₁, e₂]
    have ok := operandsOk_marked bP.noOverlap bQ.noOverlap
    rw [regionPolygons_edges, regionPolygons_edges] at e ok
    unfold shapedSweep at e
    simp only [bind, Except.bind]
    cases hs : sweep (holelessOps intersectionRule) ⟨false, false, .none, false, none⟩ tb (stopAt (some (min m₁ m₂))) (regionsEdges P)
      (regionsEdges Q) with
    | error x => rw [hs] at e; cases e
    | ok x =>
      obtain ⟨s, log⟩ := x
      rw [hs] at e
      cases e
      obtain ⟨tree, et⟩ := treeShapedSweep_eq (B := B) ok hs
      rw [et]
      dsimp only
      rw [processedEvents_all]

section holeless
variable {o : Orient} {P Q : List Contour} (hP : ValidPolygons (regionPolygons P)) (hQ : ValidPolygons (regionPolygons Q))
  (nP : P ≠ []) (nQ : Q ≠ []) (B : Balancing) (S : EventSort) (tb : TieBreak)

include hP hQ nP nQ

theorem treeHolelessIntersection_eq : treeHolelessIntersection o B S tb P Q = holelessIntersection o tb P Q := by
  have ha := regionsOperand_ok (regionPolygons_ne nP) hP
  have hb := regionsOperand_ok (regionPolygons_ne nQ) hQ
  obtain ⟨ba, bb, h1, h2⟩ := boxes_ok ha hb
  have h1' : contoursBox P = .ok ba := (contoursBox_eq P).trans h1
  have h2' : contoursBox Q = .ok bb := (contoursBox_eq Q).trans h2
  unfold holelessIntersection treeHolelessIntersection
  rw [h1', h2']
  simp only [bind, Except.bind, pure, Except.pure]
  split_ifs with hd e1 e2
  · rfl
  · rfl
  · rfl
  have s1 := toCoupledPolygons_sub o bb (regionPolygons P)
  have s2 := toCoupledPolygons_sub o ba (regionPolygons Q)
  rw [← toCoupledRegions_eq] at s1 s2
  obtain ⟨h, events, f1, f2, f3, -⟩ := holelessSweep_tree B S tb (hP.sublist s1) (hQ.sublist s2)
    (fun h => e1 (by rw [h]; rfl)) (fun h => e2 (by rw [h]; rfl))
  simp only [f1, f2, f3]

theorem treeHolelessCompleteIntersection_eq (ok : OrientOk o) :
    treeHolelessCompleteIntersection o B S tb P Q = holelessCompleteIntersection o tb P Q := by
  have ha := regionsOperand_ok (regionPolygons_ne nP) hP
  have hb := regionsOperand_ok (regionPolygons_ne nQ) hQ
  obtain ⟨ba, bb, h1, h2⟩ := boxes_ok ha hb
  have h1' : contoursBox P = .ok ba := (contoursBox_eq P).trans h1
  have h2' : contoursBox Q = .ok bb := (contoursBox_eq Q).trans h2
  obtain ⟨-, b2⟩ := polygonsBox_spec ha.valid.valid h1
  obtain ⟨-, b4⟩ := polygonsBox_spec hb.valid.valid h2
  unfold holelessCompleteIntersection treeHolelessCompleteIntersection
  rw [h1', h2']
  simp only [bind, Except.bind, pure, Except.pure]
  split_ifs with hd e1 e2
  · rfl
  · rfl
  · rfl
  have s1 := toIntersectingPolygons_sub o bb (regionPolygons P)
  have s2 := toIntersectingPolygons_sub o ba (regionPolygons Q)
  rw [← toIntersectingRegions_eq ok b4 hP.valid] at s1
  rw [← toIntersectingRegions_eq ok b2 hQ.valid] at s2
  obtain ⟨h, events, f1, f2, -, f3, f4⟩ := holelessSweep_tree B S tb (hP.sublist s1) (hQ.sublist s2)
    (fun h => e1 (by rw [h]; rfl)) (fun h => e2 (by rw [h]; rfl))
  simp only [f1, f2, f3, f4]

end holeless

end Clipping

import Verif.Lemmas.Shaped.TwinResult

/-!
# Intersections of regions are the same for swapped operands, whatever the order of simultaneous events
-/

namespace Clipping

open Sweep

/-- What the sweep of regions yields, for swapped operands. -/
theorem holelessSweep_twin (tb tb' : TieBreak) {P Q : List Contour} (hP : ValidPolygons (regionPolygons P))
    (hQ : ValidPolygons (regionPolygons Q)) (nP : P ≠ []) (nQ : Q ≠ []) :
    ∃ h events h' events' cs points segments, holelessSweep tb P Q = .ok (h, events) ∧
      holelessSweep tb' Q P = .ok (h', events') ∧
      eventsToRegions h events = .ok cs ∧ eventsToRegions h' events' = .ok cs ∧
      eventsToRegions h (sortEvents h events) = .ok cs ∧ eventsToRegions h' (sortEvents h' events') = .ok cs ∧
      touchPoints h (groupRuns h.evStart (sortEvents h events)) = points ∧
      touchPoints h' (groupRuns h'.evStart (sortEvents h' events')) = points ∧
      commonEdges h (sortEvents h events) = segments ∧ commonEdges h' (sortEvents h' events') = segments := by
  obtain ⟨h, events, cs, e, g, g1, -, -, -, C⟩ := holelessSweep_complete tb hP hQ nP nQ
  obtain ⟨h', events', cs', e', g', g1', -, -, -, C'⟩ := holelessSweep_complete tb' hQ hP nQ nP
  obtain ⟨m₁, e₁, h₁⟩ := polygonsMaxX_spec hP.valid (regionPolygons_ne nP)
  obtain ⟨m₂, e₂, h₂⟩ := polygonsMaxX_spec hQ.valid (regionPolygons_ne nQ)
  have hst := stopOk_min (op := fun a b => a && b) (hP.edges_x h₁) (hQ.edges_x h₂) (by simp) (by simp)
  have hst' := stopOk_min (op := fun a b => a && b) (hQ.edges_x h₂) (hP.edges_x h₁) (by simp) (by simp)
  have bP := hP.isBoundary
  have bQ := hQ.isBoundary
  rw [regionPolygons_maxX] at e₁ e₂
  obtain ⟨h2, ev2, f, E⟩ := shapedSweep_end (isShaped_holeless intersectionRule_ok) intersectionRule_for tb
    (some (min m₁ m₂)) bP bQ hst
  obtain ⟨h3, ev3, f', E'⟩ := shapedSweep_end (isShaped_holeless intersectionRule_ok) intersectionRule_for tb'
    (some (min m₂ m₁)) bQ bP hst'
  have M := shapedSweep_marked (isShaped_holeless intersectionRule_ok) bP bQ hst f E
  have M' := shapedSweep_marked (isShaped_holeless intersectionRule_ok) bQ bP hst' f' E'
  have u : holelessSweep tb P Q = .ok (h2, ev2) := by
    unfold holelessSweep
    rw [e₁, e₂]
    rw [regionPolygons_edges, regionPolygons_edges] at f
    exact f
  have u' : holelessSweep tb' Q P = .ok (h3, ev3) := by
    unfold holelessSweep
    rw [e₁, e₂]
    rw [regionPolygons_edges, regionPolygons_edges] at f'
    exact f'
  rw [e] at u; cases u
  rw [e'] at u'; cases u'
  have T := E.twin E' bP.noOverlap bQ.noOverlap bQ.noOverlap bP.noOverlap (SameSegments.comm _ _)
    (combined_comm (fun x y => Bool.and_comm x y) _ _)
  have := eventsToRegions_twin T
  rw [g, g'] at this
  cases this
  obtain ⟨c1, c2⟩ := E.common_twin M E' M' bP.noOverlap bQ.noOverlap bQ.noOverlap bP.noOverlap (SameSegments.comm _ _) C C'
    (Set.inter_comm _ _) rfl
  exact ⟨h, events, h', events', cs, _, _, e, e', g, g', g1, g1', rfl, c2.symm, rfl, c1.symm⟩

variable {o : Orient} {P Q : List Contour} (hP : ValidPolygons (regionPolygons P)) (hQ : ValidPolygons (regionPolygons Q))
  (nP : P ≠ []) (nQ : Q ≠ [])

include hP hQ nP nQ

theorem holelessIntersection_comm (tb tb' : TieBreak) :
    holelessIntersection o tb P Q = holelessIntersection o tb' Q P := by
  have ha := regionsOperand_ok (regionPolygons_ne nP) hP
  have hb := regionsOperand_ok (regionPolygons_ne nQ) hQ
  obtain ⟨ba, bb, h1, h2⟩ := boxes_ok ha hb
  have h1' : contoursBox P = .ok ba := (contoursBox_eq P).trans h1
  have h2' : contoursBox Q = .ok bb := (contoursBox_eq Q).trans h2
  unfold holelessIntersection
  rw [h1', h2']
  simp only [bind, Except.bind, pure, Except.pure, boxes_nonempty ha hb h1 h2]
  by_cases hd : disjointWith ba bb = true
  · rw [if_pos hd, if_pos hd]
  rw [if_neg hd, if_neg hd]
  by_cases e1 : (toCoupledRegions o bb P).isEmpty = true
  · simp only [e1, if_true, ite_self]
  by_cases e2 : (toCoupledRegions o ba Q).isEmpty = true
  · simp only [e2, if_true, ite_self]
  simp only [e1, e2, if_false, Bool.false_eq_true]
  have s1 := toCoupledPolygons_sub o bb (regionPolygons P)
  have s2 := toCoupledPolygons_sub o ba (regionPolygons Q)
  rw [← toCoupledRegions_eq] at s1 s2
  obtain ⟨h, events, h', events', cs, points, segments, e, e', g, g', -⟩ := holelessSweep_twin tb tb' (hP.sublist s1)
    (hQ.sublist s2) (fun h => e1 (by rw [h]; rfl)) (fun h => e2 (by rw [h]; rfl))
  simp only [e, e', g, g']

theorem holelessCompleteIntersection_comm (tb tb' : TieBreak) :
    holelessCompleteIntersection o tb P Q = holelessCompleteIntersection o tb' Q P := by
  have ha := regionsOperand_ok (regionPolygons_ne nP) hP
  have hb := regionsOperand_ok (regionPolygons_ne nQ) hQ
  obtain ⟨ba, bb, h1, h2⟩ := boxes_ok ha hb
  have h1' : contoursBox P = .ok ba := (contoursBox_eq P).trans h1
  have h2' : contoursBox Q = .ok bb := (contoursBox_eq Q).trans h2
  unfold holelessCompleteIntersection
  rw [h1', h2']
  simp only [bind, Except.bind, pure, Except.pure, boxes_nonempty ha hb h1 h2]
  by_cases hd : disjointWith ba bb = true
  · rw [if_pos hd, if_pos hd]
  rw [if_neg hd, if_neg hd]
  by_cases e1 : (toIntersectingRegions o bb P).isEmpty = true
  · simp only [e1, if_true, ite_self]
  by_cases e2 : (toIntersectingRegions o ba Q).isEmpty = true
  · simp only [e2, if_true, ite_self]
  simp only [e1, e2, if_false, Bool.false_eq_true]
  have s1 : (regionPolygons (toIntersectingRegions o bb P)).Sublist (regionPolygons P) := List.filter_sublist.map _
  have s2 : (regionPolygons (toIntersectingRegions o ba Q)).Sublist (regionPolygons Q) := List.filter_sublist.map _
  obtain ⟨h, events, h', events', cs, points, segments, e, e', -, -, g, g', t, t', c, c'⟩ := holelessSweep_twin tb tb'
    (hP.sublist s1) (hQ.sublist s2) (fun h => e1 (by rw [h]; rfl)) (fun h => e2 (by rw [h]; rfl))
  simp only [e, e', g, g', t, t', c, c']

end Clipping

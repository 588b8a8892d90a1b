import Verif.Lemmas.Below.Ended
import Verif.Lemmas.Shaped.RegionsResult

/-!
# Sweeps of operands with the same edges yield the same polygons
-/

namespace Clipping

open Sweep

/-- Sweeps of polygons with the same edges and the same combination yield the same polygons. -/
theorem holeySweep_twin {rule rule' : ShapedRule} {op op' : Bool → Bool → Bool} (hr : RuleOk rule) (hop : RuleFor rule op)
    (hr' : RuleOk rule') (hop' : RuleFor rule' op') (tb tb' : TieBreak) {xmax xmax' : Option ℚ} {P Q P' Q' : List Polygon}
    (hP : ValidPolygons P) (hQ : ValidPolygons Q) (hP' : ValidPolygons P') (hQ' : ValidPolygons Q')
    (hst : StopOk op xmax (P.flatMap polygonEdges) (Q.flatMap polygonEdges))
    (hst' : StopOk op' xmax' (P'.flatMap polygonEdges) (Q'.flatMap polygonEdges))
    (hs : SameEdges (P.flatMap Polygon.edges ++ Q.flatMap Polygon.edges)
      (P'.flatMap Polygon.edges ++ Q'.flatMap Polygon.edges))
    (hc : ∀ q, Combined op (P.flatMap Polygon.edges) (Q.flatMap Polygon.edges) q ↔
      Combined op' (P'.flatMap Polygon.edges) (Q'.flatMap Polygon.edges) q) :
    ∃ h events h' events' ps, holeySweep rule tb xmax P Q = .ok (h, events) ∧
      holeySweep rule' tb' xmax' P' Q' = .ok (h', events') ∧ eventsToPolygons h events = .ok ps ∧
      eventsToPolygons h' events' = .ok ps := by
  obtain ⟨h, events, e, E⟩ := holeySweep_end hr hop tb hP hQ hst
  obtain ⟨h', events', e', E'⟩ := holeySweep_end hr' hop' tb' hP' hQ' hst'
  have bok := holey_belowOk hr hP.isBoundary hQ.isBoundary e E
  have bok' := holey_belowOk hr' hP'.isBoundary hQ'.isBoundary e' E'
  have hs' := ((hP.sameEdges.append hQ.sameEdges).trans hs).trans (hP'.sameEdges.append hQ'.sameEdges).symm
  have hc' : ∀ q, Combined op (P.flatMap polygonEdges) (Q.flatMap polygonEdges) q ↔
      Combined op' (P'.flatMap polygonEdges) (Q'.flatMap polygonEdges) q := fun q => by
    rw [Combined.congr hP.sameEdges hQ.sameEdges, hc, ← Combined.congr hP'.sameEdges hQ'.sameEdges]
  have T := E.twin E' hP.isBoundary.noOverlap hQ.isBoundary.noOverlap hP'.isBoundary.noOverlap hQ'.isBoundary.noOverlap
    hs'.sameSegments hc'
  have H := fun i i' hi hi' => holey_below_twin (i := i) (i' := i') hr hP.isBoundary hQ.isBoundary e E hr' hP'.isBoundary
    hQ'.isBoundary e' E' hs' hc' hi hi'
  obtain ⟨ps, e1, -⟩ := eventsToPolygons_outline E.selected bok
  exact ⟨h, events, h', events', ps, e, e', e1, by rw [← e1, eventsToPolygons_twin T bok bok' H]⟩

end Clipping

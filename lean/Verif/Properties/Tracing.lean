import Verif.Lemmas.Shaped.RegionsResult
import Verif.Properties.Shaped

/-!
# C29: linking selected edges into contours

The contours are given by their vertices before collinear ones are dropped: then they have the very edges selected by
the sweep, each one once.
-/

namespace Clipping

open Sweep Darts

/-- The closed paths through `vss` are simple and have all edges `E`, each one once (in one of its two directions). -/
structure Links (vss : List (List Point)) (E : List Segment) : Prop where
  simple : ∀ vs ∈ vss, SimpleContour ⟨vs⟩
  edges : ((vss.flatMap fun vs => (Contour.mk vs).edges).map Segment.norm).Perm (E.map Segment.norm)

theorem Darts.Traced₀.links {h : Heap ShapedData} {events : List Ev} {S : Selected h events} {Rs : List (List ℕ)}
    (T : S.darts.Traced₀ (Finset.range S.darts.n) Rs ∅) : Links (Rs.map fun R => R.map S.darts.key) (leftEdges h events) where
  simple vs hv := by
    obtain ⟨R, hR, rfl⟩ := List.mem_map.1 hv
    obtain ⟨j, hj, rfl⟩ := List.mem_iff_getElem.1 hR
    have := (T.loop hj).simple
    unfold nth at this
    rw [List.getD_eq_getElem _ _ hj] at this
    exact this
  edges := by
    refine SameEdges.trans (B := (List.range Rs.length).flatMap fun j => (nth Rs j).map S.darts.seg) ?_
      (T.sameEdges.trans (SameEdges.of_perm S.edges_perm))
    refine SameEdges.of_perm (List.Perm.of_eq ?_)
    rw [List.flatMap_map]
    conv_lhs => rw [← Selected.RegionsInv.range_nth Rs, List.flatMap_map]
    refine List.flatMap_congr fun j hj => ?_
    exact (T.loop (List.mem_range.1 hj)).edges

variable (tb : TieBreak)

/-- **C29** regions: the tracing ends, and uses every selected edge exactly once. -/
theorem regions_tracing {P Q : List Contour} (hP : ValidPolygons (regionPolygons P)) (hQ : ValidPolygons (regionPolygons Q))
    (nP : P ≠ []) (nQ : Q ≠ []) :
    ∃ h events vss, holelessSweep tb P Q = .ok (h, events) ∧
      eventsToRegions h events = .ok (vss.map fun vs => ⟨shrinkCollinearVertices vs⟩) ∧
      Links vss (leftEdges h (events.filter (fromResult h))) := by
  obtain ⟨xmax, h, events, e, E⟩ := holelessSweep_end tb hP hQ nP nQ
  have E' := E
  rw [← regionPolygons_edges, ← regionPolygons_edges] at E'
  have B := E'.isBoundaryOf.congr hP.sameEdges hQ.sameEdges
  obtain ⟨processed, Rs, e', I⟩ := E.selected.eventsToRegions_ok
    (solid_regions E.selected.darts_start hP hQ (B.perm E.selected.edges_perm.symm))
  refine ⟨h, events, Rs.map fun R => R.map E.selected.darts.key, e, ?_, I.traced₀.links⟩
  rw [e', List.map_map]
  rfl

/-- **C29** polygons: the tracing ends, and uses every selected edge exactly once; every contour is the border or a hole of
exactly one polygon. -/
theorem polygons_tracing {rule : ShapedRule} {op : Bool → Bool → Bool} (hr : RuleOk rule) (hop : RuleFor rule op)
    {xmax : Option ℚ} {P Q : List Polygon} (hP : ValidPolygons P) (hQ : ValidPolygons Q)
    (hst : StopOk op xmax (P.flatMap polygonEdges) (Q.flatMap polygonEdges)) :
    ∃ h events ps cs vss, holeySweep rule tb xmax P Q = .ok (h, events) ∧ eventsToPolygons h events = .ok ps ∧
      (ps.flatMap fun p => p.border :: p.holes).Perm cs ∧
      List.Forall₂ (fun c vs => c.vertices = shrinkCollinearVertices vs ∨
        c.vertices = reverseVertices (shrinkCollinearVertices vs)) cs vss ∧
      Links vss (leftEdges h (events.filter (fromResult h))) := by
  obtain ⟨h, events, e, E⟩ := holeySweep_end hr hop tb hP hQ hst
  have bok := holey_belowOk hr hP.isBoundary hQ.isBoundary e E
  obtain ⟨r, contours, processed, m, Rs, F, ptr, h1, h2, rfl⟩ := E.selected.tracing bok
  have T : E.selected.darts.Traced₀ (Finset.range E.selected.darts.n) Rs ∅ := ⟨E.selected.darts_start, h2.traces⟩
  refine ⟨h, events, assemblePolygons r contours, contours, Rs.map fun R => R.map E.selected.darts.key, e, ?_, ?_, ?_, T.links⟩
  · unfold eventsToPolygons
    dsimp only
    rw [h1]
  · rw [h2.rel.assemble h2.len]
    have eq : contours = (List.range Rs.length).map fun j => contours.getD j ⟨[]⟩ := by
      apply List.ext_getElem
      · simp [h2.len]
      · intro i i1 i2
        rw [List.getElem_map, List.getElem_range, List.getD_eq_getElem _ _ i1]
    conv_rhs => rw [eq]
    refine List.Perm.trans ?_ (h2.rel.perm_range.map fun j => contours.getD j ⟨[]⟩)
    rw [List.flatMap_map, List.map_flatMap]
    exact List.Perm.of_eq rfl
  · rw [List.forall₂_iff_get]
    refine ⟨by simp [h2.len], fun j j1 j2 => ?_⟩
    have j2' : j < Rs.length := by simpa using j2
    have := h2.contour j j2'
    unfold nth at this
    rw [List.getD_eq_getElem _ _ j1, List.getD_eq_getElem _ _ j2'] at this
    simp only [List.get_eq_getElem, List.getElem_map]
    rw [this]
    dsimp only
    split
    · exact Or.inr rfl
    · exact Or.inl rfl

/-! ## Examples -/

/-- The frames of `Properties/Shaped.lean` meet the hypotheses. -/
example : ∃ h events ps cs vss, holeySweep unionRule tb none exFrame exFrame' = .ok (h, events) ∧
    eventsToPolygons h events = .ok ps ∧ (ps.flatMap fun p => p.border :: p.holes).Perm cs ∧
    List.Forall₂ (fun c vs => c.vertices = shrinkCollinearVertices vs ∨
      c.vertices = reverseVertices (shrinkCollinearVertices vs)) cs vss ∧
    Links vss (leftEdges h (events.filter (fromResult h))) :=
  polygons_tracing tb unionRule_ok unionRule_for exFrame_valid exFrame'_valid (stopOk_none _ _ _)

/-- The union of the frames has three contours. -/
example : (match holeySweep unionRule TieBreak.id none exFrame exFrame' with
    | .ok (h, events) => match eventsToPolygons h events with
      | .ok ps => (ps.flatMap fun p => p.border :: p.holes).length
      | .error _ => 0
    | .error _ => 0) = 3 := by decide +kernel

end Clipping

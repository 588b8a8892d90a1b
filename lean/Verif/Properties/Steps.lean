import Verif.Lemmas.Steps
import Verif.Properties.Mixed
import Verif.Properties.Shaped
import Verif.Properties.Size
import Verif.Model.Holeless

/-!
# C72: number of steps

Every sweep over two operands ends by itself.  It takes at most four events from the queue for each pair of segments which meet, and makes at
most two pieces for each: the sweep is output-sensitive, and never takes more steps than four times the square of the number of segments.
-/

namespace Clipping

theorem contourEdges_length (c : Contour) (clockwise : Bool) : (contourEdges c clockwise).length = c.vertices.length := by
  unfold contourEdges
  dsimp only
  generalize (if clockwise = true then Orientation.clockwise else Orientation.counterclockwise) = d
  split <;> simp

theorem polygonEdges_length (ps : List Polygon) : (ps.flatMap polygonEdges).length = vertexCount ps := by
  unfold vertexCount
  induction ps with
  | nil => rfl
  | cons p ps ih =>
    rw [List.flatMap_cons, List.length_append, ih, List.flatMap_cons, List.map_append, List.sum_append]
    congr 1
    rw [polygonEdges, List.length_append, contourEdges_length, List.length_flatMap, List.map_cons, List.sum_cons]
    simp only [contourEdges_length]

/-- **C72** Sweeps of `complete_intersect_multisegments`; the others on multisegments differ in `stop`, see `sweep_steps`. -/
theorem linear_sweep_steps (tb : TieBreak) (xmax : ℚ) {a b : List Segment} (ha : NoOverlap a) (hb : NoOverlap b) :
    ∃ h events, linearSweepAll tb xmax a b = .ok (h, events) ∧ h.count ≤ 2 * contacts (a ++ b) ∧ events.length ≤ 4 * contacts (a ++ b) ∧
      events.length ≤ 4 * (a.length + b.length) ^ 2 := by
  obtain ⟨s, log, e, h1, h2⟩ := sweep_steps_le linearOps () tb (stopAt (some xmax)) ha hb (stopAt_mono _)
  refine ⟨s.store.heap, log.map Prod.fst, by unfold linearSweepAll; rw [e], h1, by rwa [List.length_map], ?_⟩
  rw [List.length_map]
  exact h2.trans (Nat.mul_le_mul_left _ (contacts_le_square a b))

/-- **C72** Sweeps over any two collections of segments, for whatever an operation computes on the way, and whenever it stops. -/
theorem sweep_steps {α : Type} (O : Ops α) (d : α) (tb : TieBreak) (xmax : Option ℚ) {a b : List Segment} (ha : NoOverlap a)
    (hb : NoOverlap b) : ∃ s log, sweep O d tb (stopAt xmax) a b = .ok (s, log) ∧ s.store.heap.count ≤ 2 * contacts (a ++ b) ∧
      log.length ≤ 4 * contacts (a ++ b) ∧ log.length ≤ 4 * (a.length + b.length) ^ 2 := by
  obtain ⟨s, log, e, h1, h2⟩ := sweep_steps_le O d tb (stopAt xmax) ha hb (stopAt_mono _)
  exact ⟨s, log, e, h1, h2, h2.trans (Nat.mul_le_mul_left _ (contacts_le_square a b))⟩

/-- **C72** Sweeps on a segment or multisegment and a polygon or multipolygon. -/
theorem mixed_sweep_steps (sel : Bool → MixedData → Bool) (tb : TieBreak) (xmax : Option ℚ) {a : List Segment} {b : List Polygon}
    (ha : NoOverlap a) (hb : ValidPolygons b) : ∃ h log, mixedSweep sel tb xmax a b = .ok (h, log) ∧
      h.count ≤ 2 * contacts (a ++ b.flatMap polygonEdges) ∧ log.length ≤ 4 * contacts (a ++ b.flatMap polygonEdges) ∧
      log.length ≤ 4 * (a.length + vertexCount b) ^ 2 := by
  obtain ⟨s, log, e, h1, h2, h3⟩ := sweep_steps (mixedOps sel) ⟨false, false, false, false⟩ tb xmax ha hb.isBoundary.noOverlap
  refine ⟨s.store.heap, log, by unfold mixedSweep; rw [e], h1, h2, ?_⟩
  rwa [polygonEdges_length] at h3

/-- **C72** Sweeps on polygons and multipolygons. -/
theorem holey_sweep_steps (rule : ShapedRule) (tb : TieBreak) (xmax : Option ℚ) {a b : List Polygon} (ha : ValidPolygons a)
    (hb : ValidPolygons b) : ∃ h events, holeySweep rule tb xmax a b = .ok (h, events) ∧
      h.count ≤ 2 * contacts (a.flatMap polygonEdges ++ b.flatMap polygonEdges) ∧
      events.length ≤ 4 * contacts (a.flatMap polygonEdges ++ b.flatMap polygonEdges) ∧
      events.length ≤ 4 * (vertexCount a + vertexCount b) ^ 2 := by
  obtain ⟨s, log, e, h1, h2, h3⟩ := sweep_steps (holeyOps rule) ⟨false, false, .none, false, none⟩ tb xmax ha.isBoundary.noOverlap
    hb.isBoundary.noOverlap
  refine ⟨s.store.heap, log.map Prod.fst, by unfold holeySweep shapedSweep; rw [e], h1, by rwa [List.length_map], ?_⟩
  rw [polygonEdges_length, polygonEdges_length] at h3
  rwa [List.length_map]

/-- **C72** Sweeps on regions and multiregions. -/
theorem holeless_sweep_steps (tb : TieBreak) {a b : List Contour} (na : a ≠ []) (va : ValidRegions a) (nb : b ≠ []) (vb : ValidRegions b) :
    ∃ h events, holelessSweep tb a b = .ok (h, events) ∧ h.count ≤ 2 * contacts (regionsEdges a ++ regionsEdges b) ∧
      events.length ≤ 4 * contacts (regionsEdges a ++ regionsEdges b) ∧
      events.length ≤ 4 * ((a.map fun c => c.vertices.length).sum + (b.map fun c => c.vertices.length).sum) ^ 2 := by
  have va := va.polygons
  have vb := vb.polygons
  obtain ⟨m₁, e₁, -⟩ := polygonsMaxX_spec va.valid (by simpa [regionPolygons] using na)
  obtain ⟨m₂, e₂, -⟩ := polygonsMaxX_spec vb.valid (by simpa [regionPolygons] using nb)
  have bP := va.isBoundary.noOverlap
  have bQ := vb.isBoundary.noOverlap
  rw [regionPolygons_edges] at bP bQ
  rw [regionPolygons_maxX] at e₁ e₂
  obtain ⟨s, log, e, h1, h2, h3⟩ := sweep_steps (holelessOps intersectionRule) ⟨false, false, .none, false, none⟩ tb (some (min m₁ m₂)) bP bQ
  refine ⟨s.store.heap, log.map Prod.fst, ?_, h1, by rwa [List.length_map], ?_⟩
  · unfold holelessSweep
    rw [e₁, e₂]
    simp only [bind, Except.bind]
    unfold shapedSweep
    rw [e]
  · have len : ∀ l : List Contour, (regionsEdges l).length = (l.map fun c => c.vertices.length).sum := by
      intro l
      unfold regionsEdges
      rw [List.length_flatMap]
      simp only [contourEdges_length]
    rw [len, len] at h3
    rwa [List.length_map]

/-! ## Examples -/

/-- Two segments which cross: four pieces, eight events; four contacts. -/
example : ∃ h events, linearSweepAll TieBreak.id 2 [⟨⟨0, 0⟩, ⟨2, 2⟩⟩] [⟨⟨0, 2⟩, ⟨2, 0⟩⟩] = .ok (h, events) ∧ h.count = 4 ∧ events.length = 8 := by
  have key : (linearSweepAll TieBreak.id 2 [⟨⟨0, 0⟩, ⟨2, 2⟩⟩] [⟨⟨0, 2⟩, ⟨2, 0⟩⟩]).map (fun r => (r.1.count, r.2.length)) = .ok (4, 8) := by
    decide +kernel
  cases e : linearSweepAll TieBreak.id 2 [⟨⟨0, 0⟩, ⟨2, 2⟩⟩] [⟨⟨0, 2⟩, ⟨2, 0⟩⟩] with
  | error _ => rw [e] at key; cases key
  | ok r =>
    rw [e] at key
    simp only [Except.map, Except.ok.injEq, Prod.mk.injEq] at key
    exact ⟨r.1, r.2, rfl, key⟩

/-- The frames of the examples of `Properties/Shaped.lean` meet the hypotheses. -/
example : ∃ h events, holeySweep unionRule TieBreak.id none exFrame exFrame' = .ok (h, events) ∧
    events.length ≤ 4 * (vertexCount exFrame + vertexCount exFrame') ^ 2 := by
  obtain ⟨h, events, e, -, -, g⟩ := holey_sweep_steps unionRule TieBreak.id none exFrame_valid exFrame'_valid
  exact ⟨h, events, e, g⟩

end Clipping

import Verif.Lemmas.Shaped.Operands
import Verif.Lemmas.Region.Square

/-!
# C28: operations on shaped operands select the boundary of the combination

`P` and `Q` are valid polygons or regions, `tb` is how the priority queue orders events of which neither precedes the
other, `m₁` and `m₂` are where the operands end in the direction of the sweep, and the selected edges are those of
the left events which are marked as a part of the result at the end of the sweep.
-/

namespace Clipping

variable (tb : TieBreak) {P Q : List Polygon} (hP : ValidPolygons P) (hQ : ValidPolygons Q)
include hP hQ

/-- **C28** intersection and complete intersection of polygons -/
theorem intersection_selects {m₁ m₂ : ℚ} (h₁ : polygonsMaxX P = .ok m₁) (h₂ : polygonsMaxX Q = .ok m₂)
    (nP : P ≠ []) (nQ : Q ≠ []) :
    ∃ h events, holeySweep intersectionRule tb (some (min m₁ m₂)) P Q = .ok (h, events) ∧
      IsBoundaryOf (fun a b => a && b) (P.flatMap Polygon.edges) (Q.flatMap Polygon.edges)
        (leftEdges h (events.filter (fromResult h))) := by
  obtain ⟨n₁, e₁, g₁⟩ := polygonsMaxX_spec hP.valid nP
  obtain ⟨n₂, e₂, g₂⟩ := polygonsMaxX_spec hQ.valid nQ
  cases h₁.symm.trans e₁
  cases h₂.symm.trans e₂
  obtain ⟨h, events, e, E⟩ := holeySweep_end intersectionRule_ok intersectionRule_for tb hP hQ
    (stopOk_min (hP.edges_x g₁) (hQ.edges_x g₂) (by simp) (by simp))
  exact ⟨h, events, e, E.isBoundaryOf.congr hP.sameEdges hQ.sameEdges⟩

/-- **C28** difference of polygons -/
theorem difference_selects {m₁ : ℚ} (h₁ : polygonsMaxX P = .ok m₁) (nP : P ≠ []) :
    ∃ h events, holeySweep differenceRule tb (some m₁) P Q = .ok (h, events) ∧
      IsBoundaryOf (fun a b => a && !b) (P.flatMap Polygon.edges) (Q.flatMap Polygon.edges)
        (leftEdges h (events.filter (fromResult h))) := by
  obtain ⟨n₁, e₁, g₁⟩ := polygonsMaxX_spec hP.valid nP
  cases h₁.symm.trans e₁
  obtain ⟨h, events, e, E⟩ := holeySweep_end differenceRule_ok differenceRule_for tb hP hQ
    (stopOk_first (hP.edges_x g₁) (by simp))
  exact ⟨h, events, e, E.isBoundaryOf.congr hP.sameEdges hQ.sameEdges⟩

/-- **C28** symmetric difference of polygons -/
theorem symmetricDifference_selects :
    ∃ h events, holeySweep symmetricDifferenceRule tb none P Q = .ok (h, events) ∧
      IsBoundaryOf xor (P.flatMap Polygon.edges) (Q.flatMap Polygon.edges)
        (leftEdges h (events.filter (fromResult h))) := by
  obtain ⟨h, events, e, E⟩ := holeySweep_end symmetricDifferenceRule_ok symmetricDifferenceRule_for tb hP hQ
    (stopOk_none _ _ _)
  exact ⟨h, events, e, E.isBoundaryOf.congr hP.sameEdges hQ.sameEdges⟩

/-- **C28** union of polygons -/
theorem union_selects :
    ∃ h events, holeySweep unionRule tb none P Q = .ok (h, events) ∧
      IsBoundaryOf (fun a b => a || b) (P.flatMap Polygon.edges) (Q.flatMap Polygon.edges)
        (leftEdges h (events.filter (fromResult h))) := by
  obtain ⟨h, events, e, E⟩ := holeySweep_end unionRule_ok unionRule_for tb hP hQ (stopOk_none _ _ _)
  exact ⟨h, events, e, E.isBoundaryOf.congr hP.sameEdges hQ.sameEdges⟩

omit hP hQ

/-- **C28** intersection and complete intersection of regions -/
theorem regions_intersection_selects {R S : List Contour} (hR : ValidPolygons (regionPolygons R))
    (hS : ValidPolygons (regionPolygons S)) (nR : R ≠ []) (nS : S ≠ []) :
    ∃ h events, holelessSweep tb R S = .ok (h, events) ∧
      IsBoundaryOf (fun a b => a && b) (R.flatMap Contour.edges) (S.flatMap Contour.edges)
        (leftEdges h (events.filter (fromResult h))) := by
  obtain ⟨_, h, events, e, E⟩ := holelessSweep_end tb hR hS nR nS
  have e₁ := hR.sameEdges
  have e₂ := hS.sameEdges
  rw [regionPolygons_edges] at e₁ e₂
  have edges : ∀ R : List Contour, (regionPolygons R).flatMap Polygon.edges = R.flatMap Contour.edges := by
    intro R
    unfold regionPolygons
    rw [List.flatMap_map]
    congr 1
    funext c
    simp [Polygon.edges]
  rw [edges] at e₁ e₂
  exact ⟨h, events, e, E.isBoundaryOf.congr e₁ e₂⟩

/-- a square with a square hole -/
def exFrame : List Polygon := [frame 0 0 4 1 2]

/-- a square with a square hole which crosses the other one -/
def exFrame' : List Polygon := [frame 2 2 4 1 2]

theorem exFrame_valid : ValidPolygons exFrame :=
  ⟨by simpa [exFrame] using frame_valid (by norm_num) (by norm_num) (by norm_num),
    by simpa [exFrame] using (frame_valid (x := 0) (y := 0) (a := 4) (b := 1) (c := 2) (by norm_num) (by norm_num)
      (by norm_num)).noOverlap, by simp [exFrame]⟩

theorem exFrame'_valid : ValidPolygons exFrame' :=
  ⟨by simpa [exFrame'] using frame_valid (by norm_num) (by norm_num) (by norm_num),
    by simpa [exFrame'] using (frame_valid (x := 2) (y := 2) (a := 4) (b := 1) (c := 2) (by norm_num) (by norm_num)
      (by norm_num)).noOverlap, by simp [exFrame']⟩

/-- The hypotheses of the theorems hold for two frames. -/
example : ValidPolygons exFrame ∧ ValidPolygons exFrame' ∧ polygonsMaxX exFrame = .ok 4 ∧
    polygonsMaxX exFrame' = .ok 6 ∧ exFrame ≠ [] ∧ exFrame' ≠ [] :=
  ⟨exFrame_valid, exFrame'_valid, by decide +kernel, by decide +kernel, by simp [exFrame], by simp [exFrame']⟩

/-- The frames meet in two squares of side one, and in nothing else: eight edges are selected. -/
example : (match holeySweep intersectionRule TieBreak.id (some 4) exFrame exFrame' with
    | .ok (h, events) => (leftEdges h (events.filter (fromResult h))).length
    | .error _ => 0) = 8 := by decide +kernel

/-- The hypotheses of the theorem on regions hold for two squares. -/
example : ValidPolygons (regionPolygons [squareContour 0 0 2]) ∧ ValidPolygons (regionPolygons [squareContour 1 1 2]) := by
  have key : ∀ x, ValidPolygons (regionPolygons [squareContour x x 2]) := by
    intro x
    have hs : SimpleContour (squareContour x x 2) := squareContour_simple (by norm_num)
    refine ⟨?_, ?_, by simp [regionPolygons]⟩
    · intro p hp
      simp only [regionPolygons, List.map_cons, List.map_nil, List.mem_singleton] at hp
      subst hp
      exact ⟨hs, by simp, by simpa [Polygon.edges] using hs.noOverlap, by simp, by simp, by simp⟩
    · simpa [regionPolygons, Polygon.edges] using hs.noOverlap
  exact ⟨key 0, key 1⟩

end Clipping

import Verif.Lemmas.Region.Wedge
import Verif.Properties.Complete
import Verif.Properties.Mixed

/-!
# C42, C44: a hole may be attached to the wrong polygon

Counterexamples to the exactness of the operations on two polygons when a vertex touches an edge from the right only
(compare `Properties/PolygonsExact.lean`).  They do not depend on the functions `orient`.

In all of them the hole (2, 0), (8, -2), (8, -1) of the triangle (-8, 10), (12, -10), (12, 10) touches the border in (2, 0),
the result has a polygon on each side of (2, 0), and the hole becomes one of the left polygon instead of the right polygon,
within which it is.
-/

namespace Clipping

/-- The border of the examples. -/
def exBorder : Contour := wedge ⟨-8, 10⟩ 12 (-10) 10

/-- The hole of the examples. -/
def exSliver : Contour := wedge ⟨2, 0⟩ 8 (-2) (-1)

/-- A triangle with a hole which touches the border in (2, 0). -/
def exTouching : Polygon := ⟨exBorder, [exSliver]⟩

/-- A triangle with the leftmost vertex (2, 0). -/
def exWedge : Polygon := ⟨wedge ⟨2, 0⟩ 8 12 18, []⟩

/-- A square with a notch at (2, 0). -/
def exNotch : Polygon :=
  ⟨⟨[⟨-20, -20⟩, ⟨20, -20⟩, ⟨20, 20⟩, ⟨12, 20⟩, ⟨2, 0⟩, ⟨8, 18⟩, ⟨-20, 20⟩]⟩, []⟩

/-- A triangle with two holes the second of which touches the border in (2, 0) and in (10, 10). -/
def exParted : Polygon := ⟨exBorder, [exSliver, wedge ⟨2, 0⟩ 10 8 10]⟩

/-- A triangle across the right edge of the border. -/
def exRight : Polygon := ⟨wedge ⟨11, 5⟩ 14 5 6, []⟩

theorem exBorder_region {q : Point} : q ∈ regionPts exBorder.edges ↔
    -8 ≤ q.x ∧ q.x ≤ 12 ∧ 0 ≤ (12 - -8) * (q.y - 10) - (-10 - 10) * (q.x - -8) ∧ (12 - -8) * (q.y - 10) - (10 - 10) * (q.x - -8) ≤ 0 :=
  wedge_region (a := ⟨-8, 10⟩) (by norm_num) (by norm_num)

theorem exSliver_region {q : Point} : q ∈ regionPts exSliver.edges ↔
    2 ≤ q.x ∧ q.x ≤ 8 ∧ 0 ≤ (8 - 2) * (q.y - 0) - (-2 - 0) * (q.x - 2) ∧ (8 - 2) * (q.y - 0) - (-1 - 0) * (q.x - 2) ≤ 0 :=
  wedge_region (a := ⟨2, 0⟩) (by norm_num) (by norm_num)

theorem exSecond_region {q : Point} : q ∈ regionPts (wedge ⟨2, 0⟩ 10 8 10).edges ↔
    2 ≤ q.x ∧ q.x ≤ 10 ∧ 0 ≤ (10 - 2) * (q.y - 0) - (8 - 0) * (q.x - 2) ∧ (10 - 2) * (q.y - 0) - (10 - 0) * (q.x - 2) ≤ 0 :=
  wedge_region (a := ⟨2, 0⟩) (by norm_num) (by norm_num)

theorem exBorder_segsPts {q : Point} (h : q ∈ segsPts exBorder.edges) :
    q.y = 2 - q.x ∨ q.x = 12 ∨ q.y = 10 := by
  rw [exBorder, wedge_segsPts (a := ⟨-8, 10⟩) (by norm_num) (by norm_num)] at h
  unfold cross at h
  simp only at h
  rcases h with h | h | h
  · left; linarith [h.2.2]
  · right; left; exact h.1
  · right; right; linarith [h.2.2]

theorem exSliver_inside {q : Point} : Inside exSliver.edges q ↔
    2 ≤ q.x ∧ q.x < 8 ∧ 0 < (8 - 2) * (q.y - 0) - (-2 - 0) * (q.x - 2) ∧ (8 - 2) * (q.y - 0) - (-1 - 0) * (q.x - 2) ≤ 0 :=
  wedge_inside (a := ⟨2, 0⟩) (by norm_num) (by norm_num)

theorem exSecond_inside {q : Point} : Inside (wedge ⟨2, 0⟩ 10 8 10).edges q ↔
    2 ≤ q.x ∧ q.x < 10 ∧ 0 < (10 - 2) * (q.y - 0) - (8 - 0) * (q.x - 2) ∧ (10 - 2) * (q.y - 0) - (10 - 0) * (q.x - 2) ≤ 0 :=
  wedge_inside (a := ⟨2, 0⟩) (by norm_num) (by norm_num)

theorem exSliver_simple : SimpleContour exSliver := wedge_simple (by norm_num) (by norm_num)

theorem exSliver_sub : regionPts exSliver.edges ⊆ regionPts exBorder.edges := by
  intro q hq
  rw [exSliver_region] at hq
  rw [exBorder_region]
  refine ⟨?_, ?_, ?_, ?_⟩ <;> linarith [hq.1, hq.2.1, hq.2.2.1, hq.2.2.2]

theorem exSliver_outside {q : Point} (hq : q ∈ segsPts exBorder.edges) : ¬ Inside exSliver.edges q := by
  rw [exSliver_inside]
  rintro ⟨h1, h2, h3, h4⟩
  rcases exBorder_segsPts hq with h | h | h <;> linarith

theorem exSecond_sub : regionPts (wedge ⟨2, 0⟩ 10 8 10).edges ⊆ regionPts exBorder.edges := by
  intro q hq
  rw [exSecond_region] at hq
  rw [exBorder_region]
  refine ⟨?_, ?_, ?_, ?_⟩ <;> linarith [hq.1, hq.2.1, hq.2.2.1, hq.2.2.2]

theorem exSecond_outside {q : Point} (hq : q ∈ segsPts exBorder.edges) : ¬ Inside (wedge ⟨2, 0⟩ 10 8 10).edges q := by
  rw [exSecond_inside]
  rintro ⟨h1, h2, h3, h4⟩
  rcases exBorder_segsPts hq with h | h | h <;> linarith

theorem exTouching_valid : ValidPolygon exTouching where
  border := wedge_simple (by norm_num) (by norm_num)
  holes := by simpa [exTouching] using exSliver_simple
  noOverlap := by refine noOverlap_of_crossing ?_ ?_ ?_ <;> decide +kernel
  inside := by simpa [exTouching] using exSliver_sub
  outside := by
    intro h hh q hq _
    simp only [exTouching, List.mem_singleton] at hh
    subst hh
    exact exSliver_outside hq
  apart := by simp [exTouching]

theorem exParted_valid : ValidPolygon exParted where
  border := wedge_simple (by norm_num) (by norm_num)
  holes := by
    simp only [exParted, List.mem_cons, List.not_mem_nil, or_false, forall_eq_or_imp, forall_eq]
    exact ⟨exSliver_simple, wedge_simple (by norm_num) (by norm_num)⟩
  noOverlap := by refine noOverlap_of_crossing ?_ ?_ ?_ <;> decide +kernel
  inside := by
    simp only [exParted, List.mem_cons, List.not_mem_nil, or_false, forall_eq_or_imp, forall_eq]
    exact ⟨exSliver_sub, exSecond_sub⟩
  outside := by
    simp only [exParted, List.mem_cons, List.not_mem_nil, or_false, forall_eq_or_imp, forall_eq]
    exact ⟨fun q hq _ => exSliver_outside hq, fun q hq _ => exSecond_outside hq⟩
  apart := by
    simp only [exParted, List.pairwise_cons, List.mem_cons, List.not_mem_nil, or_false, forall_eq, IsEmpty.forall_iff, implies_true,
      List.Pairwise.nil, and_true]
    constructor
    · intro q hq _ hi
      rw [exSliver_region] at hq
      rw [exSecond_inside] at hi
      linarith [hq.1, hq.2.1, hq.2.2.1, hq.2.2.2, hi.1, hi.2.1, hi.2.2.1, hi.2.2.2]
    · intro q hq _ hi
      rw [exSecond_region] at hq
      rw [exSliver_inside] at hi
      linarith [hq.1, hq.2.1, hq.2.2.1, hq.2.2.2, hi.1, hi.2.1, hi.2.2.1, hi.2.2.2]

theorem exWedge_valid : ValidPolygon exWedge := (wedge_simple (by norm_num) (by norm_num)).validPolygon

theorem exNotch_valid : ValidPolygon exNotch := (simpleCheck_spec (by decide +kernel)).validPolygon

theorem exRight_valid : ValidPolygon exRight := (wedge_simple (by norm_num) (by norm_num)).validPolygon

/-- The two polygons of the wrong results. -/
def exLeftPart : Polygon := ⟨⟨[⟨-8, 10⟩, ⟨2, 0⟩, ⟨16/3, 10⟩]⟩, [⟨[⟨2, 0⟩, ⟨8, -1⟩, ⟨8, -2⟩]⟩]⟩

/-- compare `exLeftPart` -/
def exRightPart : Polygon := ⟨⟨[⟨2, 0⟩, ⟨12, -10⟩, ⟨12, 10⟩, ⟨7, 10⟩]⟩, []⟩

theorem coupledWithPolygon_vertex {box : Box} {p : Polygon} (h1 : coupledWith (contourBox p.border) box = true)
    (h2 : (p.border.vertices.any fun vertex => coversPoint box vertex) = true) (o : Orient) : coupledWithPolygon o box p = true := by
  simp [coupledWithPolygon, h1, h2]

theorem toCoupledPolygons_single {box : Box} {p : Polygon} (h1 : coupledWith (contourBox p.border) box = true)
    (h2 : (p.border.vertices.any fun vertex => coversPoint box vertex) = true) (o : Orient) :
    toCoupledPolygons o box [p] = toCoupledPolygons noOrient box [p] := by
  simp [toCoupledPolygons, coupledWithPolygon_vertex h1 h2]

theorem toIntersectingPolygons_single {box : Box} {p : Polygon} (h1 : intersectsWith (contourBox p.border) box = true)
    (h2 : (p.border.vertices.any fun vertex => containsPoint box vertex) = true) (o : Orient) :
    toIntersectingPolygons o box [p] = toIntersectingPolygons noOrient box [p] := by
  have : ∀ o, intersectsWithPolygon o box p = true := by intro o; simp [intersectsWithPolygon, h1, h2]
  simp [toIntersectingPolygons, this]

theorem exTouching_box : polygonsBox [exTouching] = .ok ⟨-8, 12, -10, 10⟩ := by decide +kernel

theorem exNotch_box : polygonsBox [exNotch] = .ok ⟨-20, 20, -20, 20⟩ := by decide +kernel

theorem exWedge_box : polygonsBox [exWedge] = .ok ⟨2, 8, 0, 18⟩ := by decide +kernel

theorem intersectPolygons_result (o : Orient) :
    intersectPolygons o TieBreak.id exTouching exNotch = .ok (.multipolygon [exLeftPart, exRightPart]) := by
  have : intersectPolygons o TieBreak.id exTouching exNotch = intersectPolygons noOrient TieBreak.id exTouching exNotch := by
    unfold intersectPolygons holeyIntersection polygonOperand
    simp only [exTouching_box, exNotch_box, bind, Except.bind]
    rw [toCoupledPolygons_single (p := exTouching) (by decide +kernel) (by decide +kernel),
      toCoupledPolygons_single (p := exNotch) (by decide +kernel) (by decide +kernel)]
  rw [this]
  decide +kernel

theorem completeIntersectPolygons_result (o : Orient) :
    completeIntersectPolygons o TieBreak.id exTouching exNotch = .ok (.multipolygon [exLeftPart, exRightPart]) := by
  have : completeIntersectPolygons o TieBreak.id exTouching exNotch =
      completeIntersectPolygons noOrient TieBreak.id exTouching exNotch := by
    unfold completeIntersectPolygons holeyCompleteIntersection polygonOperand
    simp only [exTouching_box, exNotch_box, bind, Except.bind]
    rw [toIntersectingPolygons_single (p := exTouching) (by decide +kernel) (by decide +kernel),
      toIntersectingPolygons_single (p := exNotch) (by decide +kernel) (by decide +kernel)]
  rw [this]
  decide +kernel

theorem subtractPolygons_result (o : Orient) :
    subtractPolygons o TieBreak.id exTouching exWedge = .ok (.multipolygon [exLeftPart, exRightPart]) := by
  have : subtractPolygons o TieBreak.id exTouching exWedge = subtractPolygons noOrient TieBreak.id exTouching exWedge := by
    unfold subtractPolygons holeyDifference polygonOperand
    simp only [exTouching_box, exWedge_box, bind, Except.bind]
    rw [toCoupledPolygons_single (p := exWedge) (by decide +kernel) (by decide +kernel)]
  rw [this]
  decide +kernel

theorem symmetricSubtractPolygons_result : symmetricSubtractPolygons TieBreak.id exTouching exWedge =
    .ok (.multipolygon [exLeftPart, exRightPart, ⟨⟨[⟨16/3, 10⟩, ⟨7, 10⟩, ⟨8, 12⟩, ⟨8, 18⟩]⟩, []⟩]) := by
  decide +kernel

theorem unitePolygons_result : unitePolygons TieBreak.id exParted exRight =
    .ok (.multipolygon [⟨⟨[⟨-8, 10⟩, ⟨2, 0⟩, ⟨10, 10⟩]⟩, [⟨[⟨2, 0⟩, ⟨8, -1⟩, ⟨8, -2⟩]⟩]⟩,
      ⟨⟨[⟨2, 0⟩, ⟨12, -10⟩, ⟨12, 5⟩, ⟨14, 5⟩, ⟨14, 6⟩, ⟨12, 16/3⟩, ⟨12, 10⟩, ⟨10, 10⟩, ⟨10, 8⟩]⟩, []⟩]) := by
  decide +kernel

/-- A point inside of the hole. -/
def exLost : Point := ⟨7, -5/4⟩

/-- a check that a point is on no edge -/
theorem off_of_cross {E : List Segment} {q : Point} (h : ∀ e ∈ E, cross e.start e.stop q ≠ 0) : q ∉ segsPts E := by
  rintro ⟨e, he, t, t0, t1, tx, ty⟩
  apply h e he
  unfold cross; rw [tx, ty]; ring

theorem exLost_touching : exLost ∉ exTouching.pts := by
  rintro (h | h)
  · exact off_of_cross (by decide +kernel) h
  · exact absurd (show Odd _ from h) (by decide +kernel)

theorem exLost_parted : exLost ∉ exParted.pts := by
  rintro (h | h)
  · exact off_of_cross (by decide +kernel) h
  · exact absurd (show Odd _ from h) (by decide +kernel)

theorem exLost_wedge : exLost ∉ exWedge.pts := by
  rintro (h | h)
  · exact off_of_cross (by decide +kernel) h
  · exact absurd (show Odd _ from h) (by decide +kernel)

theorem exLost_right : exLost ∉ exRight.pts := by
  rintro (h | h)
  · exact off_of_cross (by decide +kernel) h
  · exact absurd (show Odd _ from h) (by decide +kernel)

theorem exLost_part : exLost ∈ exRightPart.pts := Or.inr (show Odd _ by decide +kernel)

/-- **C42, negation** `intersect_polygons`: the result may contain points which are in the interior of a hole of an operand, whatever
`orient` is. -/
theorem intersectPolygons_not_exact (o : Orient) : ¬ ∀ (tb : TieBreak) (a b : Polygon) (g : Geometry),
    ValidPolygon a → ValidPolygon b → intersectPolygons o tb a b = .ok g →
    ∀ q, q ∉ segsPts (a.edges ++ b.edges) → (q ∈ polysPts g.polygons ↔ q ∈ a.pts ∧ q ∈ b.pts) := by
  intro h
  have key := h TieBreak.id exTouching exNotch _ exTouching_valid exNotch_valid (intersectPolygons_result o) exLost
    (off_of_cross (by decide +kernel))
  exact exLost_touching (key.1 ⟨_, List.mem_cons_of_mem _ List.mem_cons_self, exLost_part⟩).1

/-- **C42, negation** `subtract_polygons`: the result may contain points which are not in the minuend. -/
theorem subtractPolygons_not_exact (o : Orient) : ¬ ∀ (tb : TieBreak) (a b : Polygon) (g : Geometry),
    ValidPolygon a → ValidPolygon b → subtractPolygons o tb a b = .ok g →
    ∀ q, q ∉ segsPts (a.edges ++ b.edges) → (q ∈ polysPts g.polygons ↔ q ∈ a.pts ∧ q ∉ b.pts) := by
  intro h
  have key := h TieBreak.id exTouching exWedge _ exTouching_valid exWedge_valid (subtractPolygons_result o) exLost
    (off_of_cross (by decide +kernel))
  exact exLost_touching (key.1 ⟨_, List.mem_cons_of_mem _ List.mem_cons_self, exLost_part⟩).1

/-- **C42, negation** `symmetric_subtract_polygons`: the result may contain points which are in neither operand. -/
theorem symmetricSubtractPolygons_not_exact : ¬ ∀ (tb : TieBreak) (a b : Polygon) (g : Geometry),
    ValidPolygon a → ValidPolygon b → symmetricSubtractPolygons tb a b = .ok g →
    ∀ q, q ∉ segsPts (a.edges ++ b.edges) → (q ∈ polysPts g.polygons ↔ ¬ (q ∈ a.pts ↔ q ∈ b.pts)) := by
  intro h
  have key := h TieBreak.id exTouching exWedge _ exTouching_valid exWedge_valid symmetricSubtractPolygons_result exLost
    (off_of_cross (by decide +kernel))
  exact key.1 ⟨_, List.mem_cons_of_mem _ List.mem_cons_self, exLost_part⟩
    ⟨fun h => absurd h exLost_touching, fun h => absurd h exLost_wedge⟩

/-- **C42, negation** `unite_polygons`: the result may contain points which are in neither operand.  (The interior of
`exParted` is not connected.) -/
theorem unitePolygons_not_exact : ¬ ∀ (tb : TieBreak) (a b : Polygon) (g : Geometry),
    ValidPolygon a → ValidPolygon b → unitePolygons tb a b = .ok g →
    ∀ q, q ∉ segsPts (a.edges ++ b.edges) → (q ∈ polysPts g.polygons ↔ q ∈ a.pts ∨ q ∈ b.pts) := by
  intro h
  have key := h TieBreak.id exParted exRight _ exParted_valid exRight_valid unitePolygons_result exLost
    (off_of_cross (by decide +kernel))
  exact (key.1 ⟨_, List.mem_cons_of_mem _ List.mem_cons_self, Or.inr (show Odd _ by decide +kernel)⟩).elim exLost_parted exLost_right

/-- **C44, negation** `complete_intersect_polygons`: the result may contain points which are in the interior of a hole of an operand,
whatever `orient` is. -/
theorem completeIntersectPolygons_not_exact (o : Orient) : ¬ ∀ (tb : TieBreak) (a b : Polygon) (g : Geometry),
    ValidPolygon a → ValidPolygon b → completeIntersectPolygons o tb a b = .ok g → g.pts = a.pts ∩ b.pts := by
  intro h
  have key := h TieBreak.id exTouching exNotch _ exTouching_valid exNotch_valid (completeIntersectPolygons_result o)
  have : exLost ∈ (Geometry.multipolygon [exLeftPart, exRightPart]).pts :=
    ⟨_, List.mem_cons_of_mem _ List.mem_cons_self, exLost_part⟩
  rw [key] at this
  exact exLost_touching this.1

end Clipping

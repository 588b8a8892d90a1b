import Verif.Lemmas.Shaped.Expression
import Verif.Properties.Determinism

/-!
# C55: nested operations obey the laws of Boolean algebra

Any nesting of `intersect_*`, `subtract_*`, `symmetric_subtract_*` and `unite_*` on polygons and multipolygons
(`Expression`, `Spec/Expression.lean`) has the region its Boolean formula says: two nestings with equivalent formulas have the same
region, whatever the operands are, and a nesting whose formula never holds gives `EMPTY`.  The results which are used as operands on the
way have to be valid (see C42 for when they are), since the library promises nothing for others.
-/

namespace Clipping

/-- **C55** Nested operations with equivalent formulas have the same region: the points on the contours of the results and the points
which these contours surround are the same. -/
theorem expression_region {o o' : Orient} (ok : OrientOk o) (ok' : OrientOk o') {tb tb' : TieBreak} {v : ℕ → List Polygon}
    (hv : ∀ i, ValidPolygons (v i)) {x y : Expression} (h : ∀ w : ℕ → Bool, x.holds w = y.holds w) {ps qs : List Polygon}
    (hx : x.Yields o tb v ps) (hy : y.Yields o' tb' v qs) :
    regionPts (ps.flatMap Polygon.edges) = regionPts (qs.flatMap Polygon.edges) := by
  obtain ⟨-, noP, dP, X, prX, hX⟩ := hx.inside ok hv
  obtain ⟨-, noQ, dQ, Y, prY, hY⟩ := hy.inside ok' hv
  refine regionPts_eq_of_inside noP dP noQ dQ (X := X ++ Y) (fun s hs => ?_) fun q hq => ?_
  · rcases List.mem_append.1 hs with g | g
    · exact prX s g
    · exact prY s g
  · rw [segsPts_append, Set.mem_union, not_or] at hq
    rw [hX q hq.1, hY q hq.2, h]

/-- **C55** Nested operations with equivalent formulas have the same points, if their results are valid. -/
theorem expression_points {o o' : Orient} (ok : OrientOk o) (ok' : OrientOk o') {tb tb' : TieBreak} {v : ℕ → List Polygon}
    (hv : ∀ i, ValidPolygons (v i)) {x y : Expression} (h : ∀ w : ℕ → Bool, x.holds w = y.holds w) {ps qs : List Polygon}
    (hx : x.Yields o tb v ps) (hy : y.Yields o' tb' v qs) (vp : ValidPolygons ps) (vq : ValidPolygons qs) :
    polysPts ps = polysPts qs := by
  rw [vp.polysPts_eq, vq.polysPts_eq]
  exact expression_region ok ok' hv h hx hy

/-- **C55** Nested operations whose formula never holds give nothing. -/
theorem expression_empty {o : Orient} (ok : OrientOk o) {tb : TieBreak} {v : ℕ → List Polygon}
    (hv : ∀ i, ValidPolygons (v i)) {x : Expression} (h : ∀ w : ℕ → Bool, x.holds w = false) {ps : List Polygon}
    (hx : x.Yields o tb v ps) : ps = [] := by
  obtain ⟨bd, noP, dP, X, prX, hX⟩ := hx.inside ok hv
  by_contra hne
  obtain ⟨e, he⟩ := exists_polygon_edge bd hne
  obtain ⟨⟨z, -, h2, -, h4⟩, -⟩ := near_both noP dP (q := e.start) ⟨e, he, e.start_mem⟩ prX one_pos
  have := (hX z h2).1 h4
  rw [h] at this
  exact Bool.false_ne_true this

/-- **C55** Nested operations can always be carried out: no call fails as long as the results on the way are valid. -/
theorem expression_step {o : Orient} (ok : OrientOk o) {tb : TieBreak} {v : ℕ → List Polygon} (k : Operation) {x y : Expression}
    {ps qs : List Polygon} (hx : x.Yields o tb v ps) (hy : y.Yields o tb v qs) (vp : ValidPolygons ps) (vq : ValidPolygons qs) :
    ∃ rs, (Expression.apply k x y).Yields o tb v rs := by
  obtain ⟨g, e, -⟩ := Operation.call_outlines ok tb k vp vq
  exact ⟨_, .apply k hx hy vp vq e⟩

/-! ## Some laws -/

section

variable {o : Orient} (ok : OrientOk o) {tb : TieBreak} {a b c : List Polygon} (va : ValidPolygons a) (vb : ValidPolygons b)
  (vc : ValidPolygons c)

/-- three operands -/
def operands (a b c : List Polygon) : ℕ → List Polygon
  | 0 => a
  | 1 => b
  | _ => c

include va vb vc in
theorem operands_valid (i : ℕ) : ValidPolygons (operands a b c i) := by
  match i with
  | 0 => exact va
  | 1 => exact vb
  | _ + 2 => exact vc

include ok va vb vc in
/-- **C55** unions are associative -/
theorem union_assoc_law {g1 g2 g3 g4 : Geometry}
    (hg1 : Operation.union.call o tb a b = .ok g1) (vg1 : ValidPolygons g1.polygons) (hg2 : Operation.union.call o tb g1.polygons c = .ok g2) (hg3 : Operation.union.call o tb b c = .ok g3) (vg3 : ValidPolygons g3.polygons) (hg4 : Operation.union.call o tb a g3.polygons = .ok g4) :
    regionPts (g2.polygons.flatMap Polygon.edges) = regionPts (g4.polygons.flatMap Polygon.edges) :=
  expression_region ok ok (tb := tb) (tb' := tb) (v := operands a b c) (operands_valid va vb vc) (x := (.apply .union (.apply .union (.operand 0) (.operand 1)) (.operand 2))) (y := (.apply .union (.operand 0) (.apply .union (.operand 1) (.operand 2))))
    (fun w => by simp only [Expression.holds, Operation.holds]; generalize w 0 = p; generalize w 1 = q; generalize w 2 = r; revert p q r; decide)
    (.apply .union (.apply .union (.operand 0) (.operand 1) va vb hg1) (.operand 2) vg1 vc hg2) (.apply .union (.operand 0) (.apply .union (.operand 1) (.operand 2) vb vc hg3) va vg3 hg4)

include ok va vb vc in
/-- **C55** intersections are associative -/
theorem intersection_assoc_law {g1 g2 g3 g4 : Geometry}
    (hg1 : Operation.intersection.call o tb a b = .ok g1) (vg1 : ValidPolygons g1.polygons) (hg2 : Operation.intersection.call o tb g1.polygons c = .ok g2) (hg3 : Operation.intersection.call o tb b c = .ok g3) (vg3 : ValidPolygons g3.polygons) (hg4 : Operation.intersection.call o tb a g3.polygons = .ok g4) :
    regionPts (g2.polygons.flatMap Polygon.edges) = regionPts (g4.polygons.flatMap Polygon.edges) :=
  expression_region ok ok (tb := tb) (tb' := tb) (v := operands a b c) (operands_valid va vb vc) (x := (.apply .intersection (.apply .intersection (.operand 0) (.operand 1)) (.operand 2))) (y := (.apply .intersection (.operand 0) (.apply .intersection (.operand 1) (.operand 2))))
    (fun w => by simp only [Expression.holds, Operation.holds]; generalize w 0 = p; generalize w 1 = q; generalize w 2 = r; revert p q r; decide)
    (.apply .intersection (.apply .intersection (.operand 0) (.operand 1) va vb hg1) (.operand 2) vg1 vc hg2) (.apply .intersection (.operand 0) (.apply .intersection (.operand 1) (.operand 2) vb vc hg3) va vg3 hg4)

include ok va vb vc in
/-- **C55** symmetric differences are associative -/
theorem symmetricDifference_assoc_law {g1 g2 g3 g4 : Geometry}
    (hg1 : Operation.symmetricDifference.call o tb a b = .ok g1) (vg1 : ValidPolygons g1.polygons) (hg2 : Operation.symmetricDifference.call o tb g1.polygons c = .ok g2) (hg3 : Operation.symmetricDifference.call o tb b c = .ok g3) (vg3 : ValidPolygons g3.polygons) (hg4 : Operation.symmetricDifference.call o tb a g3.polygons = .ok g4) :
    regionPts (g2.polygons.flatMap Polygon.edges) = regionPts (g4.polygons.flatMap Polygon.edges) :=
  expression_region ok ok (tb := tb) (tb' := tb) (v := operands a b c) (operands_valid va vb vc) (x := (.apply .symmetricDifference (.apply .symmetricDifference (.operand 0) (.operand 1)) (.operand 2))) (y := (.apply .symmetricDifference (.operand 0) (.apply .symmetricDifference (.operand 1) (.operand 2))))
    (fun w => by simp only [Expression.holds, Operation.holds]; generalize w 0 = p; generalize w 1 = q; generalize w 2 = r; revert p q r; decide)
    (.apply .symmetricDifference (.apply .symmetricDifference (.operand 0) (.operand 1) va vb hg1) (.operand 2) vg1 vc hg2) (.apply .symmetricDifference (.operand 0) (.apply .symmetricDifference (.operand 1) (.operand 2) vb vc hg3) va vg3 hg4)

include ok va vb in
/-- **C55** a union with an intersection absorbs it -/
theorem union_absorption_law {g1 g2 : Geometry}
    (hg1 : Operation.intersection.call o tb a b = .ok g1) (vg1 : ValidPolygons g1.polygons) (hg2 : Operation.union.call o tb a g1.polygons = .ok g2) :
    regionPts (g2.polygons.flatMap Polygon.edges) = regionPts (a.flatMap Polygon.edges) :=
  expression_region ok ok (tb := tb) (tb' := tb) (v := operands a b a) (operands_valid va vb va) (x := (.apply .union (.operand 0) (.apply .intersection (.operand 0) (.operand 1)))) (y := (.operand 0))
    (fun w => by simp only [Expression.holds, Operation.holds]; generalize w 0 = p; generalize w 1 = q; generalize w 2 = r; revert p q r; decide)
    (.apply .union (.operand 0) (.apply .intersection (.operand 0) (.operand 1) va vb hg1) va vg1 hg2) (.operand 0)

include ok va vb in
/-- **C55** an intersection with a union absorbs it -/
theorem intersection_absorption_law {g1 g2 : Geometry}
    (hg1 : Operation.union.call o tb a b = .ok g1) (vg1 : ValidPolygons g1.polygons) (hg2 : Operation.intersection.call o tb a g1.polygons = .ok g2) :
    regionPts (g2.polygons.flatMap Polygon.edges) = regionPts (a.flatMap Polygon.edges) :=
  expression_region ok ok (tb := tb) (tb' := tb) (v := operands a b a) (operands_valid va vb va) (x := (.apply .intersection (.operand 0) (.apply .union (.operand 0) (.operand 1)))) (y := (.operand 0))
    (fun w => by simp only [Expression.holds, Operation.holds]; generalize w 0 = p; generalize w 1 = q; generalize w 2 = r; revert p q r; decide)
    (.apply .intersection (.operand 0) (.apply .union (.operand 0) (.operand 1) va vb hg1) va vg1 hg2) (.operand 0)

include ok va vb vc in
/-- **C55** intersections distribute over unions -/
theorem intersection_union_law {g1 g2 g3 g4 g5 : Geometry}
    (hg1 : Operation.union.call o tb b c = .ok g1) (vg1 : ValidPolygons g1.polygons) (hg2 : Operation.intersection.call o tb a g1.polygons = .ok g2) (hg3 : Operation.intersection.call o tb a b = .ok g3) (vg3 : ValidPolygons g3.polygons) (hg4 : Operation.intersection.call o tb a c = .ok g4) (vg4 : ValidPolygons g4.polygons) (hg5 : Operation.union.call o tb g3.polygons g4.polygons = .ok g5) :
    regionPts (g2.polygons.flatMap Polygon.edges) = regionPts (g5.polygons.flatMap Polygon.edges) :=
  expression_region ok ok (tb := tb) (tb' := tb) (v := operands a b c) (operands_valid va vb vc) (x := (.apply .intersection (.operand 0) (.apply .union (.operand 1) (.operand 2)))) (y := (.apply .union (.apply .intersection (.operand 0) (.operand 1)) (.apply .intersection (.operand 0) (.operand 2))))
    (fun w => by simp only [Expression.holds, Operation.holds]; generalize w 0 = p; generalize w 1 = q; generalize w 2 = r; revert p q r; decide)
    (.apply .intersection (.operand 0) (.apply .union (.operand 1) (.operand 2) vb vc hg1) va vg1 hg2) (.apply .union (.apply .intersection (.operand 0) (.operand 1) va vb hg3) (.apply .intersection (.operand 0) (.operand 2) va vc hg4) vg3 vg4 hg5)

include ok va vb vc in
/-- **C55** unions distribute over intersections -/
theorem union_intersection_law {g1 g2 g3 g4 g5 : Geometry}
    (hg1 : Operation.intersection.call o tb b c = .ok g1) (vg1 : ValidPolygons g1.polygons) (hg2 : Operation.union.call o tb a g1.polygons = .ok g2) (hg3 : Operation.union.call o tb a b = .ok g3) (vg3 : ValidPolygons g3.polygons) (hg4 : Operation.union.call o tb a c = .ok g4) (vg4 : ValidPolygons g4.polygons) (hg5 : Operation.intersection.call o tb g3.polygons g4.polygons = .ok g5) :
    regionPts (g2.polygons.flatMap Polygon.edges) = regionPts (g5.polygons.flatMap Polygon.edges) :=
  expression_region ok ok (tb := tb) (tb' := tb) (v := operands a b c) (operands_valid va vb vc) (x := (.apply .union (.operand 0) (.apply .intersection (.operand 1) (.operand 2)))) (y := (.apply .intersection (.apply .union (.operand 0) (.operand 1)) (.apply .union (.operand 0) (.operand 2))))
    (fun w => by simp only [Expression.holds, Operation.holds]; generalize w 0 = p; generalize w 1 = q; generalize w 2 = r; revert p q r; decide)
    (.apply .union (.operand 0) (.apply .intersection (.operand 1) (.operand 2) vb vc hg1) va vg1 hg2) (.apply .intersection (.apply .union (.operand 0) (.operand 1) va vb hg3) (.apply .union (.operand 0) (.operand 2) va vc hg4) vg3 vg4 hg5)

include ok va vb vc in
/-- **C55** intersections distribute over symmetric differences -/
theorem intersection_symmetricDifference_law {g1 g2 g3 g4 g5 : Geometry}
    (hg1 : Operation.symmetricDifference.call o tb b c = .ok g1) (vg1 : ValidPolygons g1.polygons) (hg2 : Operation.intersection.call o tb a g1.polygons = .ok g2) (hg3 : Operation.intersection.call o tb a b = .ok g3) (vg3 : ValidPolygons g3.polygons) (hg4 : Operation.intersection.call o tb a c = .ok g4) (vg4 : ValidPolygons g4.polygons) (hg5 : Operation.symmetricDifference.call o tb g3.polygons g4.polygons = .ok g5) :
    regionPts (g2.polygons.flatMap Polygon.edges) = regionPts (g5.polygons.flatMap Polygon.edges) :=
  expression_region ok ok (tb := tb) (tb' := tb) (v := operands a b c) (operands_valid va vb vc) (x := (.apply .intersection (.operand 0) (.apply .symmetricDifference (.operand 1) (.operand 2)))) (y := (.apply .symmetricDifference (.apply .intersection (.operand 0) (.operand 1)) (.apply .intersection (.operand 0) (.operand 2))))
    (fun w => by simp only [Expression.holds, Operation.holds]; generalize w 0 = p; generalize w 1 = q; generalize w 2 = r; revert p q r; decide)
    (.apply .intersection (.operand 0) (.apply .symmetricDifference (.operand 1) (.operand 2) vb vc hg1) va vg1 hg2) (.apply .symmetricDifference (.apply .intersection (.operand 0) (.operand 1) va vb hg3) (.apply .intersection (.operand 0) (.operand 2) va vc hg4) vg3 vg4 hg5)

include ok va vb vc in
/-- **C55** a union is subtracted by subtracting one part after the other -/
theorem difference_union_law {g1 g2 g3 g4 : Geometry}
    (hg1 : Operation.union.call o tb b c = .ok g1) (vg1 : ValidPolygons g1.polygons) (hg2 : Operation.difference.call o tb a g1.polygons = .ok g2) (hg3 : Operation.difference.call o tb a b = .ok g3) (vg3 : ValidPolygons g3.polygons) (hg4 : Operation.difference.call o tb g3.polygons c = .ok g4) :
    regionPts (g2.polygons.flatMap Polygon.edges) = regionPts (g4.polygons.flatMap Polygon.edges) :=
  expression_region ok ok (tb := tb) (tb' := tb) (v := operands a b c) (operands_valid va vb vc) (x := (.apply .difference (.operand 0) (.apply .union (.operand 1) (.operand 2)))) (y := (.apply .difference (.apply .difference (.operand 0) (.operand 1)) (.operand 2)))
    (fun w => by simp only [Expression.holds, Operation.holds]; generalize w 0 = p; generalize w 1 = q; generalize w 2 = r; revert p q r; decide)
    (.apply .difference (.operand 0) (.apply .union (.operand 1) (.operand 2) vb vc hg1) va vg1 hg2) (.apply .difference (.apply .difference (.operand 0) (.operand 1) va vb hg3) (.operand 2) vg3 vc hg4)

include ok va vb vc in
/-- **C55** subtracting an intersection is the union of the differences -/
theorem difference_intersection_law {g1 g2 g3 g4 g5 : Geometry}
    (hg1 : Operation.intersection.call o tb b c = .ok g1) (vg1 : ValidPolygons g1.polygons) (hg2 : Operation.difference.call o tb a g1.polygons = .ok g2) (hg3 : Operation.difference.call o tb a b = .ok g3) (vg3 : ValidPolygons g3.polygons) (hg4 : Operation.difference.call o tb a c = .ok g4) (vg4 : ValidPolygons g4.polygons) (hg5 : Operation.union.call o tb g3.polygons g4.polygons = .ok g5) :
    regionPts (g2.polygons.flatMap Polygon.edges) = regionPts (g5.polygons.flatMap Polygon.edges) :=
  expression_region ok ok (tb := tb) (tb' := tb) (v := operands a b c) (operands_valid va vb vc) (x := (.apply .difference (.operand 0) (.apply .intersection (.operand 1) (.operand 2)))) (y := (.apply .union (.apply .difference (.operand 0) (.operand 1)) (.apply .difference (.operand 0) (.operand 2))))
    (fun w => by simp only [Expression.holds, Operation.holds]; generalize w 0 = p; generalize w 1 = q; generalize w 2 = r; revert p q r; decide)
    (.apply .difference (.operand 0) (.apply .intersection (.operand 1) (.operand 2) vb vc hg1) va vg1 hg2) (.apply .union (.apply .difference (.operand 0) (.operand 1) va vb hg3) (.apply .difference (.operand 0) (.operand 2) va vc hg4) vg3 vg4 hg5)

include ok va vb vc in
/-- **C55** subtracting a difference is the union of a difference and an intersection -/
theorem difference_difference_law {g1 g2 g3 g4 g5 : Geometry}
    (hg1 : Operation.difference.call o tb b c = .ok g1) (vg1 : ValidPolygons g1.polygons) (hg2 : Operation.difference.call o tb a g1.polygons = .ok g2) (hg3 : Operation.difference.call o tb a b = .ok g3) (vg3 : ValidPolygons g3.polygons) (hg4 : Operation.intersection.call o tb a c = .ok g4) (vg4 : ValidPolygons g4.polygons) (hg5 : Operation.union.call o tb g3.polygons g4.polygons = .ok g5) :
    regionPts (g2.polygons.flatMap Polygon.edges) = regionPts (g5.polygons.flatMap Polygon.edges) :=
  expression_region ok ok (tb := tb) (tb' := tb) (v := operands a b c) (operands_valid va vb vc) (x := (.apply .difference (.operand 0) (.apply .difference (.operand 1) (.operand 2)))) (y := (.apply .union (.apply .difference (.operand 0) (.operand 1)) (.apply .intersection (.operand 0) (.operand 2))))
    (fun w => by simp only [Expression.holds, Operation.holds]; generalize w 0 = p; generalize w 1 = q; generalize w 2 = r; revert p q r; decide)
    (.apply .difference (.operand 0) (.apply .difference (.operand 1) (.operand 2) vb vc hg1) va vg1 hg2) (.apply .union (.apply .difference (.operand 0) (.operand 1) va vb hg3) (.apply .intersection (.operand 0) (.operand 2) va vc hg4) vg3 vg4 hg5)

include ok va vb in
/-- **C55** an intersection is the difference with the difference -/
theorem intersection_difference_law {g1 g2 g3 : Geometry}
    (hg1 : Operation.intersection.call o tb a b = .ok g1) (hg2 : Operation.difference.call o tb a b = .ok g2) (vg2 : ValidPolygons g2.polygons) (hg3 : Operation.difference.call o tb a g2.polygons = .ok g3) :
    regionPts (g1.polygons.flatMap Polygon.edges) = regionPts (g3.polygons.flatMap Polygon.edges) :=
  expression_region ok ok (tb := tb) (tb' := tb) (v := operands a b a) (operands_valid va vb va) (x := (.apply .intersection (.operand 0) (.operand 1))) (y := (.apply .difference (.operand 0) (.apply .difference (.operand 0) (.operand 1))))
    (fun w => by simp only [Expression.holds, Operation.holds]; generalize w 0 = p; generalize w 1 = q; generalize w 2 = r; revert p q r; decide)
    (.apply .intersection (.operand 0) (.operand 1) va vb hg1) (.apply .difference (.operand 0) (.apply .difference (.operand 0) (.operand 1) va vb hg2) va vg2 hg3)

include ok va vb in
/-- **C55** a symmetric difference is the union of the differences -/
theorem symmetricDifference_union_law {g1 g2 g3 g4 : Geometry}
    (hg1 : Operation.symmetricDifference.call o tb a b = .ok g1) (hg2 : Operation.difference.call o tb a b = .ok g2) (vg2 : ValidPolygons g2.polygons) (hg3 : Operation.difference.call o tb b a = .ok g3) (vg3 : ValidPolygons g3.polygons) (hg4 : Operation.union.call o tb g2.polygons g3.polygons = .ok g4) :
    regionPts (g1.polygons.flatMap Polygon.edges) = regionPts (g4.polygons.flatMap Polygon.edges) :=
  expression_region ok ok (tb := tb) (tb' := tb) (v := operands a b a) (operands_valid va vb va) (x := (.apply .symmetricDifference (.operand 0) (.operand 1))) (y := (.apply .union (.apply .difference (.operand 0) (.operand 1)) (.apply .difference (.operand 1) (.operand 0))))
    (fun w => by simp only [Expression.holds, Operation.holds]; generalize w 0 = p; generalize w 1 = q; generalize w 2 = r; revert p q r; decide)
    (.apply .symmetricDifference (.operand 0) (.operand 1) va vb hg1) (.apply .union (.apply .difference (.operand 0) (.operand 1) va vb hg2) (.apply .difference (.operand 1) (.operand 0) vb va hg3) vg2 vg3 hg4)

include ok va vb in
/-- **C55** a symmetric difference is the union without the intersection -/
theorem symmetricDifference_difference_law {g1 g2 g3 g4 : Geometry}
    (hg1 : Operation.symmetricDifference.call o tb a b = .ok g1) (hg2 : Operation.union.call o tb a b = .ok g2) (vg2 : ValidPolygons g2.polygons) (hg3 : Operation.intersection.call o tb a b = .ok g3) (vg3 : ValidPolygons g3.polygons) (hg4 : Operation.difference.call o tb g2.polygons g3.polygons = .ok g4) :
    regionPts (g1.polygons.flatMap Polygon.edges) = regionPts (g4.polygons.flatMap Polygon.edges) :=
  expression_region ok ok (tb := tb) (tb' := tb) (v := operands a b a) (operands_valid va vb va) (x := (.apply .symmetricDifference (.operand 0) (.operand 1))) (y := (.apply .difference (.apply .union (.operand 0) (.operand 1)) (.apply .intersection (.operand 0) (.operand 1))))
    (fun w => by simp only [Expression.holds, Operation.holds]; generalize w 0 = p; generalize w 1 = q; generalize w 2 = r; revert p q r; decide)
    (.apply .symmetricDifference (.operand 0) (.operand 1) va vb hg1) (.apply .difference (.apply .union (.operand 0) (.operand 1) va vb hg2) (.apply .intersection (.operand 0) (.operand 1) va vb hg3) vg2 vg3 hg4)

include ok va vb in
/-- **C55** a symmetric difference is undone by doing it again -/
theorem symmetricDifference_cancel_law {g1 g2 : Geometry}
    (hg1 : Operation.symmetricDifference.call o tb a b = .ok g1) (vg1 : ValidPolygons g1.polygons) (hg2 : Operation.symmetricDifference.call o tb g1.polygons b = .ok g2) :
    regionPts (g2.polygons.flatMap Polygon.edges) = regionPts (a.flatMap Polygon.edges) :=
  expression_region ok ok (tb := tb) (tb' := tb) (v := operands a b a) (operands_valid va vb va) (x := (.apply .symmetricDifference (.apply .symmetricDifference (.operand 0) (.operand 1)) (.operand 1))) (y := (.operand 0))
    (fun w => by simp only [Expression.holds, Operation.holds]; generalize w 0 = p; generalize w 1 = q; generalize w 2 = r; revert p q r; decide)
    (.apply .symmetricDifference (.apply .symmetricDifference (.operand 0) (.operand 1) va vb hg1) (.operand 1) vg1 vb hg2) (.operand 0)

include ok va in
/-- **C55** the union of an operand with itself is the operand -/
theorem union_self_law {g1 : Geometry}
    (hg1 : Operation.union.call o tb a a = .ok g1) :
    regionPts (g1.polygons.flatMap Polygon.edges) = regionPts (a.flatMap Polygon.edges) :=
  expression_region ok ok (tb := tb) (tb' := tb) (v := operands a a a) (operands_valid va va va) (x := (.apply .union (.operand 0) (.operand 0))) (y := (.operand 0))
    (fun w => by simp only [Expression.holds, Operation.holds]; generalize w 0 = p; generalize w 1 = q; generalize w 2 = r; revert p q r; decide)
    (.apply .union (.operand 0) (.operand 0) va va hg1) (.operand 0)

include ok va in
/-- **C55** the intersection of an operand with itself is the operand -/
theorem intersection_self_law {g1 : Geometry}
    (hg1 : Operation.intersection.call o tb a a = .ok g1) :
    regionPts (g1.polygons.flatMap Polygon.edges) = regionPts (a.flatMap Polygon.edges) :=
  expression_region ok ok (tb := tb) (tb' := tb) (v := operands a a a) (operands_valid va va va) (x := (.apply .intersection (.operand 0) (.operand 0))) (y := (.operand 0))
    (fun w => by simp only [Expression.holds, Operation.holds]; generalize w 0 = p; generalize w 1 = q; generalize w 2 = r; revert p q r; decide)
    (.apply .intersection (.operand 0) (.operand 0) va va hg1) (.operand 0)

include ok va vb in
/-- **C55** the difference and the intersection make up the operand -/
theorem partition_law {g1 g2 g3 : Geometry}
    (hg1 : Operation.difference.call o tb a b = .ok g1) (vg1 : ValidPolygons g1.polygons) (hg2 : Operation.intersection.call o tb a b = .ok g2) (vg2 : ValidPolygons g2.polygons) (hg3 : Operation.union.call o tb g1.polygons g2.polygons = .ok g3) :
    regionPts (g3.polygons.flatMap Polygon.edges) = regionPts (a.flatMap Polygon.edges) :=
  expression_region ok ok (tb := tb) (tb' := tb) (v := operands a b a) (operands_valid va vb va) (x := (.apply .union (.apply .difference (.operand 0) (.operand 1)) (.apply .intersection (.operand 0) (.operand 1)))) (y := (.operand 0))
    (fun w => by simp only [Expression.holds, Operation.holds]; generalize w 0 = p; generalize w 1 = q; generalize w 2 = r; revert p q r; decide)
    (.apply .union (.apply .difference (.operand 0) (.operand 1) va vb hg1) (.apply .intersection (.operand 0) (.operand 1) va vb hg2) vg1 vg2 hg3) (.operand 0)

include ok va vb in
/-- **C55** What is subtracted is gone: it does not meet the difference. -/
theorem difference_intersection_empty {g1 g2 : Geometry}
    (hg1 : Operation.difference.call o tb a b = .ok g1) (vg1 : ValidPolygons g1.polygons)
    (hg2 : Operation.intersection.call o tb g1.polygons b = .ok g2) : g2.polygons = [] :=
  expression_empty ok (v := operands a b a) (operands_valid va vb va)
    (x := .apply .intersection (.apply .difference (.operand 0) (.operand 1)) (.operand 1))
    (fun w => by simp only [Expression.holds, Operation.holds]; generalize w 0 = p; generalize w 1 = q; revert p q; decide)
    (.apply .intersection (.apply .difference (.operand 0) (.operand 1) va vb hg1) (.operand 1) vg1 vb hg2)

include ok va in
/-- **C55** The difference and the symmetric difference of an operand with itself are empty. -/
theorem difference_self_empty {g1 g2 : Geometry} (hg1 : Operation.difference.call o tb a a = .ok g1)
    (hg2 : Operation.symmetricDifference.call o tb a a = .ok g2) : g1.polygons = [] ∧ g2.polygons = [] := by
  constructor
  · exact expression_empty ok (v := operands a a a) (operands_valid va va va) (x := .apply .difference (.operand 0) (.operand 0))
      (fun w => by simp [Expression.holds, Operation.holds]) (.apply .difference (.operand 0) (.operand 0) va va hg1)
  · exact expression_empty ok (v := operands a a a) (operands_valid va va va) (x := .apply .symmetricDifference (.operand 0) (.operand 0))
      (fun w => by simp [Expression.holds, Operation.holds]) (.apply .symmetricDifference (.operand 0) (.operand 0) va va hg2)

end

/-! ## Examples -/

theorem exSquare_valid : ValidPolygons exSquare :=
  (squareContour_simple (x := 0) (y := 0) (a := 2) (by norm_num)).validPolygon.validPolygons

theorem exSquare'_valid : ValidPolygons exSquare' :=
  (squareContour_simple (x := 1) (y := 1) (a := 2) (by norm_num)).validPolygon.validPolygons

theorem exSquare_union : Operation.union.call (Classical.choose exists_orient) TieBreak.id exSquare exSquare' =
    .ok (.polygon ⟨⟨[⟨0, 0⟩, ⟨2, 0⟩, ⟨2, 1⟩, ⟨3, 1⟩, ⟨3, 3⟩, ⟨1, 3⟩, ⟨1, 2⟩, ⟨0, 2⟩]⟩, []⟩) := by
  change unitePolygons TieBreak.id ⟨squareContour 0 0 2, []⟩ ⟨squareContour 1 1 2, []⟩ = _
  decide +kernel

theorem exSquare_union_valid : ValidPolygons [⟨⟨[⟨0, 0⟩, ⟨2, 0⟩, ⟨2, 1⟩, ⟨3, 1⟩, ⟨3, 3⟩, ⟨1, 3⟩, ⟨1, 2⟩, ⟨0, 2⟩]⟩, []⟩] :=
  (simpleCheck_spec (c := ⟨[⟨0, 0⟩, ⟨2, 0⟩, ⟨2, 1⟩, ⟨3, 1⟩, ⟨3, 3⟩, ⟨1, 3⟩, ⟨1, 2⟩, ⟨0, 2⟩]⟩) (by decide +kernel)).validPolygon.validPolygons

/-- Two crossing squares meet the hypotheses: their union is valid, and the first square is what it has in common with the union. -/
example : ∃ g, Operation.intersection.call (Classical.choose exists_orient) TieBreak.id exSquare
    [⟨⟨[⟨0, 0⟩, ⟨2, 0⟩, ⟨2, 1⟩, ⟨3, 1⟩, ⟨3, 3⟩, ⟨1, 3⟩, ⟨1, 2⟩, ⟨0, 2⟩]⟩, []⟩] = .ok g ∧
    regionPts (g.polygons.flatMap Polygon.edges) = regionPts (exSquare.flatMap Polygon.edges) := by
  obtain ⟨g, e, -⟩ := Operation.call_outlines (Classical.choose_spec exists_orient) TieBreak.id .intersection exSquare_valid
    exSquare_union_valid
  exact ⟨g, e, intersection_absorption_law (Classical.choose_spec exists_orient) exSquare_valid exSquare'_valid exSquare_union
    exSquare_union_valid e⟩

/-- The laws say something: the formulas of a union and of an intersection are not equivalent. -/
example : ¬ ∀ w : ℕ → Bool, (Expression.apply .union (.operand 0) (.operand 1)).holds w =
    (Expression.apply .intersection (.operand 0) (.operand 1)).holds w := by
  intro h
  have := h (fun i => i == 0)
  simp [Expression.holds, Operation.holds] at this

end Clipping

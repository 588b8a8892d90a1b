import Verif.Lemmas.Shaped.Standard
import Verif.Properties.Laws
import Verif.Properties.Oriented

/-!
# C56: what is returned is determined by its points

Valid polygons the contours of which do not touch each other can be written without superfluous vertices in one way only, up to the
vertex a contour starts with, its direction and the order of holes and polygons.  The results of operations are written in normal form
(C48) with counterclockwise borders and clockwise holes (C41); so results with the same points are equal, vertex by vertex.  If contours
touch each other, then there may be several ways to put the same boundary together: a hole may touch the border of a polygon in two points,
and the same points are those of two polygons which touch each other there.
-/

namespace Clipping

/-- **C56** Polygons with the same points are the same up to the way they are written.  That the contours do not touch is needed for one
of the operands only. -/
theorem polygons_unique {ps qs : List Polygon} (H : Separate ps) (v : ValidPolygons qs) (co : ∀ c ∈ contoursOf qs, c.Cornered)
    (h : polysPts ps = polysPts qs) : Detached qs ∧ SamePolygons ps qs :=
  ⟨(H.of_points v co h).detached, H.same (H.of_points v co h) h⟩

/-- **C56** Polygons with the same points are equal, if they are in normal form. -/
theorem polygons_equal {ps qs : List Polygon} (vp : ValidPolygons ps) (dp : Detached ps) (sp : Standard ps) (vq : ValidPolygons qs)
    (sq : Standard qs) (h : polysPts ps = polysPts qs) : ps = qs :=
  have H : Separate ps := ⟨vp, dp, sp.normal.cornered⟩
  H.eq_of_normal (H.of_points vq sq.normal.cornered h) h sp.normal sq.normal sp.oriented sq.oriented

/-- **C56** Results are equal, if they have the same points: whatever the two operations and the operands are, valid results with the
same points are the same polygons in the same order with the same vertices. -/
theorem results_equal {o o' : Orient} (ok : OrientOk o) (ok' : OrientOk o') {tb tb' : TieBreak} {k k' : Operation} {a b c d : List Polygon}
    (va : ValidPolygons a) (vb : ValidPolygons b) (vc : ValidPolygons c) (vd : ValidPolygons d) (sa : Standard a) (sb : Standard b)
    (sc : Standard c) (sd : Standard d) {g g' : Geometry} (e : k.call o tb a b = .ok g) (e' : k'.call o' tb' c d = .ok g')
    (vg : ValidPolygons g.polygons) (vg' : ValidPolygons g'.polygons) (dg : Detached g.polygons)
    (h : polysPts g.polygons = polysPts g'.polygons) : g.polygons = g'.polygons :=
  polygons_equal vg dg (Operation.call_standard ok tb k va vb sa sb e) vg' (Operation.call_standard ok' tb' k' vc vd sc sd e') h

/-- **C56** Nested operations with equivalent formulas give equal results, if the contours of one of the results do not touch each
other. -/
theorem expression_equal {o o' : Orient} (ok : OrientOk o) (ok' : OrientOk o') {tb tb' : TieBreak} {v : ℕ → List Polygon}
    (hv : ∀ i, ValidPolygons (v i)) (sv : ∀ i, Standard (v i)) {x y : Expression} (h : ∀ w : ℕ → Bool, x.holds w = y.holds w)
    {ps qs : List Polygon} (hx : x.Yields o tb v ps) (hy : y.Yields o' tb' v qs) (vp : ValidPolygons ps) (vq : ValidPolygons qs)
    (dp : Detached ps) : ps = qs :=
  polygons_equal vp dp (hx.standard ok sv) vq (hy.standard ok' sv) (expression_points ok ok' hv h hx hy vp vq)

section

variable {o : Orient} (ok : OrientOk o) {tb : TieBreak} {a b c : List Polygon} (va : ValidPolygons a) (vb : ValidPolygons b)
  (sa : Standard a) (sb : Standard b) (da : Detached a) (db : Detached b)

include sa sb in
theorem operands_standard (sc : Standard c) (i : ℕ) : Standard (operands a b c i) := by
  match i with
  | 0 => exact sa
  | 1 => exact sb
  | _ + 2 => exact sc

include ok va sa da in
/-- **C56** The union and the intersection of an operand with itself are this operand, vertex by vertex. -/
theorem self_equal : (∃ g, Operation.union.call o tb a a = .ok g ∧ g.polygons = a) ∧
    ∃ g, Operation.intersection.call o tb a a = .ok g ∧ g.polygons = a := by
  obtain ⟨g, e, -⟩ := Operation.call_outlines ok tb .union va va
  obtain ⟨g', e', -⟩ := Operation.call_outlines ok tb .intersection va va
  refine ⟨⟨g, e, ?_⟩, g', e', ?_⟩
  · exact (expression_equal ok ok (tb := tb) (v := operands a a a) (operands_valid va va va) (operands_standard sa sa sa) (x := .operand 0)
      (y := .apply .union (.operand 0) (.operand 0)) (fun w => by simp [Expression.holds, Operation.holds]) (.operand 0)
      (.apply .union (.operand 0) (.operand 0) va va e) va (Operation.call_valid ok tb .union va va da da e) da).symm
  · exact (expression_equal ok ok (tb := tb) (v := operands a a a) (operands_valid va va va) (operands_standard sa sa sa) (x := .operand 0)
      (y := .apply .intersection (.operand 0) (.operand 0)) (fun w => by simp [Expression.holds, Operation.holds]) (.operand 0)
      (.apply .intersection (.operand 0) (.operand 0) va va e') va (Operation.call_valid ok tb .intersection va va da da e') da).symm

include ok va vb sa sb da in
/-- **C56** The union of an operand with what it has in common with another one is this operand, vertex by vertex. -/
theorem union_absorption_equal {g1 g2 : Geometry} (hg1 : Operation.intersection.call o tb a b = .ok g1) (vg1 : ValidPolygons g1.polygons)
    (hg2 : Operation.union.call o tb a g1.polygons = .ok g2) (vg2 : ValidPolygons g2.polygons) : g2.polygons = a :=
  (expression_equal ok ok (tb := tb) (tb' := tb) (v := operands a b a) (operands_valid va vb va) (operands_standard sa sb sa)
    (x := .operand 0) (y := .apply .union (.operand 0) (.apply .intersection (.operand 0) (.operand 1)))
    (fun w => by simp only [Expression.holds, Operation.holds]; generalize w 0 = p; generalize w 1 = q; revert p q; decide)
    (.operand 0) (.apply .union (.operand 0) (.apply .intersection (.operand 0) (.operand 1) va vb hg1) va vg1 hg2) va vg2 da).symm

include ok va vb sa sb da in
/-- **C56** The intersection of an operand with its union with another one is this operand, vertex by vertex. -/
theorem intersection_absorption_equal {g1 g2 : Geometry} (hg1 : Operation.union.call o tb a b = .ok g1) (vg1 : ValidPolygons g1.polygons)
    (hg2 : Operation.intersection.call o tb a g1.polygons = .ok g2) (vg2 : ValidPolygons g2.polygons) : g2.polygons = a :=
  (expression_equal ok ok (tb := tb) (tb' := tb) (v := operands a b a) (operands_valid va vb va) (operands_standard sa sb sa)
    (x := .operand 0) (y := .apply .intersection (.operand 0) (.apply .union (.operand 0) (.operand 1)))
    (fun w => by simp only [Expression.holds, Operation.holds]; generalize w 0 = p; generalize w 1 = q; revert p q; decide)
    (.operand 0) (.apply .intersection (.operand 0) (.apply .union (.operand 0) (.operand 1) va vb hg1) va vg1 hg2) va vg2 da).symm

include ok va vb sa sb da in
/-- **C56** What is cut into the part outside of and the part inside of another operand is put together again by a union, vertex by
vertex. -/
theorem difference_union_intersection_equal {g1 g2 g3 : Geometry} (hg1 : Operation.difference.call o tb a b = .ok g1)
    (vg1 : ValidPolygons g1.polygons) (hg2 : Operation.intersection.call o tb a b = .ok g2) (vg2 : ValidPolygons g2.polygons)
    (hg3 : Operation.union.call o tb g1.polygons g2.polygons = .ok g3) (vg3 : ValidPolygons g3.polygons) : g3.polygons = a :=
  (expression_equal ok ok (tb := tb) (tb' := tb) (v := operands a b a) (operands_valid va vb va) (operands_standard sa sb sa)
    (x := .operand 0) (y := .apply .union (.apply .difference (.operand 0) (.operand 1)) (.apply .intersection (.operand 0) (.operand 1)))
    (fun w => by simp only [Expression.holds, Operation.holds]; generalize w 0 = p; generalize w 1 = q; revert p q; decide)
    (.operand 0) (.apply .union (.apply .difference (.operand 0) (.operand 1) va vb hg1)
      (.apply .intersection (.operand 0) (.operand 1) va vb hg2) vg1 vg2 hg3) va vg3 da).symm

include ok va vb sa sb da in
/-- **C56** Adding and removing by symmetric differences gives the operand back, vertex by vertex. -/
theorem symmetricDifference_twice_equal {g1 g2 : Geometry} (hg1 : Operation.symmetricDifference.call o tb a b = .ok g1)
    (vg1 : ValidPolygons g1.polygons) (hg2 : Operation.symmetricDifference.call o tb g1.polygons b = .ok g2)
    (vg2 : ValidPolygons g2.polygons) : g2.polygons = a :=
  (expression_equal ok ok (tb := tb) (tb' := tb) (v := operands a b a) (operands_valid va vb va) (operands_standard sa sb sa)
    (x := .operand 0) (y := .apply .symmetricDifference (.apply .symmetricDifference (.operand 0) (.operand 1)) (.operand 1))
    (fun w => by simp only [Expression.holds, Operation.holds]; generalize w 0 = p; generalize w 1 = q; revert p q; decide)
    (.operand 0) (.apply .symmetricDifference (.apply .symmetricDifference (.operand 0) (.operand 1) va vb hg1) (.operand 1) vg1 vb hg2)
    va vg2 da).symm

include ok va vb sa sb da db in
/-- **C56** The difference of the union and the intersection is the symmetric difference, vertex by vertex. -/
theorem union_difference_intersection_equal {g1 g2 g3 g4 : Geometry} (hg1 : Operation.union.call o tb a b = .ok g1)
    (hg2 : Operation.intersection.call o tb a b = .ok g2)
    (hg3 : Operation.difference.call o tb g1.polygons g2.polygons = .ok g3) (vg3 : ValidPolygons g3.polygons)
    (hg4 : Operation.symmetricDifference.call o tb a b = .ok g4) (dg : Detached g4.polygons) : g3.polygons = g4.polygons :=
  (expression_equal ok ok (tb := tb) (tb' := tb) (v := operands a b a) (operands_valid va vb va) (operands_standard sa sb sa)
    (x := .apply .symmetricDifference (.operand 0) (.operand 1))
    (y := .apply .difference (.apply .union (.operand 0) (.operand 1)) (.apply .intersection (.operand 0) (.operand 1)))
    (fun w => by simp only [Expression.holds, Operation.holds]; generalize w 0 = p; generalize w 1 = q; revert p q; decide)
    (.apply .symmetricDifference (.operand 0) (.operand 1) va vb hg4)
    (.apply .difference (.apply .union (.operand 0) (.operand 1) va vb hg1) (.apply .intersection (.operand 0) (.operand 1) va vb hg2)
      (Operation.call_valid ok tb .union va vb da db hg1) (Operation.call_valid ok tb .intersection va vb da db hg2) hg3)
    (Operation.call_valid ok tb .symmetricDifference va vb da db hg4) vg3 dg).symm

end

/-! ## Examples -/

theorem cornered_of_all {c : Contour} (h : ∀ l ∈ c.vertices.cyclicPermutations, ∀ u v w rest, l = u :: v :: w :: rest → cross u v w ≠ 0) :
    c.Cornered :=
  fun u v w rest hr => h _ (List.mem_cyclicPermutations_iff.2 hr.symm) u v w rest rfl

/-- a square with a square hole, written in normal form -/
def exStandard : List Polygon := [⟨⟨[⟨0, 0⟩, ⟨4, 0⟩, ⟨4, 4⟩, ⟨0, 4⟩]⟩, [⟨[⟨1, 1⟩, ⟨1, 3⟩, ⟨3, 3⟩, ⟨3, 1⟩]⟩]⟩]

theorem exStandard_same : SamePolygons [frame 0 0 4 1 2] exStandard := by
  refine ⟨exStandard, List.Forall₂.cons ⟨?_, ⟨_, List.Forall₂.cons ?_ .nil, .refl _⟩⟩ .nil, .refl _⟩
  · refine Or.inl ?_
    simp [frame, squareContour, List.IsRotated.refl]
  · refine Or.inr ⟨3, ?_⟩
    simp [squareContour]
    norm_num

theorem exStandard_valid : ValidPolygons exStandard :=
  exStandard_same.valid (frame_valid (by norm_num) (by norm_num) (by norm_num)).validPolygons

theorem exStandard_detached : Detached exStandard := by
  have := exFrame_detached
  unfold Detached at this ⊢
  simp only [frame, exStandard, List.flatMap_cons, List.flatMap_nil, List.append_nil, List.pairwise_cons, List.mem_singleton, forall_eq,
    List.not_mem_nil, IsEmpty.forall_iff, implies_true, List.Pairwise.nil, and_true] at this ⊢
  have s1 : SameContour (squareContour 0 0 4) ⟨[⟨0, 0⟩, ⟨4, 0⟩, ⟨4, 4⟩, ⟨0, 4⟩]⟩ := by
    refine Or.inl ?_
    simp [squareContour, List.IsRotated.refl]
  have s2 : SameContour (squareContour (0 + 1) (0 + 1) 2) ⟨[⟨1, 1⟩, ⟨1, 3⟩, ⟨3, 3⟩, ⟨3, 1⟩]⟩ := by
    refine Or.inr ⟨3, ?_⟩
    simp [squareContour]
    norm_num
  rwa [← s1.sameEdges.segsPts_eq, ← s2.sameEdges.segsPts_eq]

theorem exStandard_standard : Standard exStandard := by
  have V := exStandard_valid.valid _ (List.mem_singleton_self _)
  have corner : ∀ c ∈ contoursOf exStandard, c.Cornered := by
    intro c hc
    refine cornered_of_all ?_
    have : ∀ c ∈ contoursOf exStandard, ∀ l ∈ c.vertices.cyclicPermutations,
        (match l with | u :: v :: w :: _ => cross u v w | _ => 1) ≠ 0 := by decide +kernel
    intro l hl u v w rest e
    have := this c hc l hl
    rw [e] at this
    exact this
  have normal : ∀ c ∈ contoursOf exStandard, c.Normal := by
    intro c hc
    refine ⟨?_, corner c hc⟩
    simp only [contoursOf, exStandard, List.flatMap_cons, List.flatMap_nil, List.append_nil, List.mem_cons, List.not_mem_nil, or_false] at hc
    rcases hc with rfl | rfl
    · exact ⟨_, _, rfl, by decide +kernel⟩
    · exact ⟨_, _, rfl, by decide +kernel⟩
  refine ⟨⟨fun p hp => normal _ (List.mem_flatMap.2 ⟨p, hp, by simp⟩), fun p hp c hc => normal _ (List.mem_flatMap.2 ⟨p, hp, by simp [hc]⟩),
    List.pairwise_singleton _ _, ?_⟩, ?_⟩
  · intro p hp
    obtain rfl := List.mem_singleton.1 hp
    simp only [List.pairwise_cons, List.mem_singleton, forall_eq, List.not_mem_nil, IsEmpty.forall_iff, implies_true, List.Pairwise.nil, and_true]
    intro v hv w hw
    simp only [List.head?_cons, Option.mem_def, Option.some.injEq] at hv hw
    subst hv hw
    decide +kernel
  · intro p hp
    obtain rfl := List.mem_singleton.1 hp
    refine ⟨((contourOrientation_spec _ V.border).1).1 (by decide +kernel), fun c hc => ?_⟩
    exact ((contourOrientation_spec c (V.holes c hc)).2).1 (by
      simp only [List.mem_singleton] at hc
      subst hc
      decide +kernel)

/-- The square with a hole meets the hypotheses: its union with itself is the same polygon, vertex by vertex. -/
example (tb : TieBreak) : ∃ g, unitePolygons tb ⟨⟨[⟨0, 0⟩, ⟨4, 0⟩, ⟨4, 4⟩, ⟨0, 4⟩]⟩, [⟨[⟨1, 1⟩, ⟨1, 3⟩, ⟨3, 3⟩, ⟨3, 1⟩]⟩]⟩
    ⟨⟨[⟨0, 0⟩, ⟨4, 0⟩, ⟨4, 4⟩, ⟨0, 4⟩]⟩, [⟨[⟨1, 1⟩, ⟨1, 3⟩, ⟨3, 3⟩, ⟨3, 1⟩]⟩]⟩ = .ok g ∧ g.polygons = exStandard :=
  (self_equal (Classical.choose_spec exists_orient) (tb := tb) exStandard_valid exStandard_standard exStandard_detached).1

/-- Without the normal form there are other polygons with the same points. -/
example : polysPts [frame 0 0 4 1 2] = polysPts exStandard ∧ [frame 0 0 4 1 2] ≠ exStandard :=
  ⟨exStandard_same.polysPts_eq, by
    intro h
    have := congrArg (fun ps => ps.map fun p => p.holes.map Contour.vertices) h
    simp [frame, exStandard, squareContour] at this⟩

end Clipping

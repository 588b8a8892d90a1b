import Verif.Lemmas.Shaped.Drawn
import Verif.Properties.Sides
import Verif.Properties.Laws

/-!
# C66: results which are not valid as operands

Holes of results may be attached to wrong borders (C42).  Unions and symmetric differences of such results, and differences of such
results and valid polygons, are right nevertheless.  Intersections are not.
-/

namespace Clipping

theorem Drawn.area_le {ps qs : List Polygon} {E : List Segment} (dp : Drawn ps) (dq : Drawn qs) (hs : ∀ q, q ∉ segsPts E →
    (Inside (ps.flatMap Polygon.edges) q ↔ Inside (qs.flatMap Polygon.edges) q)) : polysArea ps ≤ polysArea qs := by
  refine (dp.outlines (op := fun a _ => a) (A := ps.flatMap Polygon.edges) (B := E) ?_ ?_).area_le
    (dq.outlines (op := fun a _ => a) (A := qs.flatMap Polygon.edges) (B := E) ?_ ?_) ?_
  · rw [segsPts_append]; exact Set.subset_union_left
  · intro q _; simp [Combined]
  · rw [segsPts_append]; exact Set.subset_union_left
  · intro q _; simp [Combined]
  · intro q h1 _ h3
    simp only [Combined, decide_eq_true_eq] at h3 ⊢
    exact (hs q (off_append h1).2).1 h3

section

variable {o : Orient} (ok : OrientOk o) {tb : TieBreak} {v : ℕ → List Polygon} (hv : ∀ i, ValidPolygons (v i))

include ok

/-- **C66** Nested operations can be carried out: no union or symmetric difference of results fails, no difference of a result and a valid
subtrahend, no intersection of valid results. -/
theorem nested_step {ps qs : List Polygon} (hv : ∀ i, ValidPolygons (v i)) (k : Operation) {x y : Expression} (hx : x.Evaluates o tb v ps)
    (hy : y.Evaluates o tb v qs) (hd : k.Demands ps qs) : ∃ rs, (Expression.apply k x y).Evaluates o tb v rs := by
  obtain ⟨g, h, -⟩ := Operation.call_drawn ok tb k (hx.drawn ok fun i => (hv i).drawn) (hy.drawn ok fun i => (hv i).drawn) hd
  exact ⟨_, .apply k hx hy hd h⟩

include hv

/-- **C66** Any expression of unions and symmetric differences can be evaluated. -/
theorem additive_evaluates {x : Expression} (hx : x.Additive) : ∃ ps, x.Evaluates o tb v ps := by
  induction x with
  | operand i => exact ⟨_, .operand i⟩
  | apply k a b iha ihb =>
    obtain ⟨hk, ha, hb⟩ := hx
    obtain ⟨ps, hp⟩ := iha ha
    obtain ⟨qs, hq⟩ := ihb hb
    refine nested_step ok hv k hp hq ?_
    rcases hk with rfl | rfl <;> trivial

/-- **C66** Contours of nested results are simple and do not overlap, their borders have the region inside and their holes have it outside, every
hole is within a border. -/
theorem nested_drawn {x : Expression} {ps : List Polygon} (hx : x.Evaluates o tb v ps) : Drawn ps := hx.drawn ok fun i => (hv i).drawn

/-- **C66** Contours of nested results are on the edges of the operands. -/
theorem nested_edges {x : Expression} {ps : List Polygon} (hx : x.Evaluates o tb v ps) :
    segsPts (ps.flatMap Polygon.edges) ⊆ segsPts (x.edges v) := hx.within ok fun i => (hv i).drawn

open Classical in
/-- **C66** A point which is on no edge of an operand is surrounded by the contours of a nested result exactly if the formula says so, whether or
not the results on the way are valid. -/
theorem nested_inside {x : Expression} {ps : List Polygon} (hx : x.Evaluates o tb v ps) {q : Point} (hq : q ∉ segsPts (x.edges v)) :
    Inside (ps.flatMap Polygon.edges) q ↔ x.holds (fun i => decide (q ∈ polysPts (v i))) = true := by
  rw [hx.inside ok (fun i => (hv i).drawn) hq]
  have key : ∀ y : Expression, q ∉ segsPts (y.edges v) →
      y.holds (fun i => decide (Inside ((v i).flatMap Polygon.edges) q)) = y.holds (fun i => decide (q ∈ polysPts (v i))) := by
    intro y
    induction y with
    | operand i =>
      intro hi
      simp only [Expression.edges, Expression.leaves, List.flatMap_cons, List.flatMap_nil, List.append_nil] at hi
      simp only [Expression.holds]
      exact decide_eq_decide.2 ((hv i).mem_off hi).symm
    | apply k a b iha ihb =>
      intro hi
      rw [Expression.edges_apply] at hi
      simp only [Expression.holds, iha (off_append hi).1, ihb (off_append hi).2]
  rw [key x hq]

theorem edges_proper (x : Expression) : ∀ s ∈ x.edges v, s.Proper := by
  intro s hs
  obtain ⟨i, -, hs⟩ := List.mem_flatMap.1 hs
  exact (hv i).noOverlap.1 s hs

/-- **C66** Nested operations with equivalent formulas give the same: the points on the contours of the results are the same, the points which
these contours surround are the same, and the areas are the same. -/
theorem nested_region {o' : Orient} (ok' : OrientOk o') {tb' : TieBreak} {x y : Expression} (h : ∀ w : ℕ → Bool, x.holds w = y.holds w)
    {ps qs : List Polygon} (hx : x.Evaluates o tb v ps) (hy : y.Evaluates o' tb' v qs) :
    segsPts (ps.flatMap Polygon.edges) = segsPts (qs.flatMap Polygon.edges) ∧
    regionPts (ps.flatMap Polygon.edges) = regionPts (qs.flatMap Polygon.edges) ∧ polysArea ps = polysArea qs := by
  classical
  have dx := nested_drawn ok hv hx
  have dy := nested_drawn ok' hv hy
  have same : ∀ q, q ∉ segsPts (x.edges v ++ y.edges v) →
      (Inside (ps.flatMap Polygon.edges) q ↔ Inside (qs.flatMap Polygon.edges) q) := by
    intro q hq
    rw [nested_inside ok hv hx (off_append hq).1, nested_inside ok' hv hy (off_append hq).2, h]
  have pr : ∀ s ∈ x.edges v ++ y.edges v, s.Proper := by
    intro s hs
    rcases List.mem_append.1 hs with hs | hs
    · exact edges_proper ok hv x s hs
    · exact edges_proper ok hv y s hs
  refine ⟨Set.Subset.antisymm ?_ ?_, ?_, ?_⟩
  · exact segsPts_sub_of_inside dx.noOverlap dx.even dy.noOverlap dy.even pr same
  · exact segsPts_sub_of_inside dy.noOverlap dy.even dx.noOverlap dx.even pr fun q hq => (same q hq).symm
  · exact regionPts_eq_of_inside dx.noOverlap dx.even dy.noOverlap dy.even pr same
  · exact le_antisymm (dx.area_le dy same) (dy.area_le dx fun q hq => (same q hq).symm)

/-- **C66** Nested operations whose formula never holds give nothing. -/
theorem nested_empty {x : Expression} (h : ∀ w : ℕ → Bool, x.holds w = false) {ps : List Polygon} (hx : x.Evaluates o tb v ps) : ps = [] := by
  classical
  have d := nested_drawn ok hv hx
  by_contra ne
  obtain ⟨p, hp⟩ := List.exists_mem_of_ne_nil _ ne
  have hm : vtx p.border 0 ∈ segsPts (ps.flatMap Polygon.edges) := by
    refine segsPts_flatMap.2 ⟨p, hp, ?_⟩
    show _ ∈ segsPts (p.border.edges ++ _)
    rw [segsPts_append]
    exact Or.inl ((d.border p hp).vertex_segs (vtx_mem (d.border p hp).ne_nil 0))
  obtain ⟨⟨z, -, z2, -, z3⟩, -⟩ := near_both d.noOverlap d.even hm (edges_proper ok hv x) one_pos
  rw [nested_inside ok hv hx z2, h] at z3
  cases z3

open Classical in
/-- **C67, proved part** Valid results can be operands of all operations.  (Missing: results with holes at wrong borders as operands of intersections and
as second operands of differences, see below.) -/
theorem nested_operand_partial (k : Operation) {x y : Expression} {ps qs : List Polygon} (hx : x.Evaluates o tb v ps) (hy : y.Evaluates o tb v qs)
    (vp : ValidPolygons ps) (vq : ValidPolygons qs) : ∃ g, k.call o tb ps qs = .ok g ∧
      ∀ q, q ∉ segsPts (x.edges v ++ y.edges v) → (Inside (g.polygons.flatMap Polygon.edges) q ↔
        k.holds (x.holds fun i => decide (q ∈ polysPts (v i))) (y.holds fun i => decide (q ∈ polysPts (v i))) = true) := by
  have hd : k.Demands ps qs := by cases k <;> simp [Operation.Demands, vp, vq]
  obtain ⟨g, h, -⟩ := Operation.call_drawn ok tb k vp.drawn vq.drawn hd
  refine ⟨g, h, fun q hq => ?_⟩
  rw [← Expression.edges_apply v k] at hq
  exact nested_inside ok hv (.apply k hx hy hd h) hq

/-- **C66** The areas of nested results add up as the formulas do: what holds for weighted sums of truth values holds for the weighted sums of
areas. -/
theorem nested_area {F : List (ℚ × Expression × List Polygon)} (hF : ∀ t ∈ F, t.2.1.Evaluates o tb v t.2.2)
    (h : ∀ w : ℕ → Bool, 0 ≤ (F.map fun t => t.1 * if t.2.1.holds w then 1 else 0).sum) :
    0 ≤ (F.map fun t => t.1 * polysArea t.2.2).sum := by
  classical
  have d : ∀ t ∈ F, Drawn t.2.2 := fun t ht => nested_drawn ok hv (hF t ht)
  have := trapezoids_valuation (F := F.map fun t => (t.1, t.2.2.flatMap polygonEdges)) (by
    intro p hp
    obtain ⟨t, ht, rfl⟩ := List.mem_map.1 hp
    exact (d t ht).isBoundary) (F.flatMap fun t => t.2.1.edges v) fun q hq _ => by
      rw [List.map_map]
      have := h fun i => decide (q ∈ polysPts (v i))
      convert this using 2
      refine List.map_congr_left fun t ht => ?_
      have e := nested_inside ok hv (hF t ht) (q := q) fun hh => hq (segsPts_flatMap.2 ⟨t, ht, hh⟩)
      simp only [Function.comp_apply, (d t ht).sameEdges.inside_iff, e]
  rw [List.map_map] at this
  convert this using 2
  refine List.map_congr_left fun t ht => ?_
  rw [Function.comp_apply, polysArea_eq fun p hp => ⟨(d t ht).border p hp, (d t ht).hole p hp⟩]

end

section

variable {o : Orient} (ok : OrientOk o) {tb : TieBreak} {a b c : List Polygon} (va : ValidPolygons a) (vb : ValidPolygons b)
  (vc : ValidPolygons c)

include ok va vb vc

/-- **C66** Unions are associative, whatever the results on the way are. -/
theorem union_assoc_always (tb : TieBreak) : ∃ g1 g2 g3 g4, Operation.union.call o tb a b = .ok g1 ∧
    Operation.union.call o tb g1.polygons c = .ok g2 ∧ Operation.union.call o tb b c = .ok g3 ∧
    Operation.union.call o tb a g3.polygons = .ok g4 ∧
    segsPts (g2.polygons.flatMap Polygon.edges) = segsPts (g4.polygons.flatMap Polygon.edges) ∧
    regionPts (g2.polygons.flatMap Polygon.edges) = regionPts (g4.polygons.flatMap Polygon.edges) ∧
    polysArea g2.polygons = polysArea g4.polygons := by
  have hv := operands_valid va vb vc
  obtain ⟨g1, h1, O1⟩ := Operation.call_drawn ok tb .union va.drawn vb.drawn trivial
  obtain ⟨g2, h2, -⟩ := Operation.call_drawn ok tb .union O1.drawn vc.drawn trivial
  obtain ⟨g3, h3, O3⟩ := Operation.call_drawn ok tb .union vb.drawn vc.drawn trivial
  obtain ⟨g4, h4, -⟩ := Operation.call_drawn ok tb .union va.drawn O3.drawn trivial
  refine ⟨g1, g2, g3, g4, h1, h2, h3, h4, nested_region ok hv ok
    (x := .apply .union (.apply .union (.operand 0) (.operand 1)) (.operand 2))
    (y := .apply .union (.operand 0) (.apply .union (.operand 1) (.operand 2))) ?_
    (.apply _ (.apply _ (.operand 0) (.operand 1) trivial h1) (.operand 2) trivial h2)
    (.apply _ (.operand 0) (.apply _ (.operand 1) (.operand 2) trivial h3) trivial h4)⟩
  intro w
  simp [Expression.holds, Operation.holds, Bool.or_assoc]

/-- **C66** Symmetric differences are associative, whatever the results on the way are. -/
theorem symmetricDifference_assoc_always (tb : TieBreak) : ∃ g1 g2 g3 g4, Operation.symmetricDifference.call o tb a b = .ok g1 ∧
    Operation.symmetricDifference.call o tb g1.polygons c = .ok g2 ∧ Operation.symmetricDifference.call o tb b c = .ok g3 ∧
    Operation.symmetricDifference.call o tb a g3.polygons = .ok g4 ∧
    segsPts (g2.polygons.flatMap Polygon.edges) = segsPts (g4.polygons.flatMap Polygon.edges) ∧
    regionPts (g2.polygons.flatMap Polygon.edges) = regionPts (g4.polygons.flatMap Polygon.edges) ∧
    polysArea g2.polygons = polysArea g4.polygons := by
  have hv := operands_valid va vb vc
  obtain ⟨g1, h1, O1⟩ := Operation.call_drawn ok tb .symmetricDifference va.drawn vb.drawn trivial
  obtain ⟨g2, h2, -⟩ := Operation.call_drawn ok tb .symmetricDifference O1.drawn vc.drawn trivial
  obtain ⟨g3, h3, O3⟩ := Operation.call_drawn ok tb .symmetricDifference vb.drawn vc.drawn trivial
  obtain ⟨g4, h4, -⟩ := Operation.call_drawn ok tb .symmetricDifference va.drawn O3.drawn trivial
  refine ⟨g1, g2, g3, g4, h1, h2, h3, h4, nested_region ok hv ok
    (x := .apply .symmetricDifference (.apply .symmetricDifference (.operand 0) (.operand 1)) (.operand 2))
    (y := .apply .symmetricDifference (.operand 0) (.apply .symmetricDifference (.operand 1) (.operand 2))) ?_
    (.apply _ (.apply _ (.operand 0) (.operand 1) trivial h1) (.operand 2) trivial h2)
    (.apply _ (.operand 0) (.apply _ (.operand 1) (.operand 2) trivial h3) trivial h4)⟩
  intro w
  simp [Expression.holds, Operation.holds]

omit vc in
/-- **C66** Taking a symmetric difference with the same polygons twice gives back the first operand, whatever is between. -/
theorem symmetricDifference_twice_always (tb : TieBreak) : ∃ g1 g2, Operation.symmetricDifference.call o tb a b = .ok g1 ∧
    Operation.symmetricDifference.call o tb g1.polygons b = .ok g2 ∧
    segsPts (g2.polygons.flatMap Polygon.edges) = segsPts (a.flatMap Polygon.edges) ∧
    regionPts (g2.polygons.flatMap Polygon.edges) = regionPts (a.flatMap Polygon.edges) ∧ polysArea g2.polygons = polysArea a := by
  have hv := operands_valid va vb vb
  obtain ⟨g1, h1, O1⟩ := Operation.call_drawn ok tb .symmetricDifference va.drawn vb.drawn trivial
  obtain ⟨g2, h2, -⟩ := Operation.call_drawn ok tb .symmetricDifference O1.drawn vb.drawn trivial
  refine ⟨g1, g2, h1, h2, nested_region ok hv ok
    (x := .apply .symmetricDifference (.apply .symmetricDifference (.operand 0) (.operand 1)) (.operand 1))
    (y := .operand 0) ?_
    (.apply _ (.apply _ (.operand 0) (.operand 1) trivial h1) (.operand 1) trivial h2) (.operand 0) (tb' := tb)⟩
  intro w
  simp [Expression.holds, Operation.holds]

/-- **C66** Subtracting one after the other is subtracting the union, if this is valid, whatever the first difference is. -/
theorem difference_twice_always (tb : TieBreak) {g3 : Geometry} (h3 : Operation.union.call o tb b c = .ok g3) (v3 : ValidPolygons g3.polygons) :
    ∃ g1 g2 g4, Operation.difference.call o tb a b = .ok g1 ∧
    Operation.difference.call o tb g1.polygons c = .ok g2 ∧
    Operation.difference.call o tb a g3.polygons = .ok g4 ∧
    segsPts (g2.polygons.flatMap Polygon.edges) = segsPts (g4.polygons.flatMap Polygon.edges) ∧
    regionPts (g2.polygons.flatMap Polygon.edges) = regionPts (g4.polygons.flatMap Polygon.edges) ∧
    polysArea g2.polygons = polysArea g4.polygons := by
  have hv := operands_valid va vb vc
  obtain ⟨g1, h1, O1⟩ := Operation.call_drawn ok tb .difference va.drawn vb.drawn vb
  obtain ⟨g2, h2, -⟩ := Operation.call_drawn ok tb .difference O1.drawn vc.drawn vc
  obtain ⟨g4, h4, -⟩ := Operation.call_drawn ok tb .difference va.drawn v3.drawn v3
  refine ⟨g1, g2, g4, h1, h2, h4, nested_region ok hv ok
    (x := .apply .difference (.apply .difference (.operand 0) (.operand 1)) (.operand 2))
    (y := .apply .difference (.operand 0) (.apply .union (.operand 1) (.operand 2))) ?_
    (.apply _ (.apply _ (.operand 0) (.operand 1) vb h1) (.operand 2) vc h2)
    (.apply _ (.operand 0) (.apply _ (.operand 1) (.operand 2) trivial h3) v3 h4)⟩
  intro w
  simp [Expression.holds, Operation.holds, Bool.and_assoc]

end

/-! ## Examples -/

/-- the symmetric difference of `exTriangle` and `exTriangles`, with a hole at the wrong border -/
def exWrong : List Polygon :=
  [⟨⟨[⟨-8, 10⟩, ⟨2, 0⟩, ⟨17 / 6, 10⟩]⟩, [⟨[⟨2, 0⟩, ⟨8, -1⟩, ⟨8, -2⟩]⟩]⟩,
    ⟨⟨[⟨2, 0⟩, ⟨12, -10⟩, ⟨12, 10⟩, ⟨11 / 3, 10⟩]⟩, []⟩,
    ⟨⟨[⟨17 / 6, 10⟩, ⟨11 / 3, 10⟩, ⟨4, 12⟩, ⟨3, 12⟩]⟩, []⟩]

theorem exWrong_eq {o : Orient} : Operation.symmetricDifference.call o TieBreak.id [exTriangle] exTriangles = .ok (.multipolygon exWrong) :=
  exTriangles_result

/-- a triangle around the misplaced hole and a vertex of the polygon to which the hole belongs -/
def exProbe : Polygon := ⟨triangle ⟨3, -13⟩ ⟨30, -13⟩ ⟨3, 9⟩, []⟩

theorem exProbe_valid : ValidPolygon exProbe := (triangle_simple (by norm_num [cross])).validPolygon

theorem coupledWithPolygon_of_vertex {o : Orient} {box : Box} {p : Polygon} (h1 : coupledWith (contourBox p.border) box = true)
    (h2 : (isSubsetOf (contourBox p.border) box || p.border.vertices.any fun vertex => coversPoint box vertex) = true) :
    coupledWithPolygon o box p = true := by
  unfold coupledWithPolygon
  simp only [h1, h2, Bool.not_true, Bool.false_eq_true, if_false, if_true]

theorem coupledWithPolygon_of_box {o : Orient} {box : Box} {p : Polygon} (h : coupledWith (contourBox p.border) box = false) :
    coupledWithPolygon o box p = false := by
  unfold coupledWithPolygon
  simp only [h, Bool.not_false, if_true]

theorem exWrong_coupled (o : Orient) : toCoupledPolygons o ⟨3, 30, -13, 9⟩ (multipolygonOperand exWrong).polygons =
    [⟨⟨[⟨2, 0⟩, ⟨12, -10⟩, ⟨12, 10⟩, ⟨11 / 3, 10⟩]⟩, []⟩] := by
  show List.filter _ exWrong = _
  unfold exWrong
  rw [List.filter_cons_of_neg, List.filter_cons_of_pos, List.filter_cons_of_neg, List.filter_nil]
  · rw [coupledWithPolygon_of_box (by decide +kernel)]; simp
  · exact coupledWithPolygon_of_vertex (by decide +kernel) (by decide +kernel)
  · rw [coupledWithPolygon_of_box (by decide +kernel)]; simp

theorem exProbe_result (o : Orient) : Operation.intersection.call o TieBreak.id [exProbe] exWrong =
    .ok (.polygon ⟨⟨[⟨3, -1⟩, ⟨12, -10⟩, ⟨12, 5 / 3⟩, ⟨633 / 184, 795 / 92⟩, ⟨3, 6⟩]⟩, []⟩) := by
  change holeyIntersection o TieBreak.id (polygonOperand exProbe) (multipolygonOperand exWrong) = _
  have b1 : polygonsBox (polygonOperand exProbe).polygons = .ok ⟨3, 30, -13, 9⟩ := by decide +kernel
  have b2 : polygonsBox (multipolygonOperand exWrong).polygons = .ok ⟨-8, 12, -10, 12⟩ := by decide +kernel
  have c1 : toCoupledPolygons o ⟨-8, 12, -10, 12⟩ (polygonOperand exProbe).polygons = [exProbe] := by
    have := coupledWithPolygon_of_vertex (o := o) (box := ⟨-8, 12, -10, 12⟩) (p := exProbe) (by decide +kernel) (by decide +kernel)
    show List.filter _ [exProbe] = _
    rw [List.filter_cons_of_pos this, List.filter_nil]
  unfold holeyIntersection
  rw [b1, b2]
  simp only [bind, Except.bind, c1, exWrong_coupled]
  decide +kernel

/-- **C67, negation** Intersections with results are wrong: the intersection of a triangle with the symmetric difference of two valid operands, which
is a result of the library with a hole at the wrong border, surrounds points of the hole, which are in both operands. -/
theorem nested_intersection_wrong (o : Orient) : ¬ ∀ (a : Polygon) (b : List Polygon) (c : Polygon) (g g' : Geometry),
    ValidPolygon a → ValidPolygons b → ValidPolygon c → Operation.symmetricDifference.call o TieBreak.id [a] b = .ok g →
    Operation.intersection.call o TieBreak.id [c] g.polygons = .ok g' →
    ∀ q, q ∉ segsPts (a.edges ++ b.flatMap Polygon.edges ++ c.edges) →
      (Inside (g'.polygons.flatMap Polygon.edges) q ↔ q ∈ c.pts ∧ ¬ (q ∈ a.pts ↔ q ∈ polysPts b)) := by
  intro h
  have key := h exTriangle exTriangles exProbe _ _ exTriangle_valid exTriangles_valid exProbe_valid exWrong_eq (exProbe_result o)
    ⟨7, -5/4⟩ (by
      rintro ⟨e, he, t, t0, t1, tx, ty⟩
      have hc : cross e.start e.stop ⟨7, -5/4⟩ = 0 := by unfold cross; rw [tx, ty]; ring
      clear tx ty
      revert hc
      revert e
      decide +kernel)
  have i1 : (⟨7, -5/4⟩ : Point) ∈ exTriangle.pts := Or.inr (show Odd _ by decide +kernel)
  have i2 : (⟨7, -5/4⟩ : Point) ∈ polysPts exTriangles := ⟨_, List.mem_cons_of_mem _ List.mem_cons_self, Or.inr (show Odd _ by decide +kernel)⟩
  exact (key.1 (show Odd _ by decide +kernel)).2 ⟨fun _ => i2, fun _ => i1⟩

theorem exProbe_difference (o : Orient) : Operation.difference.call o TieBreak.id [exProbe] exWrong = .ok (.multipolygon
    [⟨⟨[⟨3, -13⟩, ⟨30, -13⟩, ⟨12, 5 / 3⟩, ⟨12, -10⟩, ⟨3, -1⟩]⟩, []⟩, ⟨⟨[⟨3, 6⟩, ⟨633 / 184, 795 / 92⟩, ⟨3, 9⟩]⟩, []⟩]) := by
  change holeyDifference o TieBreak.id (polygonOperand exProbe) (multipolygonOperand exWrong) = _
  have b1 : polygonsBox (polygonOperand exProbe).polygons = .ok ⟨3, 30, -13, 9⟩ := by decide +kernel
  have b2 : polygonsBox (multipolygonOperand exWrong).polygons = .ok ⟨-8, 12, -10, 12⟩ := by decide +kernel
  unfold holeyDifference
  rw [b1, b2]
  simp only [bind, Except.bind, exWrong_coupled]
  decide +kernel

/-- **C67, negation** The same for differences: points of the hole are in both operands of the symmetric difference, and in the triangle, but not in the
difference of the triangle and the symmetric difference. -/
theorem nested_difference_wrong (o : Orient) : ¬ ∀ (a : Polygon) (b : List Polygon) (c : Polygon) (g g' : Geometry),
    ValidPolygon a → ValidPolygons b → ValidPolygon c → Operation.symmetricDifference.call o TieBreak.id [a] b = .ok g →
    Operation.difference.call o TieBreak.id [c] g.polygons = .ok g' →
    ∀ q, q ∉ segsPts (a.edges ++ b.flatMap Polygon.edges ++ c.edges) →
      (Inside (g'.polygons.flatMap Polygon.edges) q ↔ q ∈ c.pts ∧ (q ∈ a.pts ↔ q ∈ polysPts b)) := by
  intro h
  have key := h exTriangle exTriangles exProbe _ _ exTriangle_valid exTriangles_valid exProbe_valid exWrong_eq (exProbe_difference o)
    ⟨7, -5/4⟩ (by
      rintro ⟨e, he, t, t0, t1, tx, ty⟩
      have hc : cross e.start e.stop ⟨7, -5/4⟩ = 0 := by unfold cross; rw [tx, ty]; ring
      clear tx ty
      revert hc
      revert e
      decide +kernel)
  have i1 : (⟨7, -5/4⟩ : Point) ∈ exTriangle.pts := Or.inr (show Odd _ by decide +kernel)
  have i2 : (⟨7, -5/4⟩ : Point) ∈ polysPts exTriangles := ⟨_, List.mem_cons_of_mem _ List.mem_cons_self, Or.inr (show Odd _ by decide +kernel)⟩
  have i3 : (⟨7, -5/4⟩ : Point) ∈ exProbe.pts := Or.inr (show Odd _ by decide +kernel)
  exact absurd (key.2 ⟨i3, fun _ => i2, fun _ => i1⟩) (show ¬ Odd _ by decide +kernel)

/-- The wrong polygons cannot be written in a valid way only because of the holes: the contours are right. -/
example {o : Orient} (ok : OrientOk o) : Drawn exWrong ∧ ¬ ValidPolygons exWrong := by
  refine ⟨?_, fun h => ?_⟩
  · have hv := operands_valid exTriangle_valid.validPolygons exTriangles_valid exTriangles_valid
    have E : (Expression.apply .symmetricDifference (.operand 0) (.operand 1)).Evaluates o TieBreak.id
        (operands [exTriangle] exTriangles exTriangles) (Geometry.multipolygon exWrong).polygons :=
      .apply _ (.operand 0) (.operand 1) trivial exWrong_eq
    exact nested_drawn ok hv E
  · have := (h.valid _ List.mem_cons_self).inside _ List.mem_cons_self (show (⟨7, -5/4⟩ : Point) ∈ _ from Or.inr (show Odd _ by decide +kernel))
    rcases this with ⟨e, he, t, t0, t1, tx, ty⟩ | h
    · have hc : cross e.start e.stop ⟨7, -5/4⟩ = 0 := by unfold cross; rw [tx, ty]; ring
      clear tx ty
      revert hc
      revert e
      decide +kernel
    · exact absurd h (show ¬ Odd _ by decide +kernel)

/-- Going on with the wrong polygons: the second symmetric difference gives the region of the first operand again. -/
example {o : Orient} (ok : OrientOk o) : ∃ g, Operation.symmetricDifference.call o TieBreak.id exWrong exTriangles = .ok g ∧
    regionPts (g.polygons.flatMap Polygon.edges) = exTriangle.pts ∧ polysArea g.polygons = 200 := by
  obtain ⟨g1, g2, h1, h2, -, h3, h4⟩ := symmetricDifference_twice_always ok exTriangle_valid.validPolygons exTriangles_valid TieBreak.id
  obtain rfl := Except.ok.inj (h1.symm.trans exWrong_eq)
  refine ⟨g2, h2, ?_, ?_⟩
  · rw [h3]; simp [polygon_pts_eq]
  · rw [h4]; decide +kernel

end Clipping

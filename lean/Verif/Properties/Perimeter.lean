import Verif.Spec.Perimeter
import Verif.Lemmas.Region.Across
import Verif.Properties.Length
import Verif.Properties.Chains

/-!
# C79: perimeters of results

The contours of a result are where the formula changes its truth value.  So perimeters of results obey all laws which the changes of truth values
obey: union and intersection together do not have longer contours than both operands together, and the contours of all four parts add up.
Nothing has to be known of the results: this holds for results with holes at the wrong polygon (C42) as well.
-/

namespace Clipping

theorem sum_map_opposite {α : Type} (l : List α) (f : α → ℝ) : (l.map fun x => -f x).sum = -(l.map f).sum := by
  induction l with
  | nil => simp
  | cons x l ih =>
    simp only [List.map_cons, List.sum_cons, ih]
    ring

section

variable {o : Orient} (ok : OrientOk o) {tb : TieBreak} {v : ℕ → List Polygon} (hv : ∀ i, ValidPolygons (v i))

include ok hv

/-- Up to finitely many points: a point is on the contours of nested results exactly if their formulas change from one side of the point to
the other one. -/
theorem nested_changes {F : List (ℝ × Expression × List Polygon)} (hF : ∀ t ∈ F, t.2.1.Evaluates o tb v t.2.2) :
    ∃ Z : Set Point, Z.Finite ∧ ∀ m, m ∉ Z → ∃ w w' : ℕ → Bool, ∀ t ∈ F,
      (m ∈ segsPts (t.2.2.flatMap Polygon.edges) ↔ t.2.1.holds w ≠ t.2.1.holds w') := by
  classical
  set W : List Segment := F.flatMap fun t => t.2.2.flatMap Polygon.edges ++ t.2.1.edges v with hWdef
  have hW : ∀ s ∈ W, s.Proper := by
    intro s hs
    obtain ⟨t, ht, hs⟩ := List.mem_flatMap.1 hs
    rcases List.mem_append.1 hs with hs | hs
    · exact (nested_drawn ok hv (hF t ht)).noOverlap.1 s hs
    · exact edges_proper ok hv _ s hs
  refine ⟨{p | Vertex W p}, vertex_finite W, fun m hm => ?_⟩
  by_cases mW : m ∈ segsPts W
  · obtain ⟨e, he, me⟩ := mW
    obtain ⟨q, q', h1, h2, h3⟩ := across hW hm he me (D := F.map fun t => t.2.2.flatMap Polygon.edges) (by
      intro X hX
      obtain ⟨t, ht, rfl⟩ := List.mem_map.1 hX
      have d := nested_drawn ok hv (hF t ht)
      exact ⟨fun s hs => List.mem_flatMap.2 ⟨t, ht, List.mem_append_left _ hs⟩, d.noOverlap, d.even⟩)
    refine ⟨fun i => decide (q ∈ polysPts (v i)), fun i => decide (q' ∈ polysPts (v i)), fun t ht => ?_⟩
    have off : ∀ {q}, q ∉ segsPts W → q ∉ segsPts (t.2.1.edges v) := by
      rintro q hq ⟨s, hs, h⟩
      exact hq ⟨s, List.mem_flatMap.2 ⟨t, ht, List.mem_append_right _ hs⟩, h⟩
    rw [h3 _ (List.mem_map_of_mem ht), nested_inside ok hv (hF t ht) (off h1), nested_inside ok hv (hF t ht) (off h2)]
    exact not_congr Bool.eq_iff_iff.symm
  · refine ⟨fun _ => true, fun _ => true, fun t ht => ⟨fun h => absurd ?_ mW, fun h => absurd rfl h⟩⟩
    obtain ⟨s, hs, h⟩ := h
    exact ⟨s, List.mem_flatMap.2 ⟨t, ht, List.mem_append_left _ hs⟩, h⟩

/-- **C79** Whatever holds for sums of changes of truth values holds for perimeters: if combinations of operands, with weights, never add up to
something negative when the truth values of the operands change, then the perimeters of the results do not. -/
theorem nested_perimeter (N : Length) {F : List (ℝ × Expression × List Polygon)} (hF : ∀ t ∈ F, t.2.1.Evaluates o tb v t.2.2)
    (h : ∀ w w' : ℕ → Bool, 0 ≤ (F.map fun t => t.1 * if t.2.1.holds w ≠ t.2.1.holds w' then 1 else 0).sum) :
    0 ≤ (F.map fun t => t.1 * N.perimeter t.2.2).sum := by
  classical
  obtain ⟨Z, hZ, key⟩ := nested_changes ok hv hF
  have := Length.valuation N (F := F.map fun t => (t.1, t.2.2.flatMap Polygon.edges)) (by
    intro p hp
    obtain ⟨t, ht, rfl⟩ := List.mem_map.1 hp
    exact (nested_drawn ok hv (hF t ht)).noOverlap) hZ (by
      intro m hm
      obtain ⟨w, w', hw⟩ := key m hm
      refine (h w w').trans_eq ?_
      rw [List.map_map]
      congr 1
      refine List.map_congr_left fun t ht => ?_
      simp only [Function.comp_apply]
      congr 1
      exact if_congr (hw t ht).symm rfl rfl)
  rwa [List.map_map] at this

/-- **C79** The same for equations. -/
theorem nested_perimeter_eq (N : Length) {F : List (ℝ × Expression × List Polygon)} (hF : ∀ t ∈ F, t.2.1.Evaluates o tb v t.2.2)
    (h : ∀ w w' : ℕ → Bool, (F.map fun t => t.1 * if t.2.1.holds w ≠ t.2.1.holds w' then 1 else 0).sum = 0) :
    (F.map fun t => t.1 * N.perimeter t.2.2).sum = 0 := by
  refine le_antisymm ?_ (nested_perimeter ok hv N hF fun w w' => (h w w').ge)
  have := nested_perimeter ok hv N (F := F.map fun t => (-t.1, t.2)) (by
    intro t ht
    obtain ⟨t, ht', rfl⟩ := List.mem_map.1 ht
    exact hF t ht') (by
      intro w w'
      have e := h w w'
      rw [List.map_map]
      simp only [Function.comp_def, neg_mul, sum_map_opposite]
      rw [e, neg_zero])
  rw [List.map_map] at this
  simp only [Function.comp_def, neg_mul, sum_map_opposite] at this
  linarith

/-- **C79** Nested operations with equivalent formulas, or with opposite ones, give contours of the same length. -/
theorem nested_perimeter_congr (N : Length) {x y : Expression} (h : (∀ w, x.holds w = y.holds w) ∨ ∀ w, x.holds w = !y.holds w)
    {ps qs : List Polygon} (hx : x.Evaluates o tb v ps) (hy : y.Evaluates o tb v qs) : N.perimeter ps = N.perimeter qs := by
  have := nested_perimeter_eq ok hv (tb := tb) N (F := [(1, x, ps), (-1, y, qs)]) (by simp [hx, hy]) fun w w' => by
    simp only [List.map_cons, List.map_nil, List.sum_cons, List.sum_nil]
    have : (x.holds w ≠ x.holds w') ↔ (y.holds w ≠ y.holds w') := by
      rcases h with h | h
      · rw [h w, h w']
      · rw [h w, h w']
        simp
    rw [if_congr this rfl rfl]
    ring
  simp only [List.map_cons, List.map_nil, List.sum_cons, List.sum_nil] at this
  linarith

/-- **C79** The contours of a nested result are not longer than those of all its operands together, each counted as often as it occurs. -/
theorem nested_perimeter_le (N : Length) {x : Expression} {ps : List Polygon} (hx : x.Evaluates o tb v ps) :
    N.perimeter ps ≤ (x.leaves.map fun i => N.perimeter (v i)).sum := by
  have := nested_perimeter ok hv N (F := (-1, x, ps) :: x.leaves.map fun i => (1, .operand i, v i)) (by
    intro t ht
    rcases List.mem_cons.1 ht with rfl | ht
    · exact hx
    · obtain ⟨i, -, rfl⟩ := List.mem_map.1 ht
      exact .operand i) fun w w' => by
    rw [List.map_cons, List.sum_cons, List.map_map]
    simp only [Function.comp_def, one_mul, Expression.holds]
    have key : ∀ y : Expression, (if y.holds w ≠ y.holds w' then (1 : ℝ) else 0) ≤
        (y.leaves.map fun i => if w i ≠ w' i then (1 : ℝ) else 0).sum := by
      intro y
      induction y with
      | operand i => simp only [Expression.holds, Expression.leaves, List.map_cons, List.map_nil, List.sum_cons, List.sum_nil, add_zero]; exact le_rfl
      | apply k a b iha ihb =>
        simp only [Expression.leaves, List.map_append, List.sum_append]
        refine le_trans ?_ (add_le_add iha ihb)
        simp only [Expression.holds]
        rcases Bool.eq_false_or_eq_true (a.holds w) with p | p <;> rcases Bool.eq_false_or_eq_true (b.holds w) with q | q <;>
          rcases Bool.eq_false_or_eq_true (a.holds w') with p' | p' <;> rcases Bool.eq_false_or_eq_true (b.holds w') with q' | q' <;>
          cases k <;> norm_num [Operation.holds, p, q, p', q']
    rw [neg_one_mul, neg_add_eq_sub]
    convert sub_nonneg.2 (key x)
    exact if_congr Iff.rfl rfl rfl
  rw [List.map_cons, List.sum_cons, List.map_map] at this
  simp only [Function.comp_def, one_mul] at this
  linarith

end

section

variable (N : Length) {o : Orient} (ok : OrientOk o) {tb : TieBreak} {a b : List Polygon} (va : ValidPolygons a) (vb : ValidPolygons b)

include ok va vb

/-- **C79** Union and intersection together do not have longer contours than both operands together. -/
theorem perimeter_union_intersection {g1 g2 : Geometry} (h1 : Operation.union.call o tb a b = .ok g1)
    (h2 : Operation.intersection.call o tb a b = .ok g2) :
    N.perimeter g1.polygons + N.perimeter g2.polygons ≤ N.perimeter a + N.perimeter b := by
  have := nested_perimeter ok (tb := tb) (operands_valid va vb vb) N
    (F := [(-1, .apply .union (.operand 0) (.operand 1), g1.polygons), (-1, .apply .intersection (.operand 0) (.operand 1), g2.polygons),
      (1, .operand 0, a), (1, .operand 1, b)]) (by
        simp only [List.mem_cons, List.not_mem_nil, or_false]
        rintro t (rfl | rfl | rfl | rfl)
        · exact .apply .union (.operand 0) (.operand 1) trivial h1
        · exact .apply .intersection (.operand 0) (.operand 1) ⟨va, vb⟩ h2
        · exact .operand 0
        · exact .operand 1) fun w w' => by
    simp only [List.map_cons, List.map_nil, List.sum_cons, List.sum_nil, Expression.holds, Operation.holds]
    rcases Bool.eq_false_or_eq_true (w 0) with p | p <;> rcases Bool.eq_false_or_eq_true (w 1) with q | q <;>
      rcases Bool.eq_false_or_eq_true (w' 0) with p' | p' <;> rcases Bool.eq_false_or_eq_true (w' 1) with q' | q' <;> norm_num [p, q, p', q']
  simp only [List.map_cons, List.map_nil, List.sum_cons, List.sum_nil] at this
  linarith

/-- **C79** Both differences together do not have longer contours than both operands together. -/
theorem perimeter_differences {g1 g2 : Geometry} (h1 : Operation.difference.call o tb a b = .ok g1)
    (h2 : Operation.difference.call o tb b a = .ok g2) :
    N.perimeter g1.polygons + N.perimeter g2.polygons ≤ N.perimeter a + N.perimeter b := by
  have := nested_perimeter ok (tb := tb) (operands_valid va vb vb) N
    (F := [(-1, .apply .difference (.operand 0) (.operand 1), g1.polygons), (-1, .apply .difference (.operand 1) (.operand 0), g2.polygons),
      (1, .operand 0, a), (1, .operand 1, b)]) (by
        simp only [List.mem_cons, List.not_mem_nil, or_false]
        rintro t (rfl | rfl | rfl | rfl)
        · exact .apply .difference (.operand 0) (.operand 1) vb h1
        · exact .apply .difference (.operand 1) (.operand 0) va h2
        · exact .operand 0
        · exact .operand 1) fun w w' => by
    simp only [List.map_cons, List.map_nil, List.sum_cons, List.sum_nil, Expression.holds, Operation.holds]
    rcases Bool.eq_false_or_eq_true (w 0) with p | p <;> rcases Bool.eq_false_or_eq_true (w 1) with q | q <;>
      rcases Bool.eq_false_or_eq_true (w' 0) with p' | p' <;> rcases Bool.eq_false_or_eq_true (w' 1) with q' | q' <;> norm_num [p, q, p', q']
  simp only [List.map_cons, List.map_nil, List.sum_cons, List.sum_nil] at this
  linarith

/-- **C79** The contours of the symmetric difference are as long as those of both operands together, without twice what they have in common, `c`
(for example the intersection of the edges as multisegments). -/
theorem perimeter_symmetricDifference {g : Geometry} (h : Operation.symmetricDifference.call o tb a b = .ok g) {c : List Segment} (hc : NoOverlap c)
    {Z : Set Point} (hZ : Z.Finite) (hp : ∀ m, m ∉ Z →
      (m ∈ segsPts c ↔ m ∈ segsPts (a.flatMap Polygon.edges) ∧ m ∈ segsPts (b.flatMap Polygon.edges))) :
    N.perimeter g.polygons + 2 * N.total c = N.perimeter a + N.perimeter b := by
  classical
  have hF : ∀ t ∈ [((1 : ℝ), Expression.apply .symmetricDifference (.operand 0) (.operand 1), g.polygons), (1, .operand 0, a), (1, .operand 1, b)],
      t.2.1.Evaluates o tb (operands a b b) t.2.2 := by
    simp only [List.mem_cons, List.not_mem_nil, or_false]
    rintro t (rfl | rfl | rfl)
    · exact .apply .symmetricDifference (.operand 0) (.operand 1) trivial h
    · exact .operand 0
    · exact .operand 1
  obtain ⟨Y, hY, key⟩ := nested_changes ok (operands_valid va vb vb) hF
  have := Length.valuation_eq N (F := [(1, g.polygons.flatMap Polygon.edges), (2, c), (-1, a.flatMap Polygon.edges), (-1, b.flatMap Polygon.edges)]) (by
    simp only [List.mem_cons, List.not_mem_nil, or_false]
    rintro p (rfl | rfl | rfl | rfl)
    · exact (nested_drawn ok (operands_valid va vb vb) (hF _ List.mem_cons_self)).noOverlap
    · exact hc
    · exact va.noOverlap
    · exact vb.noOverlap) (hY.union hZ) (by
      intro m hm
      obtain ⟨w, w', hw⟩ := key m fun h => hm (Or.inl h)
      have k1 := hw _ List.mem_cons_self
      have k2 := hw _ (List.mem_cons_of_mem _ List.mem_cons_self)
      have k3 := hw _ (List.mem_cons_of_mem _ (List.mem_cons_of_mem _ List.mem_cons_self))
      have k4 := hp m fun h => hm (Or.inr h)
      simp only [Expression.holds, Operation.holds] at k1 k2 k3
      rw [k2, k3] at k4
      simp only [List.map_cons, List.map_nil, List.sum_cons, List.sum_nil, if_congr k1 rfl rfl, if_congr k2 rfl rfl, if_congr k3 rfl rfl,
        if_congr k4 rfl rfl]
      clear * -
      cases w 0 <;> cases w 1 <;> cases w' 0 <;> cases w' 1 <;> norm_num)
  simp only [List.map_cons, List.map_nil, List.sum_cons, List.sum_nil] at this
  unfold Length.perimeter
  linarith

/-- **C79** All operations succeed.  The contours of the union, the intersection and both differences are together as long as those of the symmetric
difference and both operands.  None of the results has longer contours than both operands together. -/
theorem perimeter_all (tb : TieBreak) : ∃ u i d d' s, Operation.union.call o tb a b = .ok u ∧ Operation.intersection.call o tb a b = .ok i ∧
    Operation.difference.call o tb a b = .ok d ∧ Operation.difference.call o tb b a = .ok d' ∧
    Operation.symmetricDifference.call o tb a b = .ok s ∧
    N.perimeter u.polygons + N.perimeter i.polygons + N.perimeter d.polygons + N.perimeter d'.polygons =
      N.perimeter s.polygons + N.perimeter a + N.perimeter b ∧
    N.perimeter u.polygons + N.perimeter i.polygons ≤ N.perimeter a + N.perimeter b ∧
    N.perimeter d.polygons + N.perimeter d'.polygons ≤ N.perimeter a + N.perimeter b ∧
    N.perimeter s.polygons ≤ N.perimeter a + N.perimeter b := by
  obtain ⟨u, hu, -⟩ := Operation.call_drawn ok tb .union va.drawn vb.drawn trivial
  obtain ⟨i, hi, -⟩ := Operation.call_drawn ok tb .intersection va.drawn vb.drawn ⟨va, vb⟩
  obtain ⟨d, hd, -⟩ := Operation.call_drawn ok tb .difference va.drawn vb.drawn vb
  obtain ⟨d', hd', -⟩ := Operation.call_drawn ok tb .difference vb.drawn va.drawn va
  obtain ⟨s, hs, -⟩ := Operation.call_drawn ok tb .symmetricDifference va.drawn vb.drawn trivial
  have ov := operands_valid va vb vb
  refine ⟨u, i, d, d', s, hu, hi, hd, hd', hs, ?_, perimeter_union_intersection N ok va vb hu hi, perimeter_differences N ok va vb hd hd', ?_⟩
  · have := nested_perimeter_eq ok (tb := tb) ov N
      (F := [(1, .apply .union (.operand 0) (.operand 1), u.polygons), (1, .apply .intersection (.operand 0) (.operand 1), i.polygons),
        (1, .apply .difference (.operand 0) (.operand 1), d.polygons), (1, .apply .difference (.operand 1) (.operand 0), d'.polygons),
        (-1, .apply .symmetricDifference (.operand 0) (.operand 1), s.polygons), (-1, .operand 0, a), (-1, .operand 1, b)]) (by
          simp only [List.mem_cons, List.not_mem_nil, or_false]
          rintro t (rfl | rfl | rfl | rfl | rfl | rfl | rfl)
          · exact .apply .union (.operand 0) (.operand 1) trivial hu
          · exact .apply .intersection (.operand 0) (.operand 1) ⟨va, vb⟩ hi
          · exact .apply .difference (.operand 0) (.operand 1) vb hd
          · exact .apply .difference (.operand 1) (.operand 0) va hd'
          · exact .apply .symmetricDifference (.operand 0) (.operand 1) trivial hs
          · exact .operand 0
          · exact .operand 1) fun w w' => by
      simp only [List.map_cons, List.map_nil, List.sum_cons, List.sum_nil, Expression.holds, Operation.holds]
      rcases Bool.eq_false_or_eq_true (w 0) with p | p <;> rcases Bool.eq_false_or_eq_true (w 1) with q | q <;>
      rcases Bool.eq_false_or_eq_true (w' 0) with p' | p' <;> rcases Bool.eq_false_or_eq_true (w' 1) with q' | q' <;> norm_num [p, q, p', q']
    simp only [List.map_cons, List.map_nil, List.sum_cons, List.sum_nil] at this
    linarith
  · have := nested_perimeter_le ok ov N (.apply .symmetricDifference (.operand 0) (.operand 1) trivial hs)
    simpa [Expression.leaves, operands] using this

/-- **C79** If the contours of the operands have finitely many common points only, then union and intersection together have contours as long as both
operands together, and so have both differences, and the symmetric difference. -/
theorem perimeter_crossing (tb : TieBreak) (hf : (segsPts (a.flatMap Polygon.edges) ∩ segsPts (b.flatMap Polygon.edges)).Finite) :
    ∃ u i d d' s, Operation.union.call o tb a b = .ok u ∧ Operation.intersection.call o tb a b = .ok i ∧
    Operation.difference.call o tb a b = .ok d ∧ Operation.difference.call o tb b a = .ok d' ∧
    Operation.symmetricDifference.call o tb a b = .ok s ∧
    N.perimeter u.polygons + N.perimeter i.polygons = N.perimeter a + N.perimeter b ∧
    N.perimeter d.polygons + N.perimeter d'.polygons = N.perimeter a + N.perimeter b ∧
    N.perimeter s.polygons = N.perimeter a + N.perimeter b := by
  obtain ⟨u, i, d, d', s, hu, hi, hd, hd', hs, e, l1, l2, -⟩ := perimeter_all N ok va vb tb
  have e' := perimeter_symmetricDifference N ok va vb hs (c := []) ⟨by simp, List.Pairwise.nil⟩ hf fun m hm => by
    refine ⟨fun h => ?_, fun h => absurd h hm⟩
    obtain ⟨s, hs, -⟩ := h
    exact absurd hs List.not_mem_nil
  have z : N.total [] = 0 := by simp [Length.total]
  rw [z] at e'
  exact ⟨u, i, d, d', s, hu, hi, hd, hd', hs, by linarith, by linarith, by linarith⟩

end

theorem total_same (N : Length) {a b : List Segment} (na : NoOverlap a) (nb : NoOverlap b) (h : segsPts a = segsPts b) : N.total a = N.total b := by
  classical
  have := Length.valuation_eq N (F := [(1, a), (-1, b)]) (by simp [na, nb]) Set.finite_empty fun q _ => by
    simp only [List.map_cons, List.map_nil, List.sum_cons, List.sum_nil, h]
    ring
  simp only [List.map_cons, List.map_nil, List.sum_cons, List.sum_nil] at this
  linarith

/-- **C79** The perimeters of valid polygons are determined by their points. -/
theorem perimeter_written (N : Length) {a b : List Polygon} (va : ValidPolygons a) (vb : ValidPolygons b) (h : polysPts a = polysPts b) :
    N.perimeter a = N.perimeter b := by
  have same : ∀ q, q ∉ segsPts (a.flatMap Polygon.edges ++ b.flatMap Polygon.edges) →
      (Inside (a.flatMap Polygon.edges) q ↔ Inside (b.flatMap Polygon.edges) q) := fun q hq => by
    rw [← va.mem_off (off_append hq).1, ← vb.mem_off (off_append hq).2, h]
  have pr : ∀ s ∈ a.flatMap Polygon.edges ++ b.flatMap Polygon.edges, s.Proper := fun s hs =>
    (List.mem_append.1 hs).elim (va.noOverlap.1 s) (vb.noOverlap.1 s)
  exact total_same N va.noOverlap vb.noOverlap (Set.Subset.antisymm
    (segsPts_sub_of_inside va.noOverlap va.drawn.even vb.noOverlap vb.drawn.even pr same)
    (segsPts_sub_of_inside vb.noOverlap vb.drawn.even va.noOverlap va.drawn.even pr fun q hq => (same q hq).symm))

/-- **C79** Results have contours of a positive length, unless they are empty. -/
theorem perimeter_pos {o : Orient} (ok : OrientOk o) {tb : TieBreak} {v : ℕ → List Polygon} (hv : ∀ i, ValidPolygons (v i)) {x : Expression}
    {ps : List Polygon} (hx : x.Evaluates o tb v ps) : 0 ≤ Length.euclidean.perimeter ps ∧ (Length.euclidean.perimeter ps = 0 ↔ ps = []) := by
  have d := nested_drawn ok hv hx
  obtain ⟨h1, h2⟩ := total_pos d.noOverlap.1
  refine ⟨h1, h2.trans ⟨fun h => ?_, fun h => by rw [h]; rfl⟩⟩
  by_contra hne
  obtain ⟨e, he⟩ := exists_polygon_edge d.border hne
  rw [h] at he
  exact absurd he List.not_mem_nil

/-- A triangle and two triangles, the symmetric difference of which has a hole at the wrong polygon. -/
example (tb : TieBreak) : ∃ u i d d' s, Operation.union.call (Classical.choose exists_orient) tb [exTriangle] exTriangles = .ok u ∧
    Operation.intersection.call (Classical.choose exists_orient) tb [exTriangle] exTriangles = .ok i ∧
    Operation.difference.call (Classical.choose exists_orient) tb [exTriangle] exTriangles = .ok d ∧
    Operation.difference.call (Classical.choose exists_orient) tb exTriangles [exTriangle] = .ok d' ∧
    Operation.symmetricDifference.call (Classical.choose exists_orient) tb [exTriangle] exTriangles = .ok s ∧
    Length.euclidean.perimeter u.polygons + Length.euclidean.perimeter i.polygons + Length.euclidean.perimeter d.polygons +
      Length.euclidean.perimeter d'.polygons = Length.euclidean.perimeter s.polygons + Length.euclidean.perimeter [exTriangle] +
      Length.euclidean.perimeter exTriangles := by
  obtain ⟨u, i, d, d', s, h1, h2, h3, h4, h5, h6, -⟩ := perimeter_all Length.euclidean (Classical.choose_spec exists_orient)
    exTriangle_valid.validPolygons exTriangles_valid tb
  exact ⟨u, i, d, d', s, h1, h2, h3, h4, h5, h6⟩

/-- squares side by side -/
def exLeftSquare : Polygon := ⟨squareContour 0 0 1, []⟩

/-- the other one -/
def exRightSquare : Polygon := ⟨squareContour 1 0 1, []⟩

/-- The contours of the union may be shorter: squares side by side have 8 sides, their union has a perimeter of 6. -/
example (o : Orient) : ∃ g, Operation.union.call o TieBreak.id [exLeftSquare] [exRightSquare] = .ok g ∧
    Length.taxicab.perimeter g.polygons = 6 ∧ Length.taxicab.perimeter [exLeftSquare] + Length.taxicab.perimeter [exRightSquare] = 8 := by
  refine ⟨.polygon ⟨⟨[⟨0, 0⟩, ⟨2, 0⟩, ⟨2, 1⟩, ⟨0, 1⟩]⟩, []⟩, ?_, ?_, ?_⟩
  · show unitePolygons TieBreak.id exLeftSquare exRightSquare = _
    decide +kernel
  · norm_num [Length.perimeter, Length.total, Length.segment, Length.taxicab, Geometry.polygons, Polygon.edges, Contour.edges]
  · norm_num [Length.perimeter, Length.total, Length.segment, Length.taxicab, Polygon.edges, Contour.edges, exLeftSquare, exRightSquare, squareContour]

/-- Squares which cross: the union has a perimeter of 12, the intersection one of 4. -/
example (tb : TieBreak) : ∃ u i, Operation.union.call (Classical.choose exists_orient) tb [⟨squareContour 0 0 2, []⟩] [⟨squareContour 1 1 2, []⟩] = .ok u ∧
    Operation.intersection.call (Classical.choose exists_orient) tb [⟨squareContour 0 0 2, []⟩] [⟨squareContour 1 1 2, []⟩] = .ok i ∧
    Length.taxicab.perimeter u.polygons + Length.taxicab.perimeter i.polygons = 16 := by
  have va : ValidPolygons [⟨squareContour 0 0 2, []⟩] := (squareContour_simple (by norm_num)).validPolygon.validPolygons
  have vb : ValidPolygons [⟨squareContour 1 1 2, []⟩] := (squareContour_simple (by norm_num)).validPolygon.validPolygons
  obtain ⟨u, i, d, d', s, hu, hi, -, -, -, e, -⟩ := perimeter_crossing Length.taxicab (Classical.choose_spec exists_orient) va vb tb (by
    refine (Set.toFinite {(⟨2, 1⟩ : Point), ⟨1, 2⟩}).subset ?_
    rintro q ⟨h1, h2⟩
    simp only [List.flatMap_cons, List.flatMap_nil, List.append_nil, Polygon.edges] at h1 h2
    rw [square_segsPts (by norm_num)] at h1 h2
    rcases h1 with ⟨a1, a2, a3⟩ | ⟨a1, a2, a3⟩ | ⟨a1, a2, a3⟩ | ⟨a1, a2, a3⟩ <;>
      rcases h2 with ⟨b1, b2, b3⟩ | ⟨b1, b2, b3⟩ | ⟨b1, b2, b3⟩ | ⟨b1, b2, b3⟩ <;>
      first
      | (exfalso; linarith)
      | exact Or.inl (Point.ext' (by simp only; linarith) (by simp only; linarith))
      | exact Or.inr (Point.ext' (by simp only; linarith) (by simp only; linarith)))
  refine ⟨u, i, hu, hi, e.trans ?_⟩
  norm_num [Length.perimeter, Length.total, Length.segment, Length.taxicab, Polygon.edges, Contour.edges, squareContour]

/-- The law says something: the contours of unions and those of operands do not add up so. -/
example : ¬ ∀ w w' : ℕ → Bool, 0 ≤ (([(1, Expression.apply .union (.operand 0) (.operand 1), ([] : List Polygon)),
    (-1, .operand 0, [])] : List (ℝ × Expression × List Polygon)).map
      fun t => t.1 * if t.2.1.holds w ≠ t.2.1.holds w' then 1 else 0).sum := by
  intro h
  have := h (fun i => decide (i = 1)) fun _ => true
  norm_num [Expression.holds, Operation.holds] at this

end Clipping

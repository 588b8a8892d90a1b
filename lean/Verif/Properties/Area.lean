import Verif.Lemmas.Area.Laws
import Verif.Properties.Laws
import Verif.Properties.Regions
import Verif.Properties.Unique
import Verif.Properties.Detached

/-!
# C63: areas of results add up

The area of polygons is computed from the vertices by the shoelace formula (`Spec/Area.lean`); nothing about measures is used.
-/

namespace Clipping

theorem Outlines.mem_valid {op : Bool → Bool → Bool} {a b ps : List Polygon} (h : Outlines op (a.flatMap Polygon.edges) (b.flatMap Polygon.edges) ps)
    (va : ValidPolygons a) (vb : ValidPolygons b) (v : ValidPolygons ps) {q : Point}
    (hq : q ∉ segsPts (a.flatMap Polygon.edges ++ b.flatMap Polygon.edges)) [Decidable (q ∈ polysPts a)] [Decidable (q ∈ polysPts b)] :
    q ∈ polysPts ps ↔ op (decide (q ∈ polysPts a)) (decide (q ∈ polysPts b)) = true := by
  rw [v.mem_off fun k => hq (h.within k), h.inside q hq]
  unfold Combined
  rw [decide_eq_decide.2 (va.mem_off (off_append hq).1), decide_eq_decide.2 (vb.mem_off (off_append hq).2)]

/-- **C63** Whatever holds for sums of truth values holds for areas: if combinations of operands, with weights, never add up to something
negative in a point, then the areas of the results do not. -/
theorem expression_area {o : Orient} (ok : OrientOk o) {tb : TieBreak} {v : ℕ → List Polygon} (hv : ∀ i, ValidPolygons (v i))
    {F : List (ℚ × Expression × List Polygon)} (hF : ∀ t ∈ F, t.2.1.Yields o tb v t.2.2 ∧ ValidPolygons t.2.2)
    (h : ∀ w : ℕ → Bool, 0 ≤ (F.map fun t => t.1 * if t.2.1.holds w then 1 else 0).sum) :
    0 ≤ (F.map fun t => t.1 * polysArea t.2.2).sum := expression_valuation ok hv hF h

/-- **C63** The same for equations. -/
theorem expression_area_eq {o : Orient} (ok : OrientOk o) {tb : TieBreak} {v : ℕ → List Polygon} (hv : ∀ i, ValidPolygons (v i))
    {F : List (ℚ × Expression × List Polygon)} (hF : ∀ t ∈ F, t.2.1.Yields o tb v t.2.2 ∧ ValidPolygons t.2.2)
    (h : ∀ w : ℕ → Bool, (F.map fun t => t.1 * if t.2.1.holds w then 1 else 0).sum = 0) :
    (F.map fun t => t.1 * polysArea t.2.2).sum = 0 := by
  refine le_antisymm ?_ (expression_valuation ok hv hF fun w => (h w).ge)
  have k := expression_valuation ok hv (F := F.map fun t => (-1 * t.1, t.2)) (fun t ht => by
    obtain ⟨t, ht', rfl⟩ := List.mem_map.1 ht
    exact hF t ht') fun w => by
      rw [List.map_map, show ((fun t : ℚ × Expression × List Polygon => t.1 * if t.2.1.holds w then 1 else 0) ∘ fun t : ℚ × Expression × List Polygon => (-1 * t.1, t.2)) =
        fun t => -1 * (t.1 * if t.2.1.holds w then 1 else 0) from funext fun t => by simp only [Function.comp]; ring, mul_sum, h w]
      norm_num
  rw [List.map_map, show ((fun t : ℚ × Expression × List Polygon => t.1 * polysArea t.2.2) ∘ fun t : ℚ × Expression × List Polygon => (-1 * t.1, t.2)) =
    fun t => -1 * (t.1 * polysArea t.2.2) from funext fun t => by simp only [Function.comp]; ring, mul_sum] at k
  linarith

section

variable {o : Orient} (ok : OrientOk o) {tb : TieBreak} {a b c : List Polygon} (va : ValidPolygons a) (vb : ValidPolygons b)
  (vc : ValidPolygons c)

include ok va vb in
/-- **C63** The areas of union and intersection add up to the areas of the operands. -/
theorem area_union_intersection {g1 g2 : Geometry} (h1 : Operation.union.call o tb a b = .ok g1) (v1 : ValidPolygons g1.polygons)
    (h2 : Operation.intersection.call o tb a b = .ok g2) (v2 : ValidPolygons g2.polygons) :
    polysArea g1.polygons + polysArea g2.polygons = polysArea a + polysArea b := by
  have := expression_area_eq ok (tb := tb) (operands_valid va vb vb)
    (F := [(1, .apply .union (.operand 0) (.operand 1), g1.polygons), (1, .apply .intersection (.operand 0) (.operand 1), g2.polygons),
      (-1, .operand 0, a), (-1, .operand 1, b)]) (by
        simp only [List.mem_cons, List.not_mem_nil, or_false]
        rintro t (rfl | rfl | rfl | rfl)
        · exact ⟨.apply .union (.operand 0) (.operand 1) va vb h1, v1⟩
        · exact ⟨.apply .intersection (.operand 0) (.operand 1) va vb h2, v2⟩
        · exact ⟨.operand 0, va⟩
        · exact ⟨.operand 1, vb⟩) fun w => by
          simp only [List.map_cons, List.map_nil, List.sum_cons, List.sum_nil, Expression.holds, Operation.holds]
          rcases Bool.eq_false_or_eq_true (w 0) with p | p <;> rcases Bool.eq_false_or_eq_true (w 1) with q | q <;> norm_num [p, q]
  simp only [List.map_cons, List.map_nil, List.sum_cons, List.sum_nil] at this
  linarith

include ok va vb in
/-- **C63** The areas of difference and intersection add up to the area of the operand. -/
theorem area_difference_intersection {g1 g2 : Geometry} (h1 : Operation.difference.call o tb a b = .ok g1) (v1 : ValidPolygons g1.polygons)
    (h2 : Operation.intersection.call o tb a b = .ok g2) (v2 : ValidPolygons g2.polygons) :
    polysArea g1.polygons + polysArea g2.polygons = polysArea a := by
  have := expression_area_eq ok (tb := tb) (operands_valid va vb vb)
    (F := [(1, .apply .difference (.operand 0) (.operand 1), g1.polygons), (1, .apply .intersection (.operand 0) (.operand 1), g2.polygons),
      (-1, .operand 0, a)]) (by
        simp only [List.mem_cons, List.not_mem_nil, or_false]
        rintro t (rfl | rfl | rfl)
        · exact ⟨.apply .difference (.operand 0) (.operand 1) va vb h1, v1⟩
        · exact ⟨.apply .intersection (.operand 0) (.operand 1) va vb h2, v2⟩
        · exact ⟨.operand 0, va⟩) fun w => by
          simp only [List.map_cons, List.map_nil, List.sum_cons, List.sum_nil, Expression.holds, Operation.holds]
          rcases Bool.eq_false_or_eq_true (w 0) with p | p <;> rcases Bool.eq_false_or_eq_true (w 1) with q | q <;> norm_num [p, q]
  simp only [List.map_cons, List.map_nil, List.sum_cons, List.sum_nil] at this
  linarith

include ok va vb in
/-- **C63** The area of the symmetric difference is the area of the union without the area of the intersection. -/
theorem area_symmetricDifference {g1 g2 g3 : Geometry} (h1 : Operation.symmetricDifference.call o tb a b = .ok g1)
    (v1 : ValidPolygons g1.polygons) (h2 : Operation.intersection.call o tb a b = .ok g2) (v2 : ValidPolygons g2.polygons)
    (h3 : Operation.union.call o tb a b = .ok g3) (v3 : ValidPolygons g3.polygons) :
    polysArea g1.polygons = polysArea g3.polygons - polysArea g2.polygons := by
  have := expression_area_eq ok (tb := tb) (operands_valid va vb vb)
    (F := [(1, .apply .symmetricDifference (.operand 0) (.operand 1), g1.polygons),
      (1, .apply .intersection (.operand 0) (.operand 1), g2.polygons),
      (-1, .apply .union (.operand 0) (.operand 1), g3.polygons)]) (by
        simp only [List.mem_cons, List.not_mem_nil, or_false]
        rintro t (rfl | rfl | rfl)
        · exact ⟨.apply .symmetricDifference (.operand 0) (.operand 1) va vb h1, v1⟩
        · exact ⟨.apply .intersection (.operand 0) (.operand 1) va vb h2, v2⟩
        · exact ⟨.apply .union (.operand 0) (.operand 1) va vb h3, v3⟩) fun w => by
          simp only [List.map_cons, List.map_nil, List.sum_cons, List.sum_nil, Expression.holds, Operation.holds]
          rcases Bool.eq_false_or_eq_true (w 0) with p | p <;> rcases Bool.eq_false_or_eq_true (w 1) with q | q <;> norm_num [p, q]
  simp only [List.map_cons, List.map_nil, List.sum_cons, List.sum_nil] at this
  linarith

include ok va vb vc in
/-- **C63** Inclusion and exclusion of three operands. -/
theorem area_three {g1 g2 g3 g4 g5 g6 : Geometry} (h1 : Operation.union.call o tb a b = .ok g1) (v1 : ValidPolygons g1.polygons)
    (h2 : Operation.union.call o tb g1.polygons c = .ok g2) (v2 : ValidPolygons g2.polygons)
    (h3 : Operation.intersection.call o tb a b = .ok g3) (v3 : ValidPolygons g3.polygons)
    (h4 : Operation.intersection.call o tb b c = .ok g4) (v4 : ValidPolygons g4.polygons)
    (h5 : Operation.intersection.call o tb a c = .ok g5) (v5 : ValidPolygons g5.polygons)
    (h6 : Operation.intersection.call o tb g3.polygons c = .ok g6) (v6 : ValidPolygons g6.polygons) :
    polysArea g2.polygons = polysArea a + polysArea b + polysArea c - polysArea g3.polygons - polysArea g4.polygons - polysArea g5.polygons +
      polysArea g6.polygons := by
  have := expression_area_eq ok (tb := tb) (operands_valid va vb vc)
    (F := [(1, .apply .union (.apply .union (.operand 0) (.operand 1)) (.operand 2), g2.polygons),
      (-1, .operand 0, a), (-1, .operand 1, b), (-1, .operand 2, c),
      (1, .apply .intersection (.operand 0) (.operand 1), g3.polygons), (1, .apply .intersection (.operand 1) (.operand 2), g4.polygons),
      (1, .apply .intersection (.operand 0) (.operand 2), g5.polygons),
      (-1, .apply .intersection (.apply .intersection (.operand 0) (.operand 1)) (.operand 2), g6.polygons)]) (by
        simp only [List.mem_cons, List.not_mem_nil, or_false]
        rintro t (rfl | rfl | rfl | rfl | rfl | rfl | rfl | rfl)
        · exact ⟨.apply .union (.apply .union (.operand 0) (.operand 1) va vb h1) (.operand 2) v1 vc h2, v2⟩
        · exact ⟨.operand 0, va⟩
        · exact ⟨.operand 1, vb⟩
        · exact ⟨.operand 2, vc⟩
        · exact ⟨.apply .intersection (.operand 0) (.operand 1) va vb h3, v3⟩
        · exact ⟨.apply .intersection (.operand 1) (.operand 2) vb vc h4, v4⟩
        · exact ⟨.apply .intersection (.operand 0) (.operand 2) va vc h5, v5⟩
        · exact ⟨.apply .intersection (.apply .intersection (.operand 0) (.operand 1) va vb h3) (.operand 2) v3 vc h6, v6⟩) fun w => by
          simp only [List.map_cons, List.map_nil, List.sum_cons, List.sum_nil, Expression.holds, Operation.holds]
          rcases Bool.eq_false_or_eq_true (w 0) with p | p <;> rcases Bool.eq_false_or_eq_true (w 1) with q | q <;>
            rcases Bool.eq_false_or_eq_true (w 2) with r | r <;> norm_num [p, q, r]
  simp only [List.map_cons, List.map_nil, List.sum_cons, List.sum_nil] at this
  linarith

include va vb in
/-- **C63** Polygons within others do not have a greater area. -/
theorem area_mono (h : polysPts a ⊆ polysPts b) : polysArea a ≤ polysArea b := polysArea_mono va vb h

include va vb in
/-- **C63** The area does not depend on how polygons are written. -/
theorem area_written (h : polysPts a = polysPts b) : polysArea a = polysArea b :=
  le_antisymm (polysArea_mono va vb h.subset) (polysArea_mono vb va h.superset)

include va in
/-- **C63** Polygons have positive areas. -/
theorem area_pos : 0 ≤ polysArea a ∧ (polysArea a = 0 ↔ a = []) := by
  by_cases k : a = []
  · subst k
    simp [polysArea]
  · have := polysArea_pos va k
    exact ⟨this.le, iff_of_false this.ne' k⟩

include ok va vb in
/-- **C63** Operands have no common interior exactly if the areas add up in the union. -/
theorem area_disjoint {g1 g2 : Geometry} (h1 : Operation.union.call o tb a b = .ok g1) (v1 : ValidPolygons g1.polygons)
    (h2 : Operation.intersection.call o tb a b = .ok g2) (v2 : ValidPolygons g2.polygons) :
    polysArea g1.polygons ≤ polysArea a + polysArea b ∧ (polysArea g1.polygons = polysArea a + polysArea b ↔ g2.polygons = []) := by
  have e := area_union_intersection ok va vb h1 v1 h2 v2
  obtain ⟨n, z⟩ := area_pos v2
  refine ⟨by linarith, ?_⟩
  rw [← z]
  constructor <;> intro <;> linarith

include ok va vb in
/-- **C63** An operand is contained in the other one exactly if the intersection has the same area. -/
theorem area_contained {g1 g2 : Geometry} (h1 : Operation.difference.call o tb a b = .ok g1) (v1 : ValidPolygons g1.polygons)
    (h2 : Operation.intersection.call o tb a b = .ok g2) (v2 : ValidPolygons g2.polygons) :
    polysArea g2.polygons ≤ polysArea a ∧ (polysArea g2.polygons = polysArea a ↔ g1.polygons = []) := by
  have e := area_difference_intersection ok va vb h1 v1 h2 v2
  obtain ⟨n, z⟩ := area_pos v1
  refine ⟨by linarith, ?_⟩
  rw [← z]
  constructor <;> intro <;> linarith

include ok va vb in
/-- **C63** All of this for operands whose contours do not touch each other within an operand: nothing has to be known of the results. -/
theorem area_detached (tb : TieBreak) (da : Detached a) (db : Detached b) : ∃ g1 g2 g3 g4, Operation.union.call o tb a b = .ok g1 ∧
    Operation.intersection.call o tb a b = .ok g2 ∧ Operation.difference.call o tb a b = .ok g3 ∧
    Operation.symmetricDifference.call o tb a b = .ok g4 ∧
    polysArea g1.polygons + polysArea g2.polygons = polysArea a + polysArea b ∧
    polysArea g3.polygons + polysArea g2.polygons = polysArea a ∧
    polysArea g4.polygons + 2 * polysArea g2.polygons = polysArea a + polysArea b ∧
    (polysArea g2.polygons = 0 ↔ g2.polygons = []) := by
  obtain ⟨g1, h1, -⟩ := Operation.call_outlines ok tb .union va vb
  obtain ⟨g2, h2, -⟩ := Operation.call_outlines ok tb .intersection va vb
  obtain ⟨g3, h3, -⟩ := Operation.call_outlines ok tb .difference va vb
  obtain ⟨g4, h4, -⟩ := Operation.call_outlines ok tb .symmetricDifference va vb
  have v1 := Operation.call_valid ok tb .union va vb da db h1
  have v2 := Operation.call_valid ok tb .intersection va vb da db h2
  have v3 := Operation.call_valid ok tb .difference va vb da db h3
  have v4 := Operation.call_valid ok tb .symmetricDifference va vb da db h4
  have e1 := area_union_intersection ok va vb h1 v1 h2 v2
  have e2 := area_difference_intersection ok va vb h3 v3 h2 v2
  have e3 := area_symmetricDifference ok va vb h4 v4 h2 v2 h1 v1
  exact ⟨g1, g2, g3, g4, h1, h2, h3, h4, e1, e2, by linarith, (area_pos v2).2⟩

end

/-- **C63** Affine maps multiply areas by the absolute value of their determinant. -/
theorem area_affine (T : Affine) (ps : List Polygon) : polysArea (ps.map T.polygon) = |T.a * T.d - T.b * T.c| * polysArea ps :=
  T.polysArea_map ps

/-- **C63** Regions: the area of the intersection of two regions, and of their union as polygons, add up to their areas. -/
theorem area_regions {o : Orient} (ok : OrientOk o) (tb : TieBreak) {a b : Contour} (va : SimpleContour a) (vb : SimpleContour b) :
    ∃ g1 g2, unitePolygons tb ⟨a, []⟩ ⟨b, []⟩ = .ok g1 ∧ intersectRegions o tb a b = .ok g2 ∧
      polysArea g1.polygons + polysArea g2.polygons = a.area + b.area := by
  have pa := va.validPolygon.validPolygons
  have pb := vb.validPolygon.validPolygons
  obtain ⟨g1, g2, -, -, h1, h2, -, -, e, -⟩ := area_detached ok pa pb tb (detached_single rfl) (detached_single rfl)
  obtain ⟨g, h, -, v, -, hp⟩ := intersectRegions_exact ok tb va vb
  obtain ⟨g', h', -, v', hp'⟩ := intersectPolygons_detached ok tb va.validPolygon vb.validPolygon (detached_single rfl) (detached_single rfl)
  obtain rfl : g' = g2 := Except.ok.inj (h'.symm.trans h2)
  refine ⟨g1, g, h1, h, ?_⟩
  rw [area_written v v' ?_, e]
  · simp [polysArea, Polygon.area]
  · rw [hp, hp', polygon_pts_eq, polygon_pts_eq]
    simp only [Selected.RegionsInv.region_edges]

/-- **C63** Whatever polygons have the points of the union and of the intersection, up to points on segments: their areas add up. -/
theorem area_of_points {a b u i : List Polygon} (va : ValidPolygons a) (vb : ValidPolygons b) (vu : ValidPolygons u) (vi : ValidPolygons i)
    (Z : List Segment) (hu : ∀ q, q ∉ segsPts Z → (q ∈ polysPts u ↔ q ∈ polysPts a ∨ q ∈ polysPts b))
    (hi : ∀ q, q ∉ segsPts Z → (q ∈ polysPts i ↔ q ∈ polysPts a ∧ q ∈ polysPts b)) :
    polysArea u + polysArea i = polysArea a + polysArea b := by
  classical
  have key : ∀ w : ℚ, 0 ≤ (([(w, u), (w, i), (-w, a), (-w, b)] : List (ℚ × List Polygon)).map fun p => p.1 * polysArea p.2).sum := fun w =>
    polysArea_valuation (by simp [va, vb, vu, vi]) Z fun q hz _ => by
      simp only [List.map_cons, List.map_nil, List.sum_cons, List.sum_nil]
      have h1 := hu q hz
      have h2 := hi q hz
      by_cases k : q ∈ polysPts a <;> by_cases l : q ∈ polysPts b <;> simp only [k, l, or_true, true_or, or_false, and_true, and_false, iff_true, iff_false] at h1 h2 <;>
        simp [h1, h2, k, l]
  have k1 := key 1
  have k2 := key (-1)
  simp only [List.map_cons, List.map_nil, List.sum_cons, List.sum_nil] at k1 k2
  linarith

/-- **C63** Complete intersections: points and segments do not count, the areas of their polygons and of the union add up to the areas of the
operands. -/
theorem area_complete {o : Orient} (ok : OrientOk o) {tb : TieBreak} {a b : List Polygon} (va : ValidPolygons a) (vb : ValidPolygons b)
    {g1 g2 : Geometry} (h1 : Operation.union.call o tb a b = .ok g1) (v1 : ValidPolygons g1.polygons)
    (C : CompleteParts (polysPts a) (polysPts b) g2.discretePoints g2.linearSegments (polysPts g2.shapedPolygons))
    (v2 : ValidPolygons g2.shapedPolygons) :
    polysArea g1.polygons + polysArea g2.shapedPolygons = polysArea a + polysArea b := by
  classical
  obtain ⟨g, h, O⟩ := Operation.call_outlines ok tb .union va vb
  obtain rfl : g = g1 := Except.ok.inj (h.symm.trans h1)
  refine area_of_points va vb v1 v2 ((g2.discretePoints.map fun p => ⟨p, p⟩) ++ g2.linearSegments ++
    (a.flatMap Polygon.edges ++ b.flatMap Polygon.edges)) (fun q hq => ?_) fun q hq => ?_
  · have off := (off_append hq).2
    rw [O.mem_valid va vb v1 off]
    simp [Operation.holds]
  · rw [← C.all q]
    have off := off_append (off_append hq).1
    have n : q ∉ g2.discretePoints := fun k => off.1 ⟨_, List.mem_map.2 ⟨q, k, rfl⟩, Segment.start_mem _⟩
    tauto

/-- **C63** Multiregions: the area of the intersection of two multiregions, and of their union as polygons, add up to their areas. -/
theorem area_multiregions {o : Orient} (ok : OrientOk o) (tb : TieBreak) {a b : List Contour} (na : a ≠ []) (va : ValidRegions a)
    (nb : b ≠ []) (vb : ValidRegions b) {g1 : Geometry}
    (h1 : Operation.union.call o tb (regionPolygons a) (regionPolygons b) = .ok g1) (v1 : ValidPolygons g1.polygons) :
    ∃ g2, intersectMultiregions o tb a b = .ok g2 ∧
      polysArea g1.polygons + polysArea g2.polygons = (a.map Contour.area).sum + (b.map Contour.area).sum := by
  classical
  obtain ⟨cs, h2, O, -, V⟩ := holelessIntersection_outlines ok va.polygons vb.polygons na nb tb
  obtain ⟨g, h, O1⟩ := Operation.call_outlines ok tb .union va.polygons vb.polygons
  obtain rfl : g = g1 := Except.ok.inj (h.symm.trans h1)
  refine ⟨_, h2, ?_⟩
  rw [unpackRegions_eq, unpackPolygons_polygons]
  have e : ∀ c : List Contour, polysArea (regionPolygons c) = (c.map Contour.area).sum := fun c => by
    simp [polysArea, regionPolygons, Polygon.area, Function.comp_def]
  rw [← e a, ← e b]
  refine area_of_points va.polygons vb.polygons v1 V ((regionPolygons a).flatMap Polygon.edges ++ (regionPolygons b).flatMap Polygon.edges)
    (fun q hq => ?_) fun q hq => ?_
  · rw [O1.mem_valid va.polygons vb.polygons v1 hq]
    simp [Operation.holds]
  · rw [O.mem_valid va.polygons vb.polygons V hq]
    simp

/-! ## Examples -/

/-- Two crossing squares: the areas 4 and 4 of the operands are the areas 7 and 1 of union and intersection. -/
example : ∃ g2, Operation.intersection.call (Classical.choose exists_orient) TieBreak.id exSquare exSquare' = .ok g2 ∧
    polysArea g2.polygons = 1 := by
  obtain ⟨g1, g2, -, -, h1, h2, -, -, e, -⟩ := area_detached (Classical.choose_spec exists_orient) exSquare_valid exSquare'_valid TieBreak.id
    (detached_single rfl) (detached_single rfl)
  refine ⟨g2, h2, ?_⟩
  obtain rfl := Except.ok.inj (h1.symm.trans exSquare_union)
  have e1 : polysArea exSquare = 4 := by decide +kernel
  have e2 : polysArea exSquare' = 4 := by decide +kernel
  have e3 : polysArea [⟨⟨[⟨0, 0⟩, ⟨2, 0⟩, ⟨2, 1⟩, ⟨3, 1⟩, ⟨3, 3⟩, ⟨1, 3⟩, ⟨1, 2⟩, ⟨0, 2⟩]⟩, []⟩] = 7 := by decide +kernel
  change polysArea [_] + _ = _ at e
  rw [e1, e2, e3] at e
  linarith

/-- Polygons with holes: the area of the hole does not count. -/
example : polysArea exStandard = 12 := by decide +kernel

/-- The same for regions. -/
example (tb : TieBreak) : ∃ g1 g2, unitePolygons tb ⟨squareContour 0 0 2, []⟩ ⟨squareContour 1 1 2, []⟩ = .ok g1 ∧
    intersectRegions (Classical.choose exists_orient) tb (squareContour 0 0 2) (squareContour 1 1 2) = .ok g2 ∧
      polysArea g1.polygons + polysArea g2.polygons = 8 := by
  obtain ⟨g1, g2, h1, h2, e⟩ := area_regions (Classical.choose_spec exists_orient) tb
    (squareContour_simple (x := 0) (y := 0) (a := 2) (by norm_num)) (squareContour_simple (x := 1) (y := 1) (a := 2) (by norm_num))
  refine ⟨g1, g2, h1, h2, ?_⟩
  rw [e, square_area (by norm_num), square_area (by norm_num)]
  norm_num

/-- The valuation says something: union and difference do not add up so. -/
example : ¬ ∀ w : ℕ → Bool, (([(1, Expression.apply .union (.operand 0) (.operand 1), ([] : List Polygon)),
    (-1, Expression.apply .difference (.operand 0) (.operand 1), [])] : List (ℚ × Expression × List Polygon)).map
      fun t => t.1 * if t.2.1.holds w then 1 else 0).sum = 0 := by
  intro h
  have := h (fun _ => true)
  norm_num [Expression.holds, Operation.holds] at this

end Clipping

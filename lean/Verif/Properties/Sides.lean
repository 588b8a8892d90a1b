import Verif.Lemmas.Area.Outline
import Verif.Properties.Area
import Verif.Properties.Complete

/-!
# C65: borders and holes are never mixed up

Holes of results may be attached to wrong borders (C42), but whether a contour is a border or a hole is always decided correctly.
Therefore the areas of results are right without any condition on the operands.
-/

namespace Clipping

/-- **C65** Whatever the operands are, the interior of the result is inside of its borders and outside of its holes (for each contour by itself). -/
theorem call_sides {o : Orient} (ok : OrientOk o) (tb : TieBreak) (k : Operation) {a b : List Polygon} (va : ValidPolygons a)
    (vb : ValidPolygons b) : ∃ g, k.call o tb a b = .ok g ∧ Sided g.polygons := by
  obtain ⟨g, h, O⟩ := k.call_outlines ok tb va vb
  exact ⟨g, h, O.sides⟩

/-- **C65** The same for the polygons of complete intersections. -/
theorem complete_sides {o : Orient} (ok : OrientOk o) (tb : TieBreak) {a b : List Polygon} (na : a ≠ []) (va : ValidPolygons a) (nb : b ≠ [])
    (vb : ValidPolygons b) : ∃ g, completeIntersectMultipolygons o tb a b = .ok g ∧ Sided g.shapedPolygons := by
  obtain ⟨g, h, -, O, -⟩ := completeIntersectMultipolygons_parts ok tb na va nb vb
  exact ⟨g, h, O.sides⟩

theorem ValidPolygons.outlines_left {a b : List Polygon} (va : ValidPolygons a) :
    Outlines (fun x _ => x) (a.flatMap Polygon.edges) (b.flatMap Polygon.edges) a := by
  refine va.outlines ?_ fun q _ => ?_
  · rw [segsPts_append]
    exact Set.subset_union_left
  · simp [Combined]

theorem ValidPolygons.outlines_right {a b : List Polygon} (vb : ValidPolygons b) :
    Outlines (fun _ y => y) (a.flatMap Polygon.edges) (b.flatMap Polygon.edges) b := by
  refine vb.outlines ?_ fun q _ => ?_
  · rw [segsPts_append]
    exact Set.subset_union_right
  · simp [Combined]

section

variable {o : Orient} (ok : OrientOk o) {tb : TieBreak} {a b : List Polygon} (va : ValidPolygons a) (vb : ValidPolygons b)

include ok va vb

theorem Operation.outlines_of {k : Operation} {g : Geometry} (h : k.call o tb a b = .ok g) :
    Outlines k.holds (a.flatMap Polygon.edges) (b.flatMap Polygon.edges) g.polygons := by
  obtain ⟨g', h', O⟩ := k.call_outlines ok tb va vb
  obtain rfl := Except.ok.inj (h'.symm.trans h)
  exact O

/-- **C65** Whatever holds for sums of truth values holds for the areas of results and operands, without any condition on the operands
beyond validity. -/
theorem call_area {F : List (ℚ × Operation × Geometry)} (hF : ∀ t ∈ F, t.2.1.call o tb a b = .ok t.2.2) {u v : ℚ}
    (h : ∀ x y : Bool, 0 ≤ (F.map fun t => t.1 * if t.2.1.holds x y then 1 else 0).sum + u * (if x then 1 else 0) + v * (if y then 1 else 0)) :
    0 ≤ (F.map fun t => t.1 * polysArea t.2.2.polygons).sum + u * polysArea a + v * polysArea b := by
  have := outlines_valuation (A := a.flatMap Polygon.edges) (B := b.flatMap Polygon.edges)
    (F := F.map (fun t : ℚ × Operation × Geometry => (t.1, t.2.1.holds, t.2.2.polygons)) ++ [(u, fun x _ => x, a), (v, fun _ y => y, b)])
    (by
      intro t ht
      rcases List.mem_append.1 ht with ht | ht
      · obtain ⟨t, ht', rfl⟩ := List.mem_map.1 ht
        exact Operation.outlines_of ok va vb (hF t ht')
      · simp only [List.mem_cons, List.not_mem_nil, or_false] at ht
        rcases ht with rfl | rfl
        · exact va.outlines_left
        · exact vb.outlines_right) (by
      intro x y
      have := h x y
      simp only [List.map_append, List.map_map, Function.comp_def, List.map_cons, List.map_nil, List.sum_append, List.sum_cons, List.sum_nil]
      linarith)
  simp only [List.map_append, List.map_map, Function.comp_def, List.map_cons, List.map_nil, List.sum_append, List.sum_cons, List.sum_nil] at this
  linarith

/-- **C65** The areas of all four results: nothing has to be known of operands except that they are valid. -/
theorem area_always (tb : TieBreak) : ∃ g1 g2 g3 g4, Operation.union.call o tb a b = .ok g1 ∧
    Operation.intersection.call o tb a b = .ok g2 ∧ Operation.difference.call o tb a b = .ok g3 ∧
    Operation.symmetricDifference.call o tb a b = .ok g4 ∧
    polysArea g1.polygons + polysArea g2.polygons = polysArea a + polysArea b ∧
    polysArea g3.polygons + polysArea g2.polygons = polysArea a ∧
    polysArea g4.polygons + 2 * polysArea g2.polygons = polysArea a + polysArea b ∧
    ∀ g ∈ [g1, g2, g3, g4], 0 ≤ polysArea g.polygons ∧ (polysArea g.polygons = 0 ↔ g.polygons = []) := by
  obtain ⟨g1, h1, O1⟩ := Operation.call_outlines ok tb .union va vb
  obtain ⟨g2, h2, O2⟩ := Operation.call_outlines ok tb .intersection va vb
  obtain ⟨g3, h3, O3⟩ := Operation.call_outlines ok tb .difference va vb
  obtain ⟨g4, h4, O4⟩ := Operation.call_outlines ok tb .symmetricDifference va vb
  have La : Outlines _ (a.flatMap Polygon.edges) (b.flatMap Polygon.edges) a := va.outlines_left
  have Lb : Outlines _ (a.flatMap Polygon.edges) (b.flatMap Polygon.edges) b := vb.outlines_right
  refine ⟨g1, g2, g3, g4, h1, h2, h3, h4, ?_, ?_, ?_, ?_⟩
  · have := outlines_valuation_eq (F := [(1, _, g1.polygons), (1, _, g2.polygons), (-1, _, a), (-1, _, b)])
      (by simp only [List.mem_cons, List.not_mem_nil, or_false]
          rintro t (rfl | rfl | rfl | rfl)
          exacts [O1, O2, La, Lb]) (fun x y => by cases x <;> cases y <;> norm_num [Operation.holds])
    simp only [List.map_cons, List.map_nil, List.sum_cons, List.sum_nil] at this
    linarith
  · have := outlines_valuation_eq (F := [(1, _, g3.polygons), (1, _, g2.polygons), (-1, _, a)])
      (by simp only [List.mem_cons, List.not_mem_nil, or_false]
          rintro t (rfl | rfl | rfl)
          exacts [O3, O2, La]) (fun x y => by cases x <;> cases y <;> norm_num [Operation.holds])
    simp only [List.map_cons, List.map_nil, List.sum_cons, List.sum_nil] at this
    linarith
  · have := outlines_valuation_eq (F := [(1, _, g4.polygons), (2, _, g2.polygons), (-1, _, a), (-1, _, b)])
      (by simp only [List.mem_cons, List.not_mem_nil, or_false]
          rintro t (rfl | rfl | rfl | rfl)
          exacts [O4, O2, La, Lb]) (fun x y => by cases x <;> cases y <;> norm_num [Operation.holds])
    simp only [List.map_cons, List.map_nil, List.sum_cons, List.sum_nil] at this
    linarith
  · simp only [List.mem_cons, List.not_mem_nil, or_false]
    rintro g (rfl | rfl | rfl | rfl)
    exacts [O1.area_pos, O2.area_pos, O3.area_pos, O4.area_pos]

/-- **C65** Operands have no common interior exactly if the areas add up in the union, and one is within the other exactly if the
intersection has its area. -/
theorem area_empty_always {g1 g2 g3 : Geometry} (h1 : Operation.union.call o tb a b = .ok g1)
    (h2 : Operation.intersection.call o tb a b = .ok g2) (h3 : Operation.difference.call o tb a b = .ok g3) :
    polysArea g1.polygons ≤ polysArea a + polysArea b ∧ (polysArea g1.polygons = polysArea a + polysArea b ↔ g2.polygons = []) ∧
    polysArea g2.polygons ≤ polysArea a ∧ (polysArea g2.polygons = polysArea a ↔ g3.polygons = []) := by
  obtain ⟨g1', g2', g3', g4', h1', h2', h3', -, e1, e2, -, pos⟩ := area_always ok va vb tb
  obtain rfl := Except.ok.inj (h1'.symm.trans h1)
  obtain rfl := Except.ok.inj (h2'.symm.trans h2)
  obtain rfl := Except.ok.inj (h3'.symm.trans h3)
  obtain ⟨p2, z2⟩ := pos g2' (by simp)
  obtain ⟨p3, z3⟩ := pos g3' (by simp)
  refine ⟨by linarith, ?_, by linarith, ?_⟩
  · rw [← z2]
    constructor <;> intro <;> linarith
  · rw [← z3]
    constructor <;> intro <;> linarith

end

/-- Regions one of which contains the other. -/
theorem Outlines.area_le {op op' : Bool → Bool → Bool} {A B A' B' : List Segment} {ps qs : List Polygon} (O : Outlines op A B ps)
    (O' : Outlines op' A' B' qs)
    (h : ∀ q, q ∉ segsPts (A ++ B) → q ∉ segsPts (A' ++ B') → Combined op A B q → Combined op' A' B' q) : polysArea ps ≤ polysArea qs := by
  have v := trapezoids_valuation (F := [(1, qs.flatMap polygonEdges), (-1, ps.flatMap polygonEdges)]) (by
    simp only [List.mem_cons, List.not_mem_nil, or_false]
    rintro t (rfl | rfl)
    exacts [O'.isBoundary, O.isBoundary]) ((A ++ B) ++ (A' ++ B')) fun q hz _ => by
      obtain ⟨z1, z2⟩ := off_append hz
      have k := h q z1 z2
      rw [← O.inside q z1, ← O'.inside q z2, ← O.sameEdges.inside_iff, ← O'.sameEdges.inside_iff] at k
      simp only [List.map_cons, List.map_nil, List.sum_cons, List.sum_nil]
      by_cases l : Inside (ps.flatMap polygonEdges) q
      · rw [if_pos l, if_pos (k l)]
        norm_num
      · rw [if_neg l]
        split <;> norm_num
  simp only [List.map_cons, List.map_nil, List.sum_cons, List.sum_nil] at v
  rw [O.area_eq, O'.area_eq] at v
  linarith

section

variable {o o' : Orient} (ok : OrientOk o) (ok' : OrientOk o') {tb tb' : TieBreak} {a b a' b' : List Polygon} (va : ValidPolygons a)
  (vb : ValidPolygons b) (va' : ValidPolygons a') (vb' : ValidPolygons b')

include ok ok' va vb va' vb'

open Classical in
theorem call_area_le {k : Operation} {g g' : Geometry} (h : k.call o tb a b = .ok g) (h' : k.call o' tb' a' b' = .ok g')
    (hk : ∀ q, k.holds (decide (q ∈ polysPts a)) (decide (q ∈ polysPts b)) = true →
      k.holds (decide (q ∈ polysPts a')) (decide (q ∈ polysPts b')) = true) :
    polysArea g.polygons ≤ polysArea g'.polygons := by
  refine (Operation.outlines_of ok va vb h).area_le (Operation.outlines_of ok' va' vb' h') fun q z1 z2 c => ?_
  have e1 := va.mem_off (off_append z1).1
  have e2 := vb.mem_off (off_append z1).2
  have e3 := va'.mem_off (off_append z2).1
  have e4 := vb'.mem_off (off_append z2).2
  have := hk q
  unfold Combined at c ⊢
  rw [decide_eq_decide.2 e1, decide_eq_decide.2 e2, decide_eq_decide.2 e3, decide_eq_decide.2 e4] at this
  exact this c

/-- **C65** The area of a result depends on the points of the operands only, not on how they are written, which point location is used or how
ties are broken. -/
theorem call_area_written {k : Operation} {g g' : Geometry} (h : k.call o tb a b = .ok g) (h' : k.call o' tb' a' b' = .ok g')
    (ha : polysPts a = polysPts a') (hb : polysPts b = polysPts b') : polysArea g.polygons = polysArea g'.polygons :=
  le_antisymm (call_area_le ok ok' va vb va' vb' h h' fun q k => by rw [ha, hb] at k; exact k)
    (call_area_le ok' ok va' vb' va vb h' h fun q k => by rw [← ha, ← hb] at k; exact k)

/-- **C65** Areas of unions and intersections do not shrink when the operands grow. -/
theorem call_area_mono {k : Operation} (hk : k = .union ∨ k = .intersection) {g g' : Geometry} (h : k.call o tb a b = .ok g)
    (h' : k.call o' tb' a' b' = .ok g') (ha : polysPts a ⊆ polysPts a') (hb : polysPts b ⊆ polysPts b') :
    polysArea g.polygons ≤ polysArea g'.polygons := by
  refine call_area_le ok ok' va vb va' vb' h h' fun q => ?_
  have h1 := @ha q
  have h2 := @hb q
  rcases hk with rfl | rfl <;> simp only [Operation.holds, Bool.or_eq_true, Bool.and_eq_true, decide_eq_true_eq] <;> tauto

/-- **C65** The area of a difference grows with the first operand and shrinks with the second one. -/
theorem difference_area_mono {g g' : Geometry} (h : Operation.difference.call o tb a b = .ok g)
    (h' : Operation.difference.call o' tb' a' b' = .ok g') (ha : polysPts a ⊆ polysPts a') (hb : polysPts b' ⊆ polysPts b) :
    polysArea g.polygons ≤ polysArea g'.polygons := by
  refine call_area_le ok ok' va vb va' vb' h h' fun q => ?_
  have h1 := @ha q
  have h2 := @hb q
  simp only [Operation.holds, Bool.and_eq_true, Bool.not_eq_true', decide_eq_true_eq, decide_eq_false_iff_not]
  tauto

end

/-- **C65** Complete intersections: the area of their polygons is the area of the intersection. -/
theorem complete_area {o : Orient} (ok : OrientOk o) {tb tb' : TieBreak} {a b : List Polygon} (na : a ≠ []) (va : ValidPolygons a) (nb : b ≠ [])
    (vb : ValidPolygons b) {g : Geometry} (h : Operation.intersection.call o tb a b = .ok g) :
    ∃ g', completeIntersectMultipolygons o tb' a b = .ok g' ∧ polysArea g'.shapedPolygons = polysArea g.polygons := by
  obtain ⟨g', h', -, O, -⟩ := completeIntersectMultipolygons_parts ok tb' na va nb vb
  have O' := Operation.outlines_of ok va vb h
  refine ⟨g', h', le_antisymm (O.area_le O' fun q _ _ c => ?_) (O'.area_le O fun q _ _ c => ?_)⟩
  · simpa [Combined, Operation.holds] using c
  · simpa [Combined, Operation.holds] using c

/-- **C65** The same for two polygons. -/
theorem complete_area_polygons {o : Orient} (ok : OrientOk o) {tb tb' : TieBreak} {a b : Polygon} (va : ValidPolygon a) (vb : ValidPolygon b)
    {g : Geometry} (h : intersectPolygons o tb a b = .ok g) :
    ∃ g', completeIntersectPolygons o tb' a b = .ok g' ∧ polysArea g'.shapedPolygons = polysArea g.polygons := by
  obtain ⟨g', h', -, O, -⟩ := completeIntersectPolygons_parts ok tb' va vb
  have O' := Operation.outlines_of ok va.validPolygons vb.validPolygons (k := .intersection) h
  simp only [List.flatMap_cons, List.flatMap_nil, List.append_nil] at O'
  refine ⟨g', h', le_antisymm (O.area_le O' fun q _ _ c => ?_) (O'.area_le O fun q _ _ c => ?_)⟩
  · simpa [Combined, Operation.holds] using c
  · simpa [Combined, Operation.holds] using c

/-- **C65** The same for a polygon and a multipolygon. -/
theorem complete_area_polygon_multipolygon {o : Orient} (ok : OrientOk o) {tb tb' : TieBreak} {a : Polygon} {b : List Polygon}
    (va : ValidPolygon a) (nb : b ≠ []) (vb : ValidPolygons b) {g : Geometry} (h : intersectPolygonWithMultipolygon o tb a b = .ok g) :
    ∃ g', completeIntersectPolygonWithMultipolygon o tb' a b = .ok g' ∧ polysArea g'.shapedPolygons = polysArea g.polygons := by
  obtain ⟨g', h', -, O, -⟩ := completeIntersectPolygonWithMultipolygon_parts ok tb' va nb vb
  obtain ⟨g'', h'', -, O', -⟩ := intersectPolygonWithMultipolygon_outlines ok tb va nb vb
  obtain rfl := Except.ok.inj (h''.symm.trans h)
  refine ⟨g', h', le_antisymm (O.area_le O' fun q _ _ c => c) (O'.area_le O fun q _ _ c => c)⟩

/-- **C65** Multiregions: the area of the intersection of two multiregions, and of their union as polygons, add up to their areas. -/
theorem multiregions_area {o : Orient} (ok : OrientOk o) (tb : TieBreak) {a b : List Contour} (na : a ≠ []) (va : ValidRegions a)
    (nb : b ≠ []) (vb : ValidRegions b) :
    ∃ g1 g2, Operation.union.call o tb (regionPolygons a) (regionPolygons b) = .ok g1 ∧ intersectMultiregions o tb a b = .ok g2 ∧
      polysArea g1.polygons + polysArea g2.polygons = (a.map Contour.area).sum + (b.map Contour.area).sum := by
  obtain ⟨cs, h2, O, -, V⟩ := holelessIntersection_outlines ok va.polygons vb.polygons na nb tb
  obtain ⟨g, h, O1⟩ := Operation.call_outlines ok tb .union va.polygons vb.polygons
  refine ⟨g, _, h, h2, ?_⟩
  rw [unpackRegions_eq, unpackPolygons_polygons]
  have e : ∀ c : List Contour, polysArea (regionPolygons c) = (c.map Contour.area).sum := fun c => by
    simp [polysArea, regionPolygons, Polygon.area, Function.comp_def]
  rw [← e a, ← e b]
  have La : Outlines _ ((regionPolygons a).flatMap Polygon.edges) ((regionPolygons b).flatMap Polygon.edges) _ := va.polygons.outlines_left
  have Lb : Outlines _ ((regionPolygons a).flatMap Polygon.edges) ((regionPolygons b).flatMap Polygon.edges) _ := vb.polygons.outlines_right
  have := outlines_valuation_eq (F := [(1, _, g.polygons), (1, _, regionPolygons cs), (-1, _, regionPolygons a), (-1, _, regionPolygons b)])
    (by simp only [List.mem_cons, List.not_mem_nil, or_false]
        rintro t (rfl | rfl | rfl | rfl)
        exacts [O1, O, La, Lb]) (fun x y => by cases x <;> cases y <;> norm_num [Operation.holds])
  simp only [List.map_cons, List.map_nil, List.sum_cons, List.sum_nil] at this
  linarith

/-! ## Examples -/

/-- The symmetric difference of `exTriangle` and `exTriangles` has a hole at the wrong border (C42), but the areas add up. -/
example : polysArea (Geometry.multipolygon
    [⟨⟨[⟨-8, 10⟩, ⟨2, 0⟩, ⟨17 / 6, 10⟩]⟩, [⟨[⟨2, 0⟩, ⟨8, -1⟩, ⟨8, -2⟩]⟩]⟩,
      ⟨⟨[⟨2, 0⟩, ⟨12, -10⟩, ⟨12, 10⟩, ⟨11 / 3, 10⟩]⟩, []⟩,
      ⟨⟨[⟨17 / 6, 10⟩, ⟨11 / 3, 10⟩, ⟨4, 12⟩, ⟨3, 12⟩]⟩, []⟩]).polygons = polysArea [exTriangle] + polysArea exTriangles -
      2 * (3 + 25 / 6) := by
  decide +kernel

/-- so that the intersection, in which nothing is said of holes, has the area 43/6 -/
example : ∃ g, intersectPolygonWithMultipolygon (Classical.choose exists_orient) TieBreak.id exTriangle exTriangles = .ok g ∧
    polysArea g.polygons = 43 / 6 := by
  obtain ⟨-, g2, -, g4, -, h2, -, h4, -, -, e, -⟩ := area_always (Classical.choose_spec exists_orient) exTriangle_valid.validPolygons
    exTriangles_valid TieBreak.id
  refine ⟨g2, h2, ?_⟩
  obtain rfl := Except.ok.inj (h4.symm.trans exTriangles_result)
  have e1 : polysArea [exTriangle] = 200 := by decide +kernel
  have e2 : polysArea exTriangles = 9 := by decide +kernel
  rw [e1, e2] at e
  have e3 : polysArea [⟨⟨[⟨-8, 10⟩, ⟨2, 0⟩, ⟨17 / 6, 10⟩]⟩, [⟨[⟨2, 0⟩, ⟨8, -1⟩, ⟨8, -2⟩]⟩]⟩,
      ⟨⟨[⟨2, 0⟩, ⟨12, -10⟩, ⟨12, 10⟩, ⟨11 / 3, 10⟩]⟩, []⟩,
      ⟨⟨[⟨17 / 6, 10⟩, ⟨11 / 3, 10⟩, ⟨4, 12⟩, ⟨3, 12⟩]⟩, []⟩] = 584 / 3 := by decide +kernel
  change polysArea [_, _, _] + _ = _ at e
  rw [e3] at e
  linarith

end Clipping

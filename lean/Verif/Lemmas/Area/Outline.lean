import Verif.Lemmas.Area.Laws
import Verif.Lemmas.Region.Sided

/-!
# Areas of polygons whose holes may be at wrong borders
-/

namespace Clipping

theorem Outlines.isBoundary {op : Bool → Bool → Bool} {A B : List Segment} {ps : List Polygon} (O : Outlines op A B ps) :
    IsBoundary (ps.flatMap polygonEdges) := O.sides.isBoundary O.border O.hole O.noOverlap

theorem Outlines.area_eq {op : Bool → Bool → Bool} {A B : List Segment} {ps : List Polygon} (O : Outlines op A B ps) :
    trapezoids (ps.flatMap polygonEdges) = polysArea ps := polysArea_eq fun p hp => ⟨O.border p hp, O.hole p hp⟩

theorem Outlines.sameEdges {op : Bool → Bool → Bool} {A B : List Segment} {ps : List Polygon} (O : Outlines op A B ps) :
    SameEdges (ps.flatMap polygonEdges) (ps.flatMap Polygon.edges) := simple_sameEdges O.border O.hole

/-- Weighted areas of outlines of combinations. -/
theorem outlines_valuation {A B : List Segment} {F : List (ℚ × (Bool → Bool → Bool) × List Polygon)}
    (hF : ∀ t ∈ F, Outlines t.2.1 A B t.2.2) (h : ∀ x y, 0 ≤ (F.map fun t => t.1 * if t.2.1 x y then 1 else 0).sum) :
    0 ≤ (F.map fun t => t.1 * polysArea t.2.2).sum := by
  have v := trapezoids_valuation (F := F.map fun t => (t.1, t.2.2.flatMap polygonEdges)) (fun p hp => by
    obtain ⟨t, ht, rfl⟩ := List.mem_map.1 hp
    exact (hF t ht).isBoundary) (A ++ B) fun q hz _ => by
      have k := h (decide (Inside A q)) (decide (Inside B q))
      rw [List.map_map]
      convert k using 2
      refine List.map_congr_left fun t ht => ?_
      have i : Inside (t.2.2.flatMap polygonEdges) q ↔ t.2.1 (decide (Inside A q)) (decide (Inside B q)) = true := by
        rw [(hF t ht).sameEdges.inside_iff, (hF t ht).inside q hz]
        rfl
      simp only [Function.comp, i]
  rw [List.map_map] at v
  convert v using 2
  refine List.map_congr_left fun t ht => ?_
  simp only [Function.comp]
  rw [(hF t ht).area_eq]

theorem outlines_valuation_eq {A B : List Segment} {F : List (ℚ × (Bool → Bool → Bool) × List Polygon)}
    (hF : ∀ t ∈ F, Outlines t.2.1 A B t.2.2) (h : ∀ x y, (F.map fun t => t.1 * if t.2.1 x y then 1 else 0).sum = 0) :
    (F.map fun t => t.1 * polysArea t.2.2).sum = 0 := by
  refine le_antisymm ?_ (outlines_valuation hF fun x y => (h x y).ge)
  have k := outlines_valuation (A := A) (B := B) (F := F.map fun t => (-1 * t.1, t.2)) (fun t ht => by
    obtain ⟨t, ht', rfl⟩ := List.mem_map.1 ht
    exact hF t ht') fun x y => by
      rw [List.map_map, show ((fun t : ℚ × (Bool → Bool → Bool) × List Polygon => t.1 * if t.2.1 x y then 1 else 0) ∘
          fun t : ℚ × (Bool → Bool → Bool) × List Polygon => (-1 * t.1, t.2)) =
        fun t => -1 * (t.1 * if t.2.1 x y then 1 else 0) from funext fun t => by simp only [Function.comp]; ring, mul_sum, h x y]
      norm_num
  rw [List.map_map, show ((fun t : ℚ × (Bool → Bool → Bool) × List Polygon => t.1 * polysArea t.2.2) ∘
      fun t : ℚ × (Bool → Bool → Bool) × List Polygon => (-1 * t.1, t.2)) =
    fun t => -1 * (t.1 * polysArea t.2.2) from funext fun t => by simp only [Function.comp]; ring, mul_sum] at k
  linarith

/-- A region with edges has a positive area. -/
theorem IsBoundary.trapezoids_pos {E : List Segment} (h : IsBoundary E) (ne : E ≠ []) : 0 < trapezoids E := by
  obtain ⟨e, he⟩ := List.exists_mem_of_ne_nil _ ne
  obtain ⟨⟨z, -, -, zo, zi⟩, -⟩ := near_both h.noOverlap h.even ⟨e, he, e.start_mem⟩ (X := []) (by simp) one_pos
  obtain ⟨δ, hδ, near⟩ := exists_near_off_all h.noOverlap.1 zo
  have ha : 0 < δ / 2 := half_pos hδ
  have sq := squareContour_simple (x := z.x) (y := z.y) ha
  have key : ∀ q, Inside (squareContour z.x z.y (δ / 2)).edges q → Inside E q := by
    intro q k
    have hq' : q ∈ regionPts (squareContour z.x z.y (δ / 2)).edges := Or.inr k
    rw [square_region ha] at hq'
    obtain ⟨h1, h2, h3, h4⟩ := hq'
    have hn : Near δ z q := ⟨by rw [abs_lt]; constructor <;> linarith, by rw [abs_lt]; constructor <;> linarith⟩
    exact (inside_const h.noOverlap.1 h.even (s := ⟨z, q⟩) fun r hr => near r (hn.path r hr)).1 zi
  have area : trapezoids (contourEdges (squareContour z.x z.y (δ / 2)) false) = (δ / 2) ^ 2 := by
    rw [← sq.area_eq, square_area ha]
  generalize squareContour z.x z.y (δ / 2) = c at key area sq
  have le := trapezoids_valuation (F := [(1, E), (-1, contourEdges c false)]) (by
    simp only [List.mem_cons, List.not_mem_nil, or_false]
    rintro p (rfl | rfl)
    · exact h
    · exact sq.isBoundary) [] fun q _ _ => by
      simp only [List.map_cons, List.map_nil, List.sum_cons, List.sum_nil]
      by_cases k : Inside (contourEdges c false) q
      · rw [if_pos k, if_pos (key q (((sq.sameEdges false).inside_iff q).1 k))]
        norm_num
      · rw [if_neg k]
        split <;> norm_num
  simp only [List.map_cons, List.map_nil, List.sum_cons, List.sum_nil] at le
  rw [area] at le
  have : 0 < (δ / 2) ^ 2 := by positivity
  linarith

theorem Outlines.area_pos {op : Bool → Bool → Bool} {A B : List Segment} {ps : List Polygon} (O : Outlines op A B ps) :
    0 ≤ polysArea ps ∧ (polysArea ps = 0 ↔ ps = []) := by
  by_cases k : ps = []
  · subst k
    simp [polysArea]
  · obtain ⟨p, hp⟩ := List.exists_mem_of_ne_nil _ k
    have ne : ps.flatMap polygonEdges ≠ [] := by
      intro e
      have := (O.border p hp).sameEdges false
      have e' : contourEdges p.border false = [] := by
        rw [List.flatMap_eq_nil_iff] at e
        exact (List.append_eq_nil_iff.1 (e p hp)).1
      rw [e'] at this
      have hl := this.length_eq
      rw [List.length_map, List.length_map, contour_edges_eq] at hl
      have := (O.border p hp).three
      simp [cycEdges] at hl
      omega
    have := O.isBoundary.trapezoids_pos ne
    rw [O.area_eq] at this
    exact ⟨this.le, iff_of_false this.ne' k⟩

end Clipping

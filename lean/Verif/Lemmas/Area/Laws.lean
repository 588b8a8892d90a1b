import Verif.Lemmas.Area.Valuation
import Verif.Lemmas.Shaped.Expression
import Verif.Lemmas.Shaped.Standard
import Verif.Lemmas.Shaped.Affine

/-!
# Areas of results
-/

namespace Clipping

/-- Off its edges, a point is in valid polygons exactly if it is inside of their edges. -/
theorem ValidPolygons.mem_iff {ps : List Polygon} (h : ValidPolygons ps) {q : Point} (hq : q ∉ segsPts (ps.flatMap Polygon.edges)) :
    q ∈ polysPts ps ↔ Inside (ps.flatMap Polygon.edges) q := by
  rw [h.polysPts_eq]
  exact ⟨fun k => k.resolve_left hq, .inr⟩

theorem exists_common {α : Type} (l : List α) (X : α → List Segment → Prop) (h : ∀ a ∈ l, ∃ s, X a s) :
    ∃ Z, ∀ a ∈ l, ∃ s, X a s ∧ segsPts s ⊆ segsPts Z := by
  induction l with
  | nil => exact ⟨[], by simp⟩
  | cons a l ih =>
    obtain ⟨Z, hZ⟩ := ih fun b hb => h b (List.mem_cons_of_mem _ hb)
    obtain ⟨s, hs⟩ := h a List.mem_cons_self
    refine ⟨s ++ Z, fun b hb => ?_⟩
    rw [segsPts_append]
    rcases List.mem_cons.1 hb with rfl | hb
    · exact ⟨s, hs, Set.subset_union_left⟩
    · obtain ⟨t, ht, k⟩ := hZ b hb
      exact ⟨t, ht, k.trans Set.subset_union_right⟩

/-- Areas of nested operations. -/
theorem expression_valuation {o : Orient} (ok : OrientOk o) {tb : TieBreak} {v : ℕ → List Polygon} (hv : ∀ i, ValidPolygons (v i))
    {F : List (ℚ × Expression × List Polygon)} (hF : ∀ t ∈ F, t.2.1.Yields o tb v t.2.2 ∧ ValidPolygons t.2.2)
    (h : ∀ w : ℕ → Bool, 0 ≤ (F.map fun t => t.1 * if t.2.1.holds w then 1 else 0).sum) :
    0 ≤ (F.map fun t => t.1 * polysArea t.2.2).sum := by
  classical
  obtain ⟨Z, hZ⟩ := exists_common F (fun t X => ∀ q, q ∉ segsPts X → (Inside (t.2.2.flatMap Polygon.edges) q ↔
    t.2.1.holds (fun i => decide (Inside ((v i).flatMap Polygon.edges) q)) = true)) fun t ht => by
      obtain ⟨-, -, -, X, -, hX⟩ := (hF t ht).1.inside ok hv
      exact ⟨X, hX⟩
  have := polysArea_valuation (F := F.map fun t => (t.1, t.2.2)) (fun p hp => by
    obtain ⟨t, ht, rfl⟩ := List.mem_map.1 hp
    exact (hF t ht).2) Z fun q hz hq => by
      rw [List.map_map]
      refine le_of_le_of_eq (h fun i => decide (Inside ((v i).flatMap Polygon.edges) q)) ?_
      congr 1
      refine List.map_congr_left fun t ht => ?_
      obtain ⟨X, hX, sub⟩ := hZ t ht
      have k := hX q fun m => hz (sub m)
      rw [← (hF t ht).2.mem_iff (hq _ (List.mem_map.2 ⟨t, ht, rfl⟩))] at k
      simp only [Function.comp, k]
  rw [List.map_map] at this
  exact this

/-- Areas do not grow. -/
theorem polysArea_mono {ps qs : List Polygon} (hp : ValidPolygons ps) (hq : ValidPolygons qs) (h : polysPts ps ⊆ polysPts qs) :
    polysArea ps ≤ polysArea qs := by
  classical
  have := polysArea_valuation (F := [(1, qs), (-1, ps)]) (by simp [hp, hq]) [] fun q _ _ => by
    simp only [List.map_cons, List.map_nil, List.sum_cons, List.sum_nil]
    by_cases k : q ∈ polysPts ps
    · rw [if_pos k, if_pos (h k)]
      norm_num
    · rw [if_neg k]
      split_ifs <;> norm_num
  simp only [List.map_cons, List.map_nil, List.sum_cons, List.sum_nil] at this
  linarith

theorem square_area {x y a : ℚ} (ha : 0 < a) : (squareContour x y a).area = a ^ 2 := by
  unfold Contour.area
  rw [square_edges]
  unfold shoelace
  simp only [List.map_cons, List.map_nil, List.sum_cons, List.sum_nil]
  rw [abs_of_nonneg (by nlinarith [ha])]
  ring

theorem polysArea_pos {ps : List Polygon} (hp : ValidPolygons ps) (ne : ps ≠ []) : 0 < polysArea ps := by
  obtain ⟨no, ev⟩ := hp.noOverlap_even
  obtain ⟨p, hpp⟩ := List.exists_mem_of_ne_nil _ ne
  have sb := (hp.valid p hpp).border
  obtain ⟨e, he⟩ : ∃ e, e ∈ p.border.edges := by
    rw [contour_edges_eq]
    refine ⟨_, mem_cycEdges.2 ⟨0, by have := sb.three; omega, rfl⟩⟩
  have hs : e.start ∈ segsPts (ps.flatMap Polygon.edges) :=
    ⟨e, List.mem_flatMap.2 ⟨p, hpp, List.mem_append_left _ he⟩, e.start_mem⟩
  obtain ⟨⟨z, -, -, zo, zi⟩, -⟩ := near_both no ev hs (X := []) (by simp) one_pos
  obtain ⟨δ, hδ, near⟩ := exists_near_off_all no.1 zo
  have ha : 0 < δ / 2 := half_pos hδ
  have sq := squareContour_simple (x := z.x) (y := z.y) ha
  have le := polysArea_mono (ps := [⟨squareContour z.x z.y (δ / 2), []⟩]) sq.validPolygon.validPolygons hp fun q hq => by
    obtain ⟨r, hr, hq⟩ := hq
    rw [List.mem_singleton] at hr
    subst hr
    have hq' : q ∈ regionPts (squareContour z.x z.y (δ / 2)).edges := by
      have := sq.validPolygon.pts_eq
      rw [← this, sq.validPolygon.sameEdges.regionPts_eq] at hq
      simpa [Polygon.edges] using hq
    rw [square_region ha] at hq'
    obtain ⟨h1, h2, h3, h4⟩ := hq'
    have hn : Near δ z q := ⟨by rw [abs_lt]; constructor <;> linarith, by rw [abs_lt]; constructor <;> linarith⟩
    rw [hp.mem_iff (near q hn)]
    exact (inside_const no.1 ev (s := ⟨z, q⟩) fun r hr => near r (hn.path r hr)).1 zi
  have e : polysArea [⟨squareContour z.x z.y (δ / 2), []⟩] = (δ / 2) ^ 2 := by
    simp [polysArea, Polygon.area, square_area ha]
  rw [e] at le
  have : 0 < (δ / 2) ^ 2 := by positivity
  linarith

/-! ## Affine maps -/

theorem Affine.shoelace_closed (T : Affine) (c : Contour) : shoelace (T.contour c).edges = (T.a * T.d - T.b * T.c) * shoelace c.edges := by
  rw [T.contour_edges]
  have key : ∀ E : List Segment, shoelace (E.map T.segment) = (T.a * T.d - T.b * T.c) * shoelace E +
      ((E.map fun e => T.f * (T.a * e.start.x + T.b * e.start.y) - T.e * (T.c * e.start.x + T.d * e.start.y)).sum -
       (E.map fun e => T.f * (T.a * e.stop.x + T.b * e.stop.y) - T.e * (T.c * e.stop.x + T.d * e.stop.y)).sum) := by
    intro E
    unfold shoelace
    induction E with
    | nil => simp
    | cons e E ih =>
      simp only [List.map_cons, List.sum_cons, ih, Affine.segment, Affine.point]
      ring
  rw [key]
  have k := ((contour_ends_perm c).map fun p : Point => T.f * (T.a * p.x + T.b * p.y) - T.e * (T.c * p.x + T.d * p.y)).sum_eq
  rw [List.map_map, List.map_map] at k
  have k' : (c.edges.map fun e => T.f * (T.a * e.stop.x + T.b * e.stop.y) - T.e * (T.c * e.stop.x + T.d * e.stop.y)).sum =
    (c.edges.map fun e => T.f * (T.a * e.start.x + T.b * e.start.y) - T.e * (T.c * e.start.x + T.d * e.start.y)).sum := k
  rw [k']
  ring

theorem Affine.contour_area (T : Affine) (c : Contour) : (T.contour c).area = |T.a * T.d - T.b * T.c| * c.area := by
  unfold Contour.area
  rw [T.shoelace_closed, abs_mul]
  ring

theorem Affine.polygon_area (T : Affine) (p : Polygon) : (T.polygon p).area = |T.a * T.d - T.b * T.c| * p.area := by
  unfold Polygon.area Affine.polygon
  rw [List.map_map, T.contour_area, mul_sub, ← mul_sum]
  congr 2
  exact List.map_congr_left fun c _ => T.contour_area c

theorem Affine.polysArea_map (T : Affine) (ps : List Polygon) : polysArea (ps.map T.polygon) = |T.a * T.d - T.b * T.c| * polysArea ps := by
  unfold polysArea
  rw [List.map_map, ← mul_sum]
  congr 1
  exact List.map_congr_left fun p _ => T.polygon_area p

end Clipping

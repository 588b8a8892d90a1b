import Verif.Lemmas.Region.Polygon

/-!
# Squares with square holes: examples of valid polygons
-/

namespace Clipping

/-- A square given by its lower left corner and its side, counterclockwise. -/
def squareContour (x y a : ℚ) : Contour := ⟨[⟨x, y⟩, ⟨x + a, y⟩, ⟨x + a, y + a⟩, ⟨x, y + a⟩]⟩

/-- A square with a square hole at the distance `b` from its lower and left edge. -/
def frame (x y a b c : ℚ) : Polygon := ⟨squareContour x y a, [squareContour (x + b) (y + b) c]⟩

theorem mem_horizontal_iff {x x' y : ℚ} (h : x ≤ x') {q : Point} :
    q ∈ (Segment.mk ⟨x, y⟩ ⟨x', y⟩).pts ↔ q.y = y ∧ x ≤ q.x ∧ q.x ≤ x' := by
  constructor
  · rintro ⟨t, t0, t1, tx, ty⟩
    simp only at tx ty
    exact ⟨by linarith, by nlinarith, by nlinarith⟩
  · rintro ⟨hy, h1, h2⟩
    rcases h.eq_or_lt with rfl | h
    · exact ⟨0, by simp, by simp, by simp; linarith, by simp [hy]⟩
    · have d : 0 < x' - x := by linarith
      refine ⟨(q.x - x) / (x' - x), div_nonneg (by linarith) d.le, (div_le_one d).2 (by linarith), ?_, ?_⟩
      · simp only; rw [div_mul_cancel₀ _ d.ne']; ring
      · simp only; rw [hy]; ring

theorem mem_vertical_iff {x y y' : ℚ} (h : y ≤ y') {q : Point} :
    q ∈ (Segment.mk ⟨x, y⟩ ⟨x, y'⟩).pts ↔ q.x = x ∧ y ≤ q.y ∧ q.y ≤ y' := by
  constructor
  · rintro ⟨t, t0, t1, tx, ty⟩
    simp only at tx ty
    exact ⟨by linarith, by nlinarith, by nlinarith⟩
  · rintro ⟨hy, h1, h2⟩
    rcases h.eq_or_lt with rfl | h
    · exact ⟨0, by simp, by simp, by simp [hy], by simp; linarith⟩
    · have d : 0 < y' - y := by linarith
      refine ⟨(q.y - y) / (y' - y), div_nonneg (by linarith) d.le, (div_le_one d).2 (by linarith), ?_, ?_⟩
      · simp only; rw [hy]; ring
      · simp only; rw [div_mul_cancel₀ _ d.ne']; ring

theorem square_edges (x y a : ℚ) : (squareContour x y a).edges =
    [⟨⟨x, y⟩, ⟨x + a, y⟩⟩, ⟨⟨x + a, y⟩, ⟨x + a, y + a⟩⟩, ⟨⟨x + a, y + a⟩, ⟨x, y + a⟩⟩, ⟨⟨x, y + a⟩, ⟨x, y⟩⟩] := rfl

variable {x y a : ℚ}

theorem square_segsPts (ha : 0 < a) {q : Point} : q ∈ segsPts (squareContour x y a).edges ↔
    (q.y = y ∧ x ≤ q.x ∧ q.x ≤ x + a) ∨ (q.x = x + a ∧ y ≤ q.y ∧ q.y ≤ y + a) ∨
    (q.y = y + a ∧ x ≤ q.x ∧ q.x ≤ x + a) ∨ (q.x = x ∧ y ≤ q.y ∧ q.y ≤ y + a) := by
  have ha' : x ≤ x + a := by linarith
  have ha'' : y ≤ y + a := by linarith
  rw [square_edges, ← mem_horizontal_iff ha', ← mem_vertical_iff ha'', ← mem_horizontal_iff ha', ← mem_vertical_iff ha'',
    Segment.pts_swap ⟨x, y + a⟩ ⟨x + a, y + a⟩, Segment.pts_swap ⟨x, y⟩ ⟨x, y + a⟩]
  unfold segsPts
  simp

theorem square_inside (ha : 0 < a) {q : Point} : Inside (squareContour x y a).edges q ↔
    x ≤ q.x ∧ q.x < x + a ∧ y < q.y ∧ q.y ≤ y + a := by
  have hlt : ∀ z : ℚ, (⟨x, z⟩ : Point) ≤ ⟨x + a, z⟩ := fun z => by rw [Point.le_def]; left; simpa using ha
  have hlt' : ∀ z : ℚ, (⟨z, y⟩ : Point) ≤ ⟨z, y + a⟩ := fun z => by rw [Point.le_def]; right; simpa using ha.le
  have b1 : IsBelow ⟨⟨x, y⟩, ⟨x + a, y⟩⟩ q ↔ x ≤ q.x ∧ q.x < x + a ∧ y < q.y := by
    unfold IsBelow Segment.lo Segment.hi
    rw [min_eq_left (hlt y), max_eq_right (hlt y)]
    unfold cross
    simp only
    refine and_congr_right fun _ => and_congr_right fun _ => ?_
    constructor
    · intro h; by_contra hn; push Not at hn; nlinarith
    · intro h; nlinarith
  have b2 : ¬ IsBelow ⟨⟨x + a, y⟩, ⟨x + a, y + a⟩⟩ q := by
    unfold IsBelow Segment.lo Segment.hi
    rw [min_eq_left (hlt' _), max_eq_right (hlt' _)]
    rintro ⟨h1, h2, -⟩
    simp only at h1 h2
    linarith
  have b3 : IsBelow ⟨⟨x + a, y + a⟩, ⟨x, y + a⟩⟩ q ↔ x ≤ q.x ∧ q.x < x + a ∧ y + a < q.y := by
    unfold IsBelow Segment.lo Segment.hi
    rw [min_eq_right (hlt _), max_eq_left (hlt _)]
    unfold cross
    simp only
    refine and_congr_right fun _ => and_congr_right fun _ => ?_
    constructor
    · intro h; by_contra hn; push Not at hn; nlinarith
    · intro h; nlinarith
  have b4 : ¬ IsBelow ⟨⟨x, y + a⟩, ⟨x, y⟩⟩ q := by
    unfold IsBelow Segment.lo Segment.hi
    rw [min_eq_right (hlt' _), max_eq_left (hlt' _)]
    rintro ⟨h1, h2, -⟩
    simp only at h1 h2
    linarith
  rw [square_edges]
  unfold Inside
  simp only [List.countP_cons, List.countP_nil, b1, b2, b3, b4, decide_false, decide_eq_true_eq]
  by_cases h1 : x ≤ q.x ∧ q.x < x + a
  · by_cases h2 : y < q.y
    · by_cases h3 : y + a < q.y
      · simp [h1, h2, h3, not_le.2 h3]
      · simp [h1, h2, h3, not_lt.1 h3]
    · have h3 : ¬ y + a < q.y := by intro h; linarith
      simp [h1, h2, h3]
  · have n1 : ¬ (x ≤ q.x ∧ q.x < x + a ∧ y < q.y) := fun h => h1 ⟨h.1, h.2.1⟩
    have n3 : ¬ (x ≤ q.x ∧ q.x < x + a ∧ y + a < q.y) := fun h => h1 ⟨h.1, h.2.1⟩
    have n4 : ¬ (x ≤ q.x ∧ q.x < x + a ∧ y < q.y ∧ q.y ≤ y + a) := fun h => h1 ⟨h.1, h.2.1⟩
    simp [n1, n3, n4]

theorem square_region (ha : 0 < a) {q : Point} : q ∈ regionPts (squareContour x y a).edges ↔
    x ≤ q.x ∧ q.x ≤ x + a ∧ y ≤ q.y ∧ q.y ≤ y + a := by
  unfold regionPts
  rw [Set.mem_ofPred_eq, square_segsPts ha, square_inside ha]
  constructor
  · rintro ((⟨h1, h2, h3⟩ | ⟨h1, h2, h3⟩ | ⟨h1, h2, h3⟩ | ⟨h1, h2, h3⟩) | ⟨h1, h2, h3, h4⟩) <;>
      refine ⟨?_, ?_, ?_, ?_⟩ <;> linarith
  · rintro ⟨h1, h2, h3, h4⟩
    rcases h2.eq_or_lt with h2 | h2
    · exact Or.inl (Or.inr (Or.inl ⟨h2, h3, h4⟩))
    · rcases h3.eq_or_lt with h3 | h3
      · exact Or.inl (Or.inl ⟨h3.symm, h1, h2.le⟩)
      · exact Or.inr ⟨h1, h2, h3, h4⟩

theorem squareContour_simple (ha : 0 < a) : SimpleContour (squareContour x y a) where
  three := by simp [squareContour]
  nodup := by
    have : x ≠ x + a := by linarith
    have : y ≠ y + a := by linarith
    simp [squareContour]
    exact fun h => by linarith
  ends := by
    rw [square_edges]
    have ha' : x ≤ x + a := by linarith
    have ha'' : y ≤ y + a := by linarith
    have hh := @mem_horizontal_iff x (x + a) y ha'
    have hh' := @mem_horizontal_iff x (x + a) (y + a) ha'
    have hv := @mem_vertical_iff x y (y + a) ha''
    have hv' := @mem_vertical_iff (x + a) y (y + a) ha''
    rw [Segment.pts_swap] at hh' hv
    unfold EndsOnly
    simp only [List.pairwise_cons, List.mem_cons, List.not_mem_nil, or_false, forall_eq_or_imp, forall_eq,
      List.Pairwise.nil, and_true, IsEmpty.forall_iff, implies_true, hh, hh', hv, hv']
    refine ⟨⟨?_, ?_, ?_⟩, ⟨?_, ?_⟩, ?_⟩
    · rintro ⟨qx, qy⟩ ⟨h1, h2, h3⟩ ⟨h4, h5, h6⟩
      simp only at *
      subst h1 h4
      exact ⟨Or.inr rfl, Or.inl rfl⟩
    · rintro ⟨qx, qy⟩ ⟨h1, h2, h3⟩ ⟨h4, h5, h6⟩
      simp only at *
      linarith
    · rintro ⟨qx, qy⟩ ⟨h1, h2, h3⟩ ⟨h4, h5, h6⟩
      simp only at *
      subst h1 h4
      exact ⟨Or.inl rfl, Or.inr rfl⟩
    · rintro ⟨qx, qy⟩ ⟨h1, h2, h3⟩ ⟨h4, h5, h6⟩
      simp only at *
      subst h1 h4
      exact ⟨Or.inr rfl, Or.inl rfl⟩
    · rintro ⟨qx, qy⟩ ⟨h1, h2, h3⟩ ⟨h4, h5, h6⟩
      simp only at *
      linarith
    · rintro ⟨qx, qy⟩ ⟨h1, h2, h3⟩ ⟨h4, h5, h6⟩
      simp only at *
      subst h1 h4
      exact ⟨Or.inr rfl, Or.inl rfl⟩

variable {b c : ℚ}

theorem noOverlap_of_disjoint {A B : List Segment} (hA : NoOverlap A) (hB : NoOverlap B)
    (h : ∀ q ∈ segsPts A, q ∉ segsPts B) : NoOverlap (A ++ B) := by
  refine hA.append hB ?_
  rintro s hs t ht ⟨p, -, -, h1, -, h3, -⟩
  exact h p ⟨s, hs, h1⟩ ⟨t, ht, h3⟩

theorem frame_edges (x y a b c : ℚ) : (frame x y a b c).edges =
    (squareContour x y a).edges ++ (squareContour (x + b) (y + b) c).edges := by
  unfold frame Polygon.edges
  simp

theorem frame_apart (hb : 0 < b) (hc : 0 < c) (h : b + c < a) (q : Point) (hq : q ∈ segsPts (squareContour x y a).edges) :
    q ∉ regionPts (squareContour (x + b) (y + b) c).edges := by
  have ha : 0 < a := by linarith
  rw [square_segsPts ha] at hq
  rw [square_region hc]
  rintro ⟨h1, h2, h3, h4⟩
  rcases hq with ⟨g1, -, -⟩ | ⟨g1, -, -⟩ | ⟨g1, -, -⟩ | ⟨g1, -, -⟩ <;> linarith

theorem frame_valid (hb : 0 < b) (hc : 0 < c) (h : b + c < a) : ValidPolygon (frame x y a b c) where
  border := squareContour_simple (by linarith)
  holes := by
    intro d hd
    rw [List.mem_singleton.1 hd]
    exact squareContour_simple hc
  noOverlap := by
    rw [frame_edges]
    exact noOverlap_of_disjoint (squareContour_simple (by linarith)).noOverlap (squareContour_simple hc).noOverlap
      fun q hq hq' => frame_apart hb hc h q hq (Or.inl hq')
  inside := by
    intro d hd
    rw [List.mem_singleton.1 hd]
    intro q hq
    rw [square_region hc] at hq
    show q ∈ regionPts (squareContour x y a).edges
    rw [square_region (by linarith)]
    obtain ⟨h1, h2, h3, h4⟩ := hq
    refine ⟨?_, ?_, ?_, ?_⟩ <;> linarith
  outside := by
    intro d hd
    rw [List.mem_singleton.1 hd]
    intro q hq _ hi
    exact frame_apart hb hc h q hq (Or.inr hi)
  apart := List.pairwise_singleton _ _

theorem frame_box (hb : 0 < b) (hc : 0 < c) (h : b + c < a) {q : Point} (hq : q ∈ regionPts (frame x y a b c).edges) :
    x ≤ q.x ∧ q.x ≤ x + a ∧ y ≤ q.y ∧ q.y ≤ y + a := by
  have ha : 0 < a := by linarith
  rw [frame_edges] at hq
  rw [← square_region ha]
  rcases hq with hq | hq
  · rw [segsPts_append] at hq
    rcases hq with hq | hq
    · exact Or.inl hq
    · have : q ∈ regionPts (squareContour (x + b) (y + b) c).edges := Or.inl hq
      rw [square_region hc] at this
      rw [square_region ha]
      obtain ⟨h1, h2, h3, h4⟩ := this
      refine ⟨?_, ?_, ?_, ?_⟩ <;> linarith
  · rw [inside_append] at hq
    by_cases hi : Inside (squareContour x y a).edges q
    · exact Or.inr hi
    · have h2 : Inside (squareContour (x + b) (y + b) c).edges q := by tauto
      have : q ∈ regionPts (squareContour (x + b) (y + b) c).edges := Or.inr h2
      rw [square_region hc] at this
      rw [square_region ha]
      obtain ⟨h1, h2, h3, h4⟩ := this
      refine ⟨?_, ?_, ?_, ?_⟩ <;> linarith

/-- two frames side by side -/
theorem frames_valid {x' : ℚ} (hb : 0 < b) (hc : 0 < c) (h : b + c < a) (hx : x + a < x') :
    ValidPolygons [frame x y a b c, frame x' y a b c] where
  valid := by
    intro p hp
    simp only [List.mem_cons, List.not_mem_nil, or_false] at hp
    rcases hp with rfl | rfl <;> exact frame_valid hb hc h
  noOverlap := by
    rw [List.flatMap_cons, List.flatMap_cons, List.flatMap_nil, List.append_nil]
    refine noOverlap_of_disjoint (frame_valid hb hc h).noOverlap (frame_valid hb hc h).noOverlap ?_
    intro q h1 h2
    have g1 := frame_box hb hc h (Or.inl h1)
    have g2 := frame_box hb hc h (Or.inl h2)
    linarith [g1.2.1, g2.1]
  apart := by
    rw [List.pairwise_pair]
    constructor
    · intro q h1 _ h2
      have g1 := frame_box hb hc h h1
      have g2 := frame_box hb hc h (Or.inr h2)
      linarith [g1.2.1, g2.1]
    · intro q h1 _ h2
      have g1 := frame_box hb hc h h1
      have g2 := frame_box hb hc h (Or.inr h2)
      linarith [g1.1, g2.2.1]

end Clipping

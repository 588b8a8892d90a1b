import Verif.Lemmas.Region.Check
import Verif.Lemmas.Region.Triangle

/-!
# Triangles with a vertical right edge, for examples of polygons with holes which touch the border
-/

namespace Clipping

/-- The triangle with the vertices `a`, `(x, y)`, `(x, y')`. -/
def wedge (a : Point) (x y y' : ℚ) : Contour := ⟨[a, ⟨x, y⟩, ⟨x, y'⟩]⟩

theorem wedge_edges (a : Point) (x y y' : ℚ) :
    (wedge a x y y').edges = [⟨a, ⟨x, y⟩⟩, ⟨⟨x, y⟩, ⟨x, y'⟩⟩, ⟨⟨x, y'⟩, a⟩] := rfl

variable {a : Point} {x y y' : ℚ}

theorem wedge_simple (hx : a.x < x) (hy : y < y') : SimpleContour (wedge a x y y') := by
  refine triangle_simple (a := a) (b := ⟨x, y⟩) (c := ⟨x, y'⟩) ?_
  have : cross a ⟨x, y⟩ ⟨x, y'⟩ = (x - a.x) * (y' - y) := by unfold cross; ring
  rw [this]
  exact ne_of_gt (mul_pos (by linarith) (by linarith))

theorem mem_slope_iff (hx : a.x < x) {q : Point} :
    q ∈ (Segment.mk a ⟨x, y⟩).pts ↔ a.x ≤ q.x ∧ q.x ≤ x ∧ cross a ⟨x, y⟩ q = 0 := by
  constructor
  · rintro ⟨t, t0, t1, tx, ty⟩
    simp only at tx ty
    refine ⟨by nlinarith, by nlinarith, ?_⟩
    unfold cross; simp only; rw [tx, ty]; ring
  · rintro ⟨h1, h2, h3⟩
    have hp : 0 < x - a.x := by linarith
    have hd : (q.x - a.x) / (x - a.x) * (x - a.x) = q.x - a.x := div_mul_cancel₀ _ hp.ne'
    refine ⟨(q.x - a.x) / (x - a.x), div_nonneg (by linarith) hp.le, (div_le_one hp).2 (by linarith), by simp only; linarith, ?_⟩
    simp only
    unfold cross at h3; simp only at h3
    have : (x - a.x) * (q.y - (a.y + (q.x - a.x) / (x - a.x) * (y - a.y))) = 0 := by
      linear_combination h3 + (y - a.y) * (-hd)
    have := (mul_eq_zero.1 this).resolve_left hp.ne'
    linarith

theorem mem_upright_iff (hy : y < y') {q : Point} :
    q ∈ (Segment.mk ⟨x, y⟩ ⟨x, y'⟩).pts ↔ q.x = x ∧ y ≤ q.y ∧ q.y ≤ y' := by
  constructor
  · rintro ⟨t, t0, t1, tx, ty⟩
    simp only at tx ty
    refine ⟨by linarith, by nlinarith, by nlinarith⟩
  · rintro ⟨h1, h2, h3⟩
    have hp : 0 < y' - y := by linarith
    have hd : (q.y - y) / (y' - y) * (y' - y) = q.y - y := div_mul_cancel₀ _ hp.ne'
    exact ⟨(q.y - y) / (y' - y), div_nonneg (by linarith) hp.le, (div_le_one hp).2 (by linarith), by simp only; linarith,
      by simp only; linarith⟩

theorem wedge_segsPts (hx : a.x < x) (hy : y < y') {q : Point} : q ∈ segsPts (wedge a x y y').edges ↔
    (a.x ≤ q.x ∧ q.x ≤ x ∧ cross a ⟨x, y⟩ q = 0) ∨ (q.x = x ∧ y ≤ q.y ∧ q.y ≤ y') ∨
    (a.x ≤ q.x ∧ q.x ≤ x ∧ cross a ⟨x, y'⟩ q = 0) := by
  rw [← mem_slope_iff hx, ← mem_slope_iff hx, ← mem_upright_iff hy, wedge_edges]
  have : (Segment.mk ⟨x, y'⟩ a).pts = (Segment.mk a ⟨x, y'⟩).pts := Segment.swap_pts ⟨a, ⟨x, y'⟩⟩
  simp only [segsPts, Set.mem_ofPred_eq, List.mem_cons, List.not_mem_nil, or_false, exists_eq_or_imp, exists_eq_left, this]

theorem wedge_cross (a : Point) (x y y' : ℚ) (q : Point) :
    cross a ⟨x, y'⟩ q = cross a ⟨x, y⟩ q - (y' - y) * (q.x - a.x) := by
  unfold cross; ring

theorem wedge_inside (hx : a.x < x) (hy : y < y') {q : Point} : Inside (wedge a x y y').edges q ↔
    a.x ≤ q.x ∧ q.x < x ∧ 0 < cross a ⟨x, y⟩ q ∧ cross a ⟨x, y'⟩ q ≤ 0 := by
  have l1 : a ≤ (⟨x, y⟩ : Point) := by rw [Point.le_def]; exact Or.inl hx
  have l2 : a ≤ (⟨x, y'⟩ : Point) := by rw [Point.le_def]; exact Or.inl hx
  have l3 : (⟨x, y⟩ : Point) ≤ ⟨x, y'⟩ := by rw [Point.le_def]; exact Or.inr ⟨rfl, hy.le⟩
  have b1 : IsBelow ⟨a, ⟨x, y⟩⟩ q ↔ a.x ≤ q.x ∧ q.x < x ∧ 0 < cross a ⟨x, y⟩ q := by
    unfold IsBelow Segment.lo Segment.hi
    rw [min_eq_left l1, max_eq_right l1]
  have b2 : ¬ IsBelow ⟨⟨x, y⟩, ⟨x, y'⟩⟩ q := by
    unfold IsBelow Segment.lo Segment.hi
    rw [min_eq_left l3, max_eq_right l3]
    rintro ⟨h1, h2, -⟩
    simp only at h1 h2
    linarith
  have b3 : IsBelow ⟨⟨x, y'⟩, a⟩ q ↔ a.x ≤ q.x ∧ q.x < x ∧ 0 < cross a ⟨x, y'⟩ q := by
    unfold IsBelow Segment.lo Segment.hi
    rw [min_eq_right l2, max_eq_left l2]
  have hc := wedge_cross a x y y' q
  unfold Inside
  rw [wedge_edges]
  by_cases h1 : IsBelow ⟨a, ⟨x, y⟩⟩ q
  · by_cases h3 : IsBelow ⟨⟨x, y'⟩, a⟩ q
    · simp only [List.countP_cons, List.countP_nil, h1, b2, h3, decide_true, decide_false, if_true]
      rw [b3] at h3
      exact ⟨fun h => absurd h (by decide), fun h => absurd h3.2.2 (not_lt.2 h.2.2.2)⟩
    · simp only [List.countP_cons, List.countP_nil, h1, b2, h3, decide_true, decide_false, if_true]
      rw [b1] at h1
      simp only [b3, h1.1, h1.2.1, true_and, not_lt] at h3
      simp [h1.1, h1.2.1, h1.2.2, h3]
  · have h3 : ¬ IsBelow ⟨⟨x, y'⟩, a⟩ q := by
      rw [b3]; rintro ⟨g1, g2, g3⟩
      apply h1; rw [b1]
      refine ⟨g1, g2, ?_⟩
      have : 0 ≤ (y' - y) * (q.x - a.x) := mul_nonneg (by linarith) (by linarith)
      linarith
    simp only [List.countP_cons, List.countP_nil, h1, b2, h3, decide_false]
    rw [b1] at h1
    simp only [Bool.false_eq_true, if_false, add_zero]
    exact ⟨fun h => absurd h (by decide), fun h => absurd ⟨h.1, h.2.1, h.2.2.1⟩ h1⟩

theorem wedge_region (hx : a.x < x) (hy : y < y') {q : Point} : q ∈ regionPts (wedge a x y y').edges ↔
    a.x ≤ q.x ∧ q.x ≤ x ∧ 0 ≤ cross a ⟨x, y⟩ q ∧ cross a ⟨x, y'⟩ q ≤ 0 := by
  have hc := wedge_cross a x y y' q
  have hp : 0 < x - a.x := by linarith
  unfold regionPts
  rw [Set.mem_ofPred_eq, wedge_segsPts hx hy, wedge_inside hx hy]
  constructor
  · rintro ((⟨h1, h2, h3⟩ | ⟨h1, h2, h3⟩ | ⟨h1, h2, h3⟩) | ⟨h1, h2, h3, h4⟩)
    · have : 0 ≤ (y' - y) * (q.x - a.x) := mul_nonneg (by linarith) (by linarith)
      exact ⟨h1, h2, h3.ge, by linarith⟩
    · refine ⟨by linarith, h1.le, ?_, ?_⟩
      · have : cross a ⟨x, y⟩ q = (x - a.x) * (q.y - y) := by unfold cross; rw [h1]; ring
        rw [this]; exact mul_nonneg hp.le (by linarith)
      · have : cross a ⟨x, y'⟩ q = - ((x - a.x) * (y' - q.y)) := by unfold cross; rw [h1]; ring
        rw [this, neg_nonpos]; exact mul_nonneg hp.le (by linarith)
    · have : 0 ≤ (y' - y) * (q.x - a.x) := mul_nonneg (by linarith) (by linarith)
      exact ⟨h1, h2, by linarith, h3.le⟩
    · exact ⟨h1, h2.le, h3.le, h4⟩
  · rintro ⟨h1, h2, h3, h4⟩
    rcases h3.eq_or_lt with h3 | h3
    · exact Or.inl (Or.inl ⟨h1, h2, h3.symm⟩)
    rcases h2.eq_or_lt with h2 | h2
    · refine Or.inl (Or.inr (Or.inl ⟨h2, ?_, ?_⟩))
      · have : cross a ⟨x, y⟩ q = (x - a.x) * (q.y - y) := by unfold cross; rw [h2]; ring
        rw [this] at h3
        exact le_of_lt (by linarith [pos_of_mul_pos_right h3 hp.le])
      · have : cross a ⟨x, y'⟩ q = - ((x - a.x) * (y' - q.y)) := by unfold cross; rw [h2]; ring
        rw [this, neg_nonpos] at h4
        linarith [nonneg_of_mul_nonneg_right h4 hp]
    · exact Or.inr ⟨h1, h2, h3, h4⟩

end Clipping

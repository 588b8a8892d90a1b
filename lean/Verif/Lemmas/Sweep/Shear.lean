import Verif.Lemmas.Sweep.Basic
import Verif.Lemmas.Relation
import Mathlib.Algebra.Order.Field.Basic

/-!
# Shearing the plane

`sx ε p = p.x + ε * p.y` orders a finite set of points lexicographically if `ε` is small enough.  In
the sheared plane a segment with ascending end points is the graph of an affine function.
-/

namespace Clipping.Sweep

/-- the sweep coordinate -/
def sx (ε : ℚ) (p : Point) : ℚ := p.x + ε * p.y

/-- The sweep coordinate orders `P` lexicographically. -/
def Orders (ε : ℚ) (P : List Point) : Prop := ∀ p ∈ P, ∀ q ∈ P, p < q → sx ε p < sx ε q

theorem orders_pair (p q : Point) : ∃ ε₀ > 0, ∀ ε, 0 < ε → ε ≤ ε₀ → p < q → sx ε p < sx ε q := by
  by_cases h : p.x < q.x
  · have hd : 0 < |q.y - p.y| + 1 := by positivity
    refine ⟨(q.x - p.x) / (2 * (|q.y - p.y| + 1)), by apply div_pos <;> linarith, ?_⟩
    intro ε h0 h1 _
    rw [le_div_iff₀ (by linarith)] at h1
    unfold sx
    have h2 : ε * (p.y - q.y) ≤ ε * |q.y - p.y| := by
      apply mul_le_mul_of_nonneg_left _ h0.le
      rw [abs_sub_comm]; exact le_abs_self _
    have h3 : 0 ≤ ε * |q.y - p.y| := by positivity
    nlinarith
  · refine ⟨1, one_pos, fun ε h0 _ hlt => ?_⟩
    rw [Point.lt_def] at hlt
    rcases hlt with hlt | ⟨h1, h2⟩
    · exact absurd hlt h
    · unfold sx; rw [h1]; nlinarith

theorem orders_list (l : List (Point × Point)) :
    ∃ ε₀ > 0, ∀ ε, 0 < ε → ε ≤ ε₀ → ∀ pq ∈ l, pq.1 < pq.2 → sx ε pq.1 < sx ε pq.2 := by
  induction l with
  | nil => exact ⟨1, one_pos, by simp⟩
  | cons x l ih =>
    obtain ⟨e1, h1, g1⟩ := ih
    obtain ⟨e2, h2, g2⟩ := orders_pair x.1 x.2
    refine ⟨min e1 e2, lt_min h1 h2, fun ε h0 hε pq hpq => ?_⟩
    rcases List.mem_cons.1 hpq with rfl | hpq
    · exact g2 ε h0 (hε.trans (min_le_right _ _))
    · exact g1 ε h0 (hε.trans (min_le_left _ _)) pq hpq

/-- Some shear orders a given finite set of points. -/
theorem exists_orders (P : List Point) : ∃ ε, Orders ε P := by
  obtain ⟨e, h, g⟩ := orders_list (P.flatMap fun p => P.map fun q => (p, q))
  refine ⟨e, fun p hp q hq => g e h le_rfl (p, q) ?_⟩
  simp only [List.mem_flatMap, List.mem_map]
  exact ⟨p, hp, q, hq, rfl⟩

variable {ε : ℚ} {P : List Point} {p q : Point}

theorem Orders.lt_iff (h : Orders ε P) (hp : p ∈ P) (hq : q ∈ P) : p < q ↔ sx ε p < sx ε q := by
  refine ⟨h p hp q hq, fun hlt => ?_⟩
  rcases lt_trichotomy p q with g | g | g
  · exact g
  · subst g; exact absurd hlt (lt_irrefl _)
  · exact absurd (h q hq p hp g) (not_lt.2 hlt.le)

theorem Orders.le_iff (h : Orders ε P) (hp : p ∈ P) (hq : q ∈ P) : p ≤ q ↔ sx ε p ≤ sx ε q := by
  rw [← not_lt, ← not_lt, h.lt_iff hq hp]

theorem Orders.eq_iff (h : Orders ε P) (hp : p ∈ P) (hq : q ∈ P) : p = q ↔ sx ε p = sx ε q := by
  rw [le_antisymm_iff, le_antisymm_iff, h.le_iff hp hq, h.le_iff hq hp]

/-- The segment with end points `s`, `e` in the sheared plane. -/
def seg (ε : ℚ) (s e : Point) (ff : Bool) : Seg where
  a := sx ε s
  b := sx ε e
  m := (e.y - s.y) / (sx ε e - sx ε s)
  k := s.y - (e.y - s.y) / (sx ε e - sx ε s) * sx ε s
  ff := ff

variable {s e s' e' : Point} {ff ff' : Bool}

theorem seg_y_start : (seg ε s e ff).y (sx ε s) = s.y := by simp only [Seg.y, seg]; ring

theorem seg_y_stop (h : sx ε s < sx ε e) : (seg ε s e ff).y (sx ε e) = e.y := by
  simp only [Seg.y, seg]
  have hd : sx ε e - sx ε s ≠ 0 := by linarith
  have := div_mul_cancel₀ (e.y - s.y) hd
  linear_combination this

theorem cross_seg (h : sx ε s < sx ε e) (q : Point) :
    cross s e q = (sx ε e - sx ε s) * (q.y - (seg ε s e ff).y (sx ε q)) := by
  have hd : sx ε e - sx ε s ≠ 0 := by linarith
  have := div_mul_cancel₀ (e.y - s.y) hd
  simp only [Seg.y, seg]
  have e1 : (sx ε e - sx ε s) * (q.y - ((e.y - s.y) / (sx ε e - sx ε s) * sx ε q +
      (s.y - (e.y - s.y) / (sx ε e - sx ε s) * sx ε s))) =
      (sx ε e - sx ε s) * (q.y - s.y) - (e.y - s.y) * (sx ε q - sx ε s) := by
    linear_combination -(sx ε q - sx ε s) * this
  rw [e1]
  unfold cross sx
  ring

theorem cross_pos_iff (h : sx ε s < sx ε e) (q : Point) :
    0 < cross s e q ↔ (seg ε s e ff).y (sx ε q) < q.y := by
  rw [cross_seg h (ff := ff), mul_pos_iff_of_pos_left (by linarith), sub_pos]

theorem cross_neg_iff (h : sx ε s < sx ε e) (q : Point) :
    cross s e q < 0 ↔ q.y < (seg ε s e ff).y (sx ε q) := by
  have h0 : 0 < sx ε e - sx ε s := by linarith
  rw [cross_seg h (ff := ff)]
  constructor
  · intro g; by_contra hn; push Not at hn; nlinarith
  · intro g; nlinarith

theorem cross_zero_iff (h : sx ε s < sx ε e) (q : Point) :
    cross s e q = 0 ↔ (seg ε s e ff).y (sx ε q) = q.y := by
  rw [cross_seg h (ff := ff), mul_eq_zero, sub_eq_zero, sub_eq_zero]
  constructor
  · rintro (g | g)
    · exact absurd g h.ne'
    · exact g.symm
  · exact fun g => Or.inr g.symm

/-- Points of a segment in the sheared plane. -/
theorem mem_seg (h : sx ε s < sx ε e) : q ∈ (Segment.mk s e).pts ↔
    (seg ε s e ff).a ≤ sx ε q ∧ sx ε q ≤ (seg ε s e ff).b ∧ (seg ε s e ff).y (sx ε q) = q.y := by
  rw [← cross_zero_iff h, Segment.mem_pts]
  constructor
  · rintro ⟨t, t0, t1, hx, hy⟩
    have hq : sx ε q = sx ε s + t * (sx ε e - sx ε s) := by
      simp only at hx hy
      unfold sx; rw [hx, hy]; ring
    refine ⟨?_, ?_, ?_⟩
    · simp only [seg]; rw [hq]; nlinarith
    · simp only [seg]; rw [hq]; nlinarith
    · unfold cross; simp only at hx hy; rw [hx, hy]; ring
  · rintro ⟨h1, h2, h3⟩
    simp only [seg] at h1 h2
    have hd : 0 < sx ε e - sx ε s := by linarith
    have ht := div_mul_cancel₀ (sx ε q - sx ε s) hd.ne'
    have hy : q.y = s.y + (sx ε q - sx ε s) / (sx ε e - sx ε s) * (e.y - s.y) := by
      apply mul_right_cancel₀ hd.ne'
      have : q.y * (sx ε e - sx ε s) = s.y * (sx ε e - sx ε s) + (e.y - s.y) * (sx ε q - sx ε s) := by
        unfold cross at h3; unfold sx; linear_combination h3
      linear_combination this - (e.y - s.y) * ht
    refine ⟨(sx ε q - sx ε s) / (sx ε e - sx ε s), div_nonneg (by linarith) hd.le,
      (div_le_one hd).2 (by linarith), ?_, hy⟩
    simp only
    unfold sx at ht hy hd h h1 h2 ⊢
    linear_combination (-1) * ht - ε * hy

theorem pt_eq (hx : sx ε p = sx ε q) (hy : p.y = q.y) : p = q := by
  unfold sx at hx; rw [hy] at hx
  exact Point.ext' (by linarith) hy

/-- the point with sweep coordinate `c` and ordinate `y` -/
def pointAt (ε c y : ℚ) : Point := ⟨c - ε * y, y⟩

@[simp] theorem sx_pointAt (ε c y : ℚ) : sx ε (pointAt ε c y) = c := by unfold sx pointAt; ring
@[simp] theorem y_pointAt (ε c y : ℚ) : (pointAt ε c y).y = y := rfl

/-- common abscissas are abscissas of common points -/
theorem com_seg (h : sx ε s < sx ε e) (h' : sx ε s' < sx ε e') {c : ℚ} :
    Com (seg ε s e ff) (seg ε s' e' ff') c ↔
    ∃ q, q ∈ (Segment.mk s e).pts ∧ q ∈ (Segment.mk s' e').pts ∧ sx ε q = c := by
  constructor
  · rintro ⟨h1, h2, h3, h4, h5⟩
    refine ⟨pointAt ε c ((seg ε s e ff).y c), (mem_seg (ff := ff) h).2 (by simp [h1, h2]),
      (mem_seg (ff := ff') h').2 ?_, by simp⟩
    simp only [sx_pointAt, y_pointAt]
    exact ⟨h3, h4, h5.symm⟩
  · rintro ⟨q, h1, h2, rfl⟩
    have g1 := (mem_seg (ff := ff) h).1 h1
    have g2 := (mem_seg (ff := ff') h').1 h2
    exact ⟨g1.1, g1.2.1, g2.1, g2.2.1, g1.2.2.trans g2.2.2.symm⟩

/-- on the same line -/
theorem col_seg (h : sx ε s < sx ε e) (h' : sx ε s' < sx ε e') :
    Col (seg ε s e ff) (seg ε s' e' ff') ↔ cross s e s' = 0 ∧ cross s e e' = 0 := by
  rw [cross_zero_iff h (ff := ff), cross_zero_iff h (ff := ff)]
  constructor
  · intro hc
    rw [hc.y, hc.y]
    exact ⟨seg_y_start, seg_y_stop h'⟩
  · rintro ⟨h1, h2⟩
    refine col_of_two h'.ne ?_ ?_
    · rw [h1]; exact seg_y_start.symm
    · rw [h2]; exact (seg_y_stop h').symm

end Clipping.Sweep

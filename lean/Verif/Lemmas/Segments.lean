import Verif.Lemmas.Intersection
import Verif.Model.Segments
import Verif.Spec.Geometry
import Mathlib.Data.Set.Finite.Lattice

/-! # Helper lemmas for the segment/segment functions -/

namespace Clipping

/-- Points of a segment lying on the line of the proper segment `t`. -/
theorem mem_on_line {t : Segment} (ht : t.Proper) {u v : Point} (hu : cross t.lo t.hi u = 0)
    (hv : cross t.lo t.hi v = 0) (huv : u ≤ v) {p : Point} :
    p ∈ (Segment.mk u v).pts ↔ cross t.lo t.hi p = 0 ∧ u ≤ p ∧ p ≤ v := by
  rcases huv.lt_or_eq with h | h
  · rw [Segment.mem_mk_iff h, line_eq (Segment.lo_lt_hi ht).ne h.ne hu hv]
  · subst h
    constructor
    · rintro ⟨r, -, -, hx, hy⟩
      have : p = u := Point.ext' (by simp at hx; exact hx) (by simp at hy; exact hy)
      subst this; exact ⟨hu, le_rfl, le_rfl⟩
    · rintro ⟨-, h1, h2⟩
      rw [le_antisymm h2 h1]; exact Segment.start_mem _

theorem SameLine.of_lo_hi {s t : Segment} (h1 : s.lo = t.lo) (h2 : s.hi = t.hi) : SameLine s t := by
  unfold SameLine; rw [h1, h2]; exact ⟨cross_self_left _ _, cross_self_right _ _⟩

theorem sorted4_eq (s t : Segment) : sorted4 s.start s.stop t.start t.stop =
    (min s.lo t.lo, min (max s.lo t.lo) (min s.hi t.hi), max (max s.lo t.lo) (min s.hi t.hi),
      max s.hi t.hi) := rfl

theorem pts_eq_of_lo_hi {s t : Segment} (h1 : s.lo = t.lo) (h2 : s.hi = t.hi) : s.pts = t.pts := by
  rw [← Segment.pts_norm s, ← Segment.pts_norm t]; unfold Segment.norm; rw [h1, h2]

theorem eq_lo_or_hi {s : Segment} {p : Point} : (p = s.start ∨ p = s.stop) ↔ (p = s.lo ∨ p = s.hi) :=
  Segment.isEnd_iff

theorem pts_finite_of_unique {A : Set Point} {p : Point} (h : ∀ q ∈ A, q = p) : A.Finite :=
  (Set.finite_singleton p).subset h

/-- Splitting a segment at one of its points. -/
theorem split_pts {s : Segment} {c : Point} (hc : c ∈ s.pts) :
    (Segment.mk s.start c).pts ∪ (Segment.mk c s.stop).pts = s.pts := by
  obtain ⟨r, h0, h1, hx, hy⟩ := hc
  ext p
  constructor
  · rintro (⟨t, t0, t1, px, py⟩ | ⟨t, t0, t1, px, py⟩)
    · refine ⟨t * r, mul_nonneg t0 h0, by nlinarith, ?_, ?_⟩
      · simp only at px; rw [px, hx]; ring
      · simp only at py; rw [py, hy]; ring
    · refine ⟨r + t * (1 - r), by nlinarith, by nlinarith, ?_, ?_⟩
      · simp only at px; rw [px, hx]; ring
      · simp only at py; rw [py, hy]; ring
  · rintro ⟨t, t0, t1, px, py⟩
    rcases le_total t r with h | h
    · left
      rcases h0.eq_or_lt with h2 | h2
      · have : t = 0 := le_antisymm (h2 ▸ h) t0
        subst this
        exact ⟨0, le_rfl, by norm_num, by simp [px], by simp [py]⟩
      · refine ⟨t / r, div_nonneg t0 h0, (div_le_one h2).2 h, ?_, ?_⟩
        · simp only; rw [px, hx]; have := div_mul_cancel₀ t h2.ne'
          linear_combination -(s.stop.x - s.start.x) * this
        · simp only; rw [py, hy]; have := div_mul_cancel₀ t h2.ne'
          linear_combination -(s.stop.y - s.start.y) * this
    · right
      rcases h1.eq_or_lt with h2 | h2
      · have : t = 1 := le_antisymm t1 (h2 ▸ h)
        subst this
        exact ⟨1, by norm_num, le_rfl, by simp [px], by simp [py]⟩
      · have h3 : 0 < 1 - r := by linarith
        refine ⟨(t - r) / (1 - r), div_nonneg (by linarith) h3.le, (div_le_one h3).2 (by linarith), ?_, ?_⟩
        · simp only; rw [px, hx]; have := div_mul_cancel₀ (t - r) h3.ne'
          linear_combination -(s.stop.x - s.start.x) * this
        · simp only; rw [py, hy]; have := div_mul_cancel₀ (t - r) h3.ne'
          linear_combination -(s.stop.y - s.start.y) * this

theorem segsPts_nil : segsPts [] = ∅ := by unfold segsPts; simp

theorem segsPts_cons (s : Segment) (l : List Segment) : segsPts (s :: l) = s.pts ∪ segsPts l := by
  ext p; unfold segsPts; simp

theorem segsPts_append (l m : List Segment) : segsPts (l ++ m) = segsPts l ∪ segsPts m := by
  induction l with
  | nil => simp [segsPts_nil]
  | cons s l ih => rw [List.cons_append, segsPts_cons, segsPts_cons, ih, Set.union_assoc]

theorem unpackSegments_pts (l : List Segment) : (unpackSegments l).pts = segsPts l := by
  match l with
  | [] => rw [segsPts_nil]; rfl
  | [s] => rw [segsPts_cons, segsPts_nil, Set.union_empty]; rfl
  | s :: t :: r => rfl

/-- Point set of the overlap of two segments in each collinear relation. -/
theorem overlap_pts {s t : Segment} (ht : t.Proper) (hl : SameLine s t)
    (ho : max s.lo t.lo ≤ min s.hi t.hi) : (intersectSegmentsOverlap s t).pts = s.pts ∩ t.pts := by
  have hp : s.pts = {p | cross t.lo t.hi p = 0 ∧ s.lo ≤ p ∧ p ≤ s.hi} := by
    ext p; rw [← Segment.pts_norm s]; exact mem_on_line ht hl.1 hl.2 s.lo_le_hi
  have e : intersectSegmentsOverlap s t = ⟨max s.lo t.lo, min s.hi t.hi⟩ := by
    unfold intersectSegmentsOverlap; rw [sorted4_eq]
    simp only [min_eq_left ho, max_eq_right ho]
  have c1 : cross t.lo t.hi (max s.lo t.lo) = 0 := by
    rcases max_choice s.lo t.lo with h | h <;> rw [h]
    exacts [hl.1, cross_self_left _ _]
  have c2 : cross t.lo t.hi (min s.hi t.hi) = 0 := by
    rcases min_choice s.hi t.hi with h | h <;> rw [h]
    exacts [hl.2, cross_self_right _ _]
  rw [e, hp]
  ext p
  rw [mem_on_line ht c1 c2 ho, Set.mem_inter_iff, Segment.mem_iff ht, max_le_iff, le_min_iff]
  simp only [Set.mem_ofPred_eq]
  tauto

end Clipping

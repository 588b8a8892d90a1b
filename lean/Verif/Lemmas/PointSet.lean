import Verif.Spec.PointSet
import Mathlib.Tactic.Ring
import Mathlib.Tactic.FieldSimp
import Mathlib.Tactic.LinearCombination
import Mathlib.Tactic.Positivity

/-! # Helper lemmas on points, orientation and point sets of segments -/

namespace Clipping

theorem orientation_ccw {a b c : Point} : orientation a b c = .counterclockwise ↔ 0 < cross a b c := by
  unfold orientation; split_ifs <;> simp_all

theorem orientation_cw {a b c : Point} : orientation a b c = .clockwise ↔ cross a b c < 0 := by
  unfold orientation; split_ifs with h1 h2 <;> simp_all
  exact h1.le

theorem orientation_col {a b c : Point} : orientation a b c = .collinear ↔ cross a b c = 0 := by
  unfold orientation; split_ifs with h1 h2 <;> simp_all
  · exact h1.ne'
  · exact h2.ne
  · exact le_antisymm h1 h2

namespace Segment

theorem lo_le_hi (s : Segment) : s.lo ≤ s.hi := min_le_max

theorem lo_lt_hi {s : Segment} (h : s.Proper) : s.lo < s.hi := min_lt_max.2 h

theorem lo_hi_cases (s : Segment) :
    (s.lo = s.start ∧ s.hi = s.stop ∧ s.start ≤ s.stop) ∨
    (s.lo = s.stop ∧ s.hi = s.start ∧ s.stop ≤ s.start) := by
  rcases le_total s.start s.stop with h | h
  · exact Or.inl ⟨min_eq_left h, max_eq_right h, h⟩
  · exact Or.inr ⟨min_eq_right h, max_eq_left h, h⟩

/-- The same segment with end points in ascending order. -/
def norm (s : Segment) : Segment := ⟨s.lo, s.hi⟩

theorem mem_pts {s : Segment} {p : Point} : p ∈ s.pts ↔
    ∃ t : ℚ, 0 ≤ t ∧ t ≤ 1 ∧ p.x = s.start.x + t * (s.stop.x - s.start.x) ∧
      p.y = s.start.y + t * (s.stop.y - s.start.y) := Iff.rfl

theorem pts_swap (a b : Point) : (Segment.mk a b).pts = (Segment.mk b a).pts := by
  ext p
  constructor <;>
  · rintro ⟨t, h0, h1, hx, hy⟩
    exact ⟨1 - t, by linarith, by linarith, by simp only at *; rw [hx]; ring,
      by simp only at *; rw [hy]; ring⟩

theorem pts_norm (s : Segment) : s.norm.pts = s.pts := by
  obtain ⟨a, b⟩ := s
  rcases lo_hi_cases ⟨a, b⟩ with ⟨h1, h2, -⟩ | ⟨h1, h2, -⟩
  · unfold norm; rw [h1, h2]
  · unfold norm; rw [h1, h2]; exact pts_swap _ _

theorem start_mem (s : Segment) : s.start ∈ s.pts := ⟨0, by simp⟩

theorem stop_mem (s : Segment) : s.stop ∈ s.pts := ⟨1, by simp⟩

theorem lo_mem (s : Segment) : s.lo ∈ s.pts := by
  rcases lo_hi_cases s with ⟨h1, -, -⟩ | ⟨h1, -, -⟩ <;> rw [h1]
  exacts [start_mem s, stop_mem s]

theorem hi_mem (s : Segment) : s.hi ∈ s.pts := by
  rcases lo_hi_cases s with ⟨-, h1, -⟩ | ⟨-, h1, -⟩ <;> rw [h1]
  exacts [stop_mem s, start_mem s]

theorem isEnd_iff {s : Segment} {p : Point} : s.IsEnd p ↔ p = s.lo ∨ p = s.hi := by
  unfold IsEnd
  rcases lo_hi_cases s with ⟨h1, h2, -⟩ | ⟨h1, h2, -⟩ <;> rw [h1, h2]
  exact or_comm

/-- Membership in terms of the line and the lexicographic order (ascending end points). -/
theorem mem_mk_iff {a b p : Point} (h : a < b) :
    p ∈ (Segment.mk a b).pts ↔ cross a b p = 0 ∧ a ≤ p ∧ p ≤ b := by
  rw [mem_pts]
  simp only [Point.lt_def, Point.le_def] at *
  unfold cross
  constructor
  · rintro ⟨t, h0, h1, hx, hy⟩
    refine ⟨by rw [hx, hy]; ring, ?_, ?_⟩
    · rcases h with h | ⟨h, h'⟩
      · rcases h0.eq_or_lt with rfl | h0
        · right; exact ⟨by rw [hx]; ring, by rw [hy]; linarith⟩
        · left; rw [hx]; nlinarith
      · right; exact ⟨by rw [hx, h]; ring, by rw [hy]; nlinarith⟩
    · rcases h with h | ⟨h, h'⟩
      · rcases h1.eq_or_lt with rfl | h1
        · right; exact ⟨by rw [hx]; ring, by rw [hy]; linarith⟩
        · left; rw [hx]; nlinarith
      · right; exact ⟨by rw [hx, h]; ring, by rw [hy]; nlinarith⟩
  · rintro ⟨hc, h1, h2⟩
    rcases h with h | ⟨h, h'⟩
    · have hd : 0 < b.x - a.x := by linarith
      have hpa : a.x ≤ p.x := by rcases h1 with h1 | ⟨h1, -⟩ <;> linarith
      have hpb : p.x ≤ b.x := by rcases h2 with h2 | ⟨h2, -⟩ <;> linarith
      refine ⟨(p.x - a.x) / (b.x - a.x), div_nonneg (by linarith) hd.le,
        (div_le_one hd).2 (by linarith), by field_simp; ring, ?_⟩
      field_simp
      linarith
    · have hd : 0 < b.y - a.y := by linarith
      have hpx : p.x = a.x := by
        rcases h1 with h1 | ⟨h1, -⟩ <;> rcases h2 with h2 | ⟨h2, -⟩ <;> linarith
      have hpa : a.y ≤ p.y := by rcases h1 with h1 | ⟨-, h1⟩ <;> linarith
      have hpb : p.y ≤ b.y := by rcases h2 with h2 | ⟨-, h2⟩ <;> linarith
      refine ⟨(p.y - a.y) / (b.y - a.y), div_nonneg (by linarith) hd.le,
        (div_le_one hd).2 (by linarith), by rw [hpx, h]; ring, ?_⟩
      field_simp
      ring

theorem mem_iff {s : Segment} (h : s.Proper) {p : Point} :
    p ∈ s.pts ↔ cross s.lo s.hi p = 0 ∧ s.lo ≤ p ∧ p ≤ s.hi := by
  rw [← pts_norm]; exact mem_mk_iff (lo_lt_hi h)

theorem lo_le_of_mem {s : Segment} {p : Point} (h : p ∈ s.pts) : s.lo ≤ p := by
  by_cases hp : s.Proper
  · exact ((mem_iff hp).1 h).2.1
  · have : s.start = s.stop := not_not.1 hp
    obtain ⟨t, h0, h1, hx, hy⟩ := h
    have : p = s.start := Point.ext' (by rw [hx, ← this]; ring) (by rw [hy, ← this]; ring)
    rw [this]; exact min_le_left _ _

theorem le_hi_of_mem {s : Segment} {p : Point} (h : p ∈ s.pts) : p ≤ s.hi := by
  by_cases hp : s.Proper
  · exact ((mem_iff hp).1 h).2.2
  · have : s.start = s.stop := not_not.1 hp
    obtain ⟨t, h0, h1, hx, hy⟩ := h
    have : p = s.start := Point.ext' (by rw [hx, ← this]; ring) (by rw [hy, ← this]; ring)
    rw [this]; exact le_max_left _ _

end Segment

theorem cross_self_left (a b : Point) : cross a b a = 0 := by unfold cross; ring
theorem cross_self_right (a b : Point) : cross a b b = 0 := by unfold cross; ring
theorem cross_swap (a b c : Point) : cross b a c = - cross a b c := by unfold cross; ring
theorem cross_rot (a b c : Point) : cross a b c = cross b c a := by unfold cross; ring

/-- If `c`, `d` are two distinct points of the line `a b` then the lines coincide. -/
theorem line_eq {a b c d : Point} (hab : a ≠ b) (hcd : c ≠ d) (hc : cross a b c = 0)
    (hd : cross a b d = 0) (p : Point) : cross c d p = 0 ↔ cross a b p = 0 := by
  unfold cross at *
  have hab' : b.x - a.x ≠ 0 ∨ b.y - a.y ≠ 0 := by
    by_contra hh; push Not at hh
    exact hab (Point.ext' (by linarith [hh.1]) (by linarith [hh.2]))
  have hcd' : d.x - c.x ≠ 0 ∨ d.y - c.y ≠ 0 := by
    by_contra hh; push Not at hh
    exact hcd (Point.ext' (by linarith [hh.1]) (by linarith [hh.2]))
  have hpar : (b.x - a.x) * (d.y - c.y) = (b.y - a.y) * (d.x - c.x) := by linarith
  constructor
  · intro h
    rcases hcd' with hx | hy
    · apply mul_left_cancel₀ hx
      linear_combination (b.x - a.x) * h + (d.x - c.x) * hc + (p.x - c.x) * hpar
    · apply mul_left_cancel₀ hy
      linear_combination (b.y - a.y) * h + (d.y - c.y) * hc + (p.y - c.y) * hpar
  · intro h
    rcases hab' with hx | hy
    · apply mul_left_cancel₀ hx
      linear_combination (d.x - c.x) * h - (d.x - c.x) * hc - (p.x - c.x) * hpar
    · apply mul_left_cancel₀ hy
      linear_combination (d.y - c.y) * h - (d.y - c.y) * hc - (p.y - c.y) * hpar

end Clipping

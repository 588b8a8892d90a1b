import Verif.Lemmas.Relation

/-! # `segments_intersection` returns the common point; the relation is unique -/

namespace Clipping

theorem not_both_zero {s : Segment} (h : s.Proper) : s.stop.x - s.start.x ≠ 0 ∨ s.stop.y - s.start.y ≠ 0 := by
  by_contra hh; push Not at hh
  exact h (Point.ext' (by linarith [hh.1]) (by linarith [hh.2]))

theorem mem_cross {s : Segment} {p : Point} (h : p ∈ s.pts) : cross s.start s.stop p = 0 := by
  obtain ⟨t, -, -, hx, hy⟩ := h
  unfold cross; rw [hx, hy]; ring

theorem cross_lo_hi {s : Segment} {p : Point} : cross s.lo s.hi p = 0 ↔ cross s.start s.stop p = 0 := by
  rcases s.lo_hi_cases with ⟨h1, h2, -⟩ | ⟨h1, h2, -⟩ <;> rw [h1, h2]
  rw [cross_swap]; simp

/-- If two proper segments on one line have exactly one common point then it is an end of both. -/
theorem sameLine_single {s t : Segment} (hs : s.Proper) (ht : t.Proper) (hl : SameLine s t) {p : Point}
    (h1 : p ∈ s.pts) (h2 : p ∈ t.pts) (hu : ∀ q, q ∈ s.pts → q ∈ t.pts → q = p) :
    (p = s.lo ∧ p = t.hi) ∨ (p = s.hi ∧ p = t.lo) := by
  have a1 := Segment.lo_le_of_mem h1
  have a2 := Segment.le_hi_of_mem h1
  have a3 := Segment.lo_le_of_mem h2
  have a4 := Segment.le_hi_of_mem h2
  have ls := Segment.lo_lt_hi hs
  have lt := Segment.lo_lt_hi ht
  have ms := fun q => (hl.mem_iff hs ht (p := q))
  have mt := fun q => (Segment.mem_iff ht (p := q))
  rcases le_total s.lo t.lo with h | h
  · have e1 : t.lo = p := hu _ ((ms _).2 ⟨cross_self_left _ _, h, a3.trans a2⟩) t.lo_mem
    rcases le_total s.hi t.hi with g | g
    · have e2 : s.hi = p := hu _ s.hi_mem ((mt _).2 ⟨hl.2, a3.trans a2, g⟩)
      exact Or.inr ⟨e2.symm, e1.symm⟩
    · have e2 : t.hi = p := hu _ ((ms _).2 ⟨cross_self_right _ _, a1.trans a4, g⟩) t.hi_mem
      exact absurd lt (by rw [e1, e2]; exact lt_irrefl _)
  · have e1 : s.lo = p := hu _ s.lo_mem ((mt _).2 ⟨hl.1, h, a1.trans a4⟩)
    rcases le_total s.hi t.hi with g | g
    · have e2 : s.hi = p := hu _ s.hi_mem ((mt _).2 ⟨hl.2, a3.trans a2, g⟩)
      exact absurd ls (by rw [e1, e2]; exact lt_irrefl _)
    · have e2 : t.hi = p := hu _ ((ms _).2 ⟨cross_self_right _ _, a1.trans a4, g⟩) t.hi_mem
      exact Or.inl ⟨e1.symm, e2.symm⟩

/-- When two proper segments have exactly one common point, `segmentsIntersection` is that point. -/
theorem intersection_eq {s t : Segment} (hs : s.Proper) (ht : t.Proper) {p : Point}
    (h1 : p ∈ s.pts) (h2 : p ∈ t.pts) (hu : ∀ q, q ∈ s.pts → q ∈ t.pts → q = p) :
    segmentsIntersection s t = p := by
  unfold segmentsIntersection
  simp only
  have c1 := mem_cross h1
  have c2 := mem_cross h2
  split_ifs with hd hst
  · rcases hst with h | h
    · exact hu _ s.start_mem (h ▸ t.start_mem)
    · exact hu _ s.start_mem (h ▸ t.stop_mem)
  · -- parallel, share `p`, hence on one line
    have hl : SameLine s t := by
      have key : ∀ q, q ∈ s.pts → cross t.lo t.hi q = 0 := by
        intro q hq
        rw [cross_lo_hi]
        have c3 := mem_cross hq
        rcases not_both_zero hs with hx | hy
        · apply mul_left_cancel₀ hx
          unfold cross at *
          linear_combination (s.stop.x - s.start.x) * c2 + (t.stop.x - t.start.x) * (c3 - c1)
            + (p.x - q.x) * hd
        · apply mul_left_cancel₀ hy
          unfold cross at *
          linear_combination (s.stop.y - s.start.y) * c2 + (t.stop.y - t.start.y) * (c3 - c1)
            + (p.y - q.y) * hd
      exact ⟨key _ s.lo_mem, key _ s.hi_mem⟩
    have he := sameLine_single hs ht hl h1 h2 hu
    have hps : s.IsEnd p := by
      rw [Segment.isEnd_iff]; rcases he with h | h
      · exact Or.inl h.1
      · exact Or.inr h.1
    have hpt : t.IsEnd p := by
      rw [Segment.isEnd_iff]; rcases he with h | h
      · exact Or.inr h.2
      · exact Or.inl h.2
    rcases hps with h | h
    · exfalso; apply hst
      rcases hpt with g | g
      · exact Or.inl (h ▸ g)
      · exact Or.inr (h ▸ g)
    · exact h.symm
  · have hN := div_mul_cancel₀ ((t.start.x - s.start.x) * (t.stop.y - t.start.y)
      - (t.start.y - s.start.y) * (t.stop.x - t.start.x)) hd
    unfold cross at *
    apply Point.ext'
    · simp only [Segment.at]
      apply mul_right_cancel₀ hd
      linear_combination (s.stop.x - s.start.x) * hN + (s.stop.x - s.start.x) * c2
        - (t.stop.x - t.start.x) * c1
    · simp only [Segment.at]
      apply mul_right_cancel₀ hd
      linear_combination (s.stop.y - s.start.y) * hN + (s.stop.y - s.start.y) * c2
        - (t.stop.y - t.start.y) * c1

/-- `segments_intersection` on touching or crossing segments is their only common point. -/
theorem intersection_spec {s t : Segment} (hs : s.Proper) (ht : t.Proper)
    (hr : segmentsRelation s t = .touch ∨ segmentsRelation s t = .cross) :
    segmentsIntersection s t ∈ s.pts ∧ segmentsIntersection s t ∈ t.pts ∧
      ∀ q, q ∈ s.pts → q ∈ t.pts → q = segmentsIntersection s t := by
  have hm := relation_spec hs ht
  have : ∃ p, p ∈ s.pts ∧ p ∈ t.pts ∧ (∀ q, q ∈ s.pts → q ∈ t.pts → q = p) := by
    rcases hr with hr | hr <;> rw [hr] at hm
    · obtain ⟨p, a, b, c, -⟩ := hm; exact ⟨p, a, b, c⟩
    · obtain ⟨⟨p, a, b, c, -⟩, -⟩ := hm; exact ⟨p, a, b, c⟩
  obtain ⟨p, a, b, c⟩ := this
  rw [intersection_eq hs ht a b c]
  exact ⟨a, b, c⟩

end Clipping

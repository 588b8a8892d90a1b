import Verif.Lemmas.Bounding

/-!
# C11–C13: bounding-box predicates and pre-filters
-/

namespace Clipping

/-- **C11** `disjoint_with`: the boxes have no common point; `intersects_with` is its negation. -/
theorem disjointWith_iff (a b : Box) (ha : a.Nonempty) (hb : b.Nonempty) :
    (disjointWith a b = true ↔ ∀ p, p ∈ a.pts → p ∉ b.pts) ∧
    (intersectsWith a b = true ↔ ∃ p, p ∈ a.pts ∧ p ∈ b.pts) := by
  refine ⟨?_, intersectsWith_iff a b ha hb⟩
  have h : disjointWith a b = !intersectsWith a b := by
    unfold disjointWith intersectsWith
    rw [Bool.eq_iff_iff]
    simp only [Bool.or_eq_true, decide_eq_true_eq, Bool.not_eq_true', Bool.and_eq_false_iff,
      decide_eq_false_iff_not, not_le]
    tauto
  rw [h, Bool.not_eq_true', ← Bool.not_eq_true, intersectsWith_iff a b ha hb]
  push Not; rfl

/-- **C11** `is_subset_of` is inclusion, `within_of` inclusion in the interior. -/
theorem isSubsetOf_withinOf_iff (a b : Box) (ha : a.Nonempty) :
    (isSubsetOf a b = true ↔ a.pts ⊆ b.pts) ∧
    (withinOf a b = true ↔ ∀ p ∈ a.pts, b.minX < p.x ∧ p.x < b.maxX ∧ b.minY < p.y ∧ p.y < b.maxY) := by
  refine ⟨isSubsetOf_iff a b ha, ?_⟩
  unfold withinOf
  simp only [Bool.and_eq_true, decide_eq_true_eq]
  constructor
  · rintro ⟨⟨⟨h1, h2⟩, h3⟩, h4⟩ p ⟨g1, g2, g3, g4⟩
    exact ⟨h1.trans_le g1, g2.trans_lt h2, h3.trans_le g3, g4.trans_lt h4⟩
  · intro h
    obtain ⟨h1, -, h3, -⟩ := h ⟨a.minX, a.minY⟩ ⟨le_rfl, ha.1, le_rfl, ha.2⟩
    obtain ⟨-, h2, -, h4⟩ := h ⟨a.maxX, a.maxY⟩ ⟨ha.1, le_rfl, ha.2, le_rfl⟩
    exact ⟨⟨⟨h1, h2⟩, h3⟩, h4⟩

/-- **C11** `contains_point` is membership, `covers_point` membership in the interior. -/
theorem containsPoint_coversPoint_iff (b : Box) (p : Point) :
    (containsPoint b p = true ↔ p ∈ b.pts) ∧
    (coversPoint b p = true ↔ b.minX < p.x ∧ p.x < b.maxX ∧ b.minY < p.y ∧ p.y < b.maxY) := by
  unfold containsPoint coversPoint
  simp only [Bool.and_eq_true, decide_eq_true_eq]
  exact ⟨⟨fun ⟨⟨⟨a, b⟩, c⟩, d⟩ => ⟨a, b, c, d⟩, fun ⟨a, b, c, d⟩ => ⟨⟨⟨a, b⟩, c⟩, d⟩⟩,
    ⟨fun ⟨⟨⟨a, b⟩, c⟩, d⟩ => ⟨a, b, c, d⟩, fun ⟨a, b, c, d⟩ => ⟨⟨⟨a, b⟩, c⟩, d⟩⟩⟩

/-- **C11** `coupled_with`: boxes with interior share more than one point. -/
theorem coupledWith_iff (a b : Box) (ha : a.Solid) (hb : b.Solid) :
    coupledWith a b = true ↔ ∃ p q, p ≠ q ∧ p ∈ a.pts ∧ q ∈ a.pts ∧ p ∈ b.pts ∧ q ∈ b.pts := by
  constructor
  · intro h
    obtain ⟨a1, a2⟩ := ha
    obtain ⟨b1, b2⟩ := hb
    unfold coupledWith intersectsWith touchesWith edgesOverlapWith at h
    simp only [Bool.and_eq_true, Bool.or_eq_true, Bool.not_eq_true', decide_eq_true_eq,
      Bool.or_eq_false_iff, Bool.and_eq_false_iff, decide_eq_false_iff_not] at h
    obtain ⟨⟨⟨⟨h1, h2⟩, h3⟩, h4⟩, h5⟩ := h
    have key : max a.minX b.minX < min a.maxX b.maxX ∨ max a.minY b.minY < min a.maxY b.maxY := by
      simp only [max_lt_iff, lt_min_iff]
      rcases h5 with ⟨h5, h6⟩ | ⟨⟨-, h5, h6⟩⟩ | ⟨⟨h5, h6⟩, -⟩
      · left
        have n1 : a.minX ≠ b.maxX := by
          intro e; rcases h5 with ⟨h, -⟩ | h
          · exact h e
          · rcases h with h | h
            exacts [h h4, h h3]
        have n2 : a.maxX ≠ b.minX := by
          intro e; rcases h5 with ⟨-, h⟩ | h
          · exact h e
          · rcases h with h | h
            exacts [h h4, h h3]
        exact ⟨⟨a1, lt_of_le_of_ne h1 n2.symm⟩, ⟨lt_of_le_of_ne h2 n1, b1⟩⟩
      · right; exact ⟨⟨a2, h6⟩, h5, b2⟩
      · left; exact ⟨⟨a1, h6⟩, h5, b1⟩
    have hx : max a.minX b.minX ≤ min a.maxX b.maxX := max_le (le_min a1.le h2) (le_min h1 b1.le)
    have hy : max a.minY b.minY ≤ min a.maxY b.maxY := max_le (le_min a2.le h4) (le_min h3 b2.le)
    refine ⟨⟨max a.minX b.minX, max a.minY b.minY⟩, ⟨min a.maxX b.maxX, min a.maxY b.maxY⟩, ?_, ?_, ?_, ?_, ?_⟩
    · rcases key with h | h
      · intro e; simp only [Point.mk.injEq] at e; exact h.ne e.1
      · intro e; simp only [Point.mk.injEq] at e; exact h.ne e.2
    · exact ⟨le_max_left _ _, hx.trans (min_le_left _ _), le_max_left _ _, hy.trans (min_le_left _ _)⟩
    · exact ⟨(le_max_left _ _).trans hx, min_le_left _ _, (le_max_left _ _).trans hy, min_le_left _ _⟩
    · exact ⟨le_max_right _ _, hx.trans (min_le_right _ _), le_max_right _ _, hy.trans (min_le_right _ _)⟩
    · exact ⟨(le_max_right _ _).trans hx, min_le_right _ _, (le_max_right _ _).trans hy, min_le_right _ _⟩
  · rintro ⟨p, q, hpq, h1, h2, h3, h4⟩
    exact coupledWith_of_two hpq h1 h2 h3 h4

example : (Box.mk 0 2 0 2).Solid ∧ (Box.mk 2 4 0 2).Solid ∧ (Box.mk 0 2 0 2).Nonempty ∧
    coupledWith ⟨0, 2, 0, 2⟩ ⟨2, 4, 0, 2⟩ = true := by
  refine ⟨⟨?_, ?_⟩, ⟨?_, ?_⟩, ⟨?_, ?_⟩, ?_⟩ <;> decide +kernel

/-- **C12** `intersects_with_segment` decides whether the segment and the box have a common point. -/
theorem intersectsWithSegment_iff (b : Box) (s : Segment) (hb : b.Nonempty) (hs : s.Proper) :
    intersectsWithSegment b s = true ↔ ∃ p, p ∈ b.pts ∧ p ∈ s.pts := by
  unfold intersectsWithSegment
  simp only [Bool.and_eq_true, Bool.or_eq_true, List.any_eq_true, decide_eq_true_eq]
  constructor
  · rintro ⟨-, h | ⟨e, he, h⟩⟩
    · rw [isSubsetOf_iff _ _ (segmentBox_nonempty s)] at h
      exact ⟨s.start, h (segmentBox_pts s s.start_mem), s.start_mem⟩
    · rw [relation_meets e s hs] at h
      obtain ⟨p, h1, h2⟩ := h
      exact ⟨p, edges_sub hb he h1, h2⟩
  · rintro ⟨p, h1, h2⟩
    refine ⟨(intersectsWith_iff _ _ (segmentBox_nonempty s) hb).2 ⟨p, segmentBox_pts s h2, h1⟩, ?_⟩
    rw [isSubsetOf_iff _ _ (segmentBox_nonempty s)]
    by_cases hsub : (segmentBox s).pts ⊆ b.pts
    · exact Or.inl hsub
    · right
      obtain ⟨e, he, hout⟩ : ∃ e, e ∈ s.pts ∧ e ∉ b.pts := by
        by_contra hc
        push Not at hc
        exact hsub (segmentBox_sub (hc _ s.start_mem) (hc _ s.stop_mem))
      obtain ⟨r, r0, r1, hw, hedge, -⟩ := exit_point h1 hout
      obtain ⟨E, hE, hwE⟩ := mem_edge hw hedge
      refine ⟨E, hE, ?_⟩
      rw [relation_meets E s hs]
      exact ⟨_, hwE, pts_convex h2 he (at_mem r0 r1.le)⟩

/-- **C12** the pre-filter keeps exactly the segments meeting the box, hence loses no point of the box. -/
theorem toIntersectingSegments_spec (b : Box) (l : List Segment) (hb : b.Nonempty)
    (hl : ∀ s ∈ l, s.Proper) :
    (∀ s, s ∈ toIntersectingSegments b l ↔ s ∈ l ∧ ∃ p, p ∈ b.pts ∧ p ∈ s.pts) ∧
    segsPts (toIntersectingSegments b l) ∩ b.pts = segsPts l ∩ b.pts ∧
    (∀ s, s ∈ (splitIntersectingSegments b l).1 ↔ s ∈ l ∧ ∀ p, p ∈ b.pts → p ∉ s.pts) ∧
    (splitIntersectingSegments b l).2 = toIntersectingSegments b l := by
  have h1 : ∀ s, s ∈ toIntersectingSegments b l ↔ s ∈ l ∧ ∃ p, p ∈ b.pts ∧ p ∈ s.pts := by
    intro s
    unfold toIntersectingSegments
    rw [List.mem_filter]
    constructor
    · rintro ⟨h, h'⟩; exact ⟨h, (intersectsWithSegment_iff b s hb (hl s h)).1 h'⟩
    · rintro ⟨h, h'⟩; exact ⟨h, (intersectsWithSegment_iff b s hb (hl s h)).2 h'⟩
  refine ⟨h1, ?_, ?_, rfl⟩
  · ext p
    constructor
    · rintro ⟨⟨s, hs, hp⟩, hb⟩; exact ⟨⟨s, ((h1 s).1 hs).1, hp⟩, hb⟩
    · rintro ⟨⟨s, hs, hp⟩, hb⟩; exact ⟨⟨s, (h1 s).2 ⟨hs, p, hb, hp⟩, hp⟩, hb⟩
  · intro s
    show s ∈ l.filter _ ↔ _
    rw [List.mem_filter, Bool.not_eq_true', ← Bool.not_eq_true]
    constructor
    · rintro ⟨h, h'⟩
      rw [intersectsWithSegment_iff b s hb (hl s h)] at h'
      push Not at h'; exact ⟨h, h'⟩
    · rintro ⟨h, h'⟩
      rw [intersectsWithSegment_iff b s hb (hl s h)]
      push Not; exact ⟨h, h'⟩

example : (Box.mk 0 2 0 2).Nonempty ∧ (Segment.mk ⟨-1, 1⟩ ⟨3, 1⟩).Proper ∧
    intersectsWithSegment ⟨0, 2, 0, 2⟩ ⟨⟨-1, 1⟩, ⟨3, 1⟩⟩ = true ∧
    intersectsWithSegment ⟨0, 2, 0, 2⟩ ⟨⟨3, 1⟩, ⟨1, 4⟩⟩ = false := by
  refine ⟨⟨?_, ?_⟩, ?_, ?_, ?_⟩ <;> decide +kernel

/-- **C13 fails**: `coupled_with_segment` promises `true` whenever the box and the segment share more than
one point, but answers `false` for a segment through two opposite corners (all four edges are only
touched), and for a segment entering through a corner and ending inside. -/
theorem coupledWithSegment_incomplete :
    ¬ ∀ (b : Box) (s : Segment), b.Solid → s.Proper →
      (∃ p q, p ≠ q ∧ p ∈ b.pts ∧ q ∈ b.pts ∧ p ∈ s.pts ∧ q ∈ s.pts) → coupledWithSegment b s = true := by
  intro h
  have := h ⟨0, 2, 0, 2⟩ ⟨⟨-1, -1⟩, ⟨3, 3⟩⟩ ⟨by norm_num, by norm_num⟩ (by decide +kernel)
    ⟨⟨0, 0⟩, ⟨2, 2⟩, by decide +kernel, by constructor <;> norm_num, by constructor <;> norm_num,
      ⟨1/4, by norm_num⟩, ⟨3/4, by norm_num⟩⟩
  have h2 : coupledWithSegment ⟨0, 2, 0, 2⟩ ⟨⟨-1, -1⟩, ⟨3, 3⟩⟩ = false := by decide +kernel
  rw [h2] at this
  exact Bool.false_ne_true this

/-- **C13, proved part.** A segment dropped by the coupled filter shares at most one point with the box —
*provided* it contains no corner of the box other than as an end point.  Missing (and false, see
`coupledWithSegment_incomplete`): the case of a corner in the middle of the segment. -/
theorem coupledWithSegment_partial (b : Box) (s : Segment) (hb : b.Nonempty) (hs : s.Proper)
    (hc : ∀ v ∈ toVertices b, v ∈ s.pts → s.IsEnd v) (hf : coupledWithSegment b s = false) :
    ∀ p q, p ∈ b.pts → q ∈ b.pts → p ∈ s.pts → q ∈ s.pts → p = q := by
  intro p q h1 h2 h3 h4
  by_contra hpq
  exact Bool.false_ne_true (hf.symm.trans (coupledWithSegment_of_two hb hs hc hpq h1 h2 h3 h4))

example : (Box.mk 0 2 0 2).Nonempty ∧ (Segment.mk ⟨2, 2⟩ ⟨3, 3⟩).Proper ∧
    (∀ v ∈ toVertices ⟨0, 2, 0, 2⟩, v ∈ (Segment.mk ⟨2, 2⟩ ⟨3, 3⟩).pts → (Segment.mk ⟨2, 2⟩ ⟨3, 3⟩).IsEnd v) ∧
    coupledWithSegment ⟨0, 2, 0, 2⟩ ⟨⟨2, 2⟩, ⟨3, 3⟩⟩ = false := by
  refine ⟨⟨?_, ?_⟩, ?_, ?_, ?_⟩
  · decide +kernel
  · decide +kernel
  · decide +kernel
  · intro v hv h
    have := Segment.lo_le_of_mem h
    have e : (Segment.mk ⟨2, 2⟩ ⟨3, 3⟩).lo = ⟨2, 2⟩ := by decide +kernel
    rw [e] at this
    simp only [toVertices, List.mem_cons, List.not_mem_nil, or_false] at hv
    rcases hv with rfl | rfl | rfl | rfl
    · exact absurd this (by decide +kernel)
    · exact absurd this (by decide +kernel)
    · exact Or.inl rfl
    · exact absurd this (by decide +kernel)
  · decide +kernel

end Clipping

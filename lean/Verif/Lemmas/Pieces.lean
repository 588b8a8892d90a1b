import Verif.Lemmas.Segments

/-! # Pieces left when one segment is subtracted from another one on the same line -/

namespace Clipping

/-- What the pieces `R` of `s` left after removing `t` satisfy. -/
structure PieceSpec (s t : Segment) (R : List Segment) : Prop where
  proper : ∀ r ∈ R, r.Proper
  within : ∀ r ∈ R, r.pts ⊆ s.pts
  covers : s.pts \ t.pts ⊆ segsPts R
  common : ∀ r ∈ R, ∀ p ∈ r.pts, p ∈ t.pts → t.IsEnd p
  apart : R.Pairwise fun a b => ∀ p ∈ a.pts, p ∉ b.pts
  ends : ∀ r ∈ R, ∀ p, s.IsEnd p → p ∈ r.pts → r.IsEnd p

theorem onLine_pts {s t : Segment} (ht : t.Proper) (hl : SameLine s t) :
    ∀ p, p ∈ s.pts ↔ cross t.lo t.hi p = 0 ∧ s.lo ≤ p ∧ p ≤ s.hi := by
  intro p; rw [← Segment.pts_norm s]; exact mem_on_line ht hl.1 hl.2 s.lo_le_hi

theorem pieceSpec_left {s t : Segment} (hs : s.Proper) (ht : t.Proper) (hl : SameLine s t)
    (h1 : s.lo < t.lo) (h2 : t.lo ≤ s.hi) (h3 : s.hi ≤ t.hi) :
    PieceSpec s t [⟨s.lo, t.lo⟩] := by
  have ps := onLine_pts ht hl
  have pr : ∀ p, p ∈ (Segment.mk s.lo t.lo).pts ↔ cross t.lo t.hi p = 0 ∧ s.lo ≤ p ∧ p ≤ t.lo :=
    fun p => mem_on_line ht hl.1 (cross_self_left _ _) h1.le
  have pt := fun p => Segment.mem_iff ht (p := p)
  refine ⟨?_, ?_, ?_, ?_, List.pairwise_singleton _ _, ?_⟩
  · simp only [List.mem_singleton, forall_eq]; exact h1.ne
  · simp only [List.mem_singleton, forall_eq]
    intro p hp; rw [pr] at hp; rw [ps]; exact ⟨hp.1, hp.2.1, hp.2.2.trans h2⟩
  · rintro p ⟨hp, hn⟩
    rw [segsPts_cons, segsPts_nil, Set.union_empty, pr]
    rw [ps] at hp; rw [pt] at hn
    refine ⟨hp.1, hp.2.1, ?_⟩
    by_contra hc; push Not at hc
    exact hn ⟨hp.1, hc.le, hp.2.2.trans h3⟩
  · simp only [List.mem_singleton, forall_eq]
    intro p hp hq; rw [pr] at hp; rw [pt] at hq
    rw [Segment.isEnd_iff]; exact Or.inl (le_antisymm hp.2.2 hq.2.1)
  · simp only [List.mem_singleton, forall_eq]
    intro p hp hq; rw [pr] at hq
    rw [Segment.isEnd_iff] at hp
    rcases hp with rfl | rfl
    · exact Or.inl rfl
    · exact Or.inr (le_antisymm hq.2.2 h2)

theorem pieceSpec_right {s t : Segment} (hs : s.Proper) (ht : t.Proper) (hl : SameLine s t)
    (h1 : t.hi < s.hi) (h2 : s.lo ≤ t.hi) (h3 : t.lo ≤ s.lo) :
    PieceSpec s t [⟨t.hi, s.hi⟩] := by
  have ps := onLine_pts ht hl
  have pr : ∀ p, p ∈ (Segment.mk t.hi s.hi).pts ↔ cross t.lo t.hi p = 0 ∧ t.hi ≤ p ∧ p ≤ s.hi :=
    fun p => mem_on_line ht (cross_self_right _ _) hl.2 h1.le
  have pt := fun p => Segment.mem_iff ht (p := p)
  refine ⟨?_, ?_, ?_, ?_, List.pairwise_singleton _ _, ?_⟩
  · simp only [List.mem_singleton, forall_eq]; exact h1.ne
  · simp only [List.mem_singleton, forall_eq]
    intro p hp; rw [pr] at hp; rw [ps]; exact ⟨hp.1, h2.trans hp.2.1, hp.2.2⟩
  · rintro p ⟨hp, hn⟩
    rw [segsPts_cons, segsPts_nil, Set.union_empty, pr]
    rw [ps] at hp; rw [pt] at hn
    refine ⟨hp.1, ?_, hp.2.2⟩
    by_contra hc; push Not at hc
    exact hn ⟨hp.1, h3.trans hp.2.1, hc.le⟩
  · simp only [List.mem_singleton, forall_eq]
    intro p hp hq; rw [pr] at hp; rw [pt] at hq
    rw [Segment.isEnd_iff]; exact Or.inr (le_antisymm hq.2.2 hp.2.1)
  · simp only [List.mem_singleton, forall_eq]
    intro p hp hq; rw [pr] at hq
    rw [Segment.isEnd_iff] at hp
    rcases hp with rfl | rfl
    · exact Or.inl (le_antisymm h2 hq.2.1)
    · exact Or.inr rfl

theorem pieceSpec_both {s t : Segment} (hs : s.Proper) (ht : t.Proper) (hl : SameLine s t)
    (h1 : s.lo < t.lo) (h2 : t.hi < s.hi) :
    PieceSpec s t [⟨s.lo, t.lo⟩, ⟨t.hi, s.hi⟩] := by
  have ps := onLine_pts ht hl
  have lt := Segment.lo_lt_hi ht
  have pr : ∀ p, p ∈ (Segment.mk s.lo t.lo).pts ↔ cross t.lo t.hi p = 0 ∧ s.lo ≤ p ∧ p ≤ t.lo :=
    fun p => mem_on_line ht hl.1 (cross_self_left _ _) h1.le
  have pr' : ∀ p, p ∈ (Segment.mk t.hi s.hi).pts ↔ cross t.lo t.hi p = 0 ∧ t.hi ≤ p ∧ p ≤ s.hi :=
    fun p => mem_on_line ht (cross_self_right _ _) hl.2 h2.le
  have pt := fun p => Segment.mem_iff ht (p := p)
  refine ⟨?_, ?_, ?_, ?_, ?_, ?_⟩
  · intro r hr; simp at hr; rcases hr with rfl | rfl
    exacts [h1.ne, h2.ne]
  · intro r hr; simp at hr
    rcases hr with rfl | rfl <;> intro p hp
    · rw [pr] at hp; rw [ps]; exact ⟨hp.1, hp.2.1, hp.2.2.trans (lt.trans h2).le⟩
    · rw [pr'] at hp; rw [ps]; exact ⟨hp.1, (h1.trans lt).le.trans hp.2.1, hp.2.2⟩
  · rintro p ⟨hp, hn⟩
    rw [segsPts_cons, segsPts_cons, segsPts_nil, Set.union_empty, Set.mem_union, pr, pr']
    rw [ps] at hp; rw [pt] at hn
    by_cases hc : p ≤ t.lo
    · exact Or.inl ⟨hp.1, hp.2.1, hc⟩
    · right
      refine ⟨hp.1, ?_, hp.2.2⟩
      by_contra hd; push Not at hc hd
      exact hn ⟨hp.1, hc.le, hd.le⟩
  · intro r hr; simp at hr
    rcases hr with rfl | rfl <;> intro p hp hq <;> rw [pt] at hq <;> rw [Segment.isEnd_iff]
    · rw [pr] at hp; exact Or.inl (le_antisymm hp.2.2 hq.2.1)
    · rw [pr'] at hp; exact Or.inr (le_antisymm hq.2.2 hp.2.1)
  · simp only [List.pairwise_cons, List.mem_singleton, forall_eq, List.not_mem_nil, false_imp_iff,
      implies_true, List.Pairwise.nil, and_true]
    intro p hp hq
    rw [pr] at hp; rw [pr'] at hq
    exact absurd (hq.2.1.trans hp.2.2) (not_le.2 lt)
  · intro r hr; simp at hr
    rcases hr with rfl | rfl <;> intro p hp hq <;> rw [Segment.isEnd_iff] at hp
    · rw [pr] at hq
      rcases hp with rfl | rfl
      · exact Or.inl rfl
      · exact absurd hq.2.2 (not_le.2 (lt.trans h2))
    · rw [pr'] at hq
      rcases hp with rfl | rfl
      · exact absurd hq.2.1 (not_le.2 (h1.trans lt))
      · exact Or.inr rfl

theorem overlap_pieces {s t : Segment} (hs : s.Proper) (ht : t.Proper) (hl : SameLine s t)
    (h : (s.lo < t.lo ∧ t.lo < s.hi ∧ s.hi < t.hi) ∨ (t.lo < s.lo ∧ s.lo < t.hi ∧ t.hi < s.hi)) :
    PieceSpec s t [subtractSegmentsOverlap s t] := by
  unfold subtractSegmentsOverlap
  rw [sorted4_eq]
  simp only [eq_lo_or_hi]
  rcases h with ⟨h1, h2, h3⟩ | ⟨h1, h2, h3⟩
  · rw [min_eq_left h1.le, max_eq_right h1.le, min_eq_left h3.le, min_eq_left h2.le, if_pos (Or.inl rfl)]
    exact pieceSpec_left hs ht hl h1 h2.le h3.le
  · rw [min_eq_right h1.le, max_eq_left h1.le, min_eq_right h3.le, max_eq_right h2.le,
      max_eq_left h3.le, if_neg]
    · exact pieceSpec_right hs ht hl h3 h2.le h1.le
    · rintro (h | h)
      · exact h1.ne h
      · exact ((h1.trans h2).trans h3).ne h

theorem component_pieces {s t : Segment} (hs : s.Proper) (ht : t.Proper) (hl : SameLine s t)
    (h1 : s.lo ≤ t.lo) (h2 : t.hi ≤ s.hi) (hne : s.lo ≠ t.lo ∨ s.hi ≠ t.hi) :
    PieceSpec s t (subtractComponentPieces s t) := by
  have lt := Segment.lo_lt_hi ht
  unfold subtractComponentPieces
  rw [sorted4_eq]
  simp only [eq_lo_or_hi]
  rw [min_eq_left h1, max_eq_right h1, min_eq_right h2, min_eq_left lt.le, max_eq_right lt.le,
    max_eq_left h2]
  by_cases e1 : s.lo = t.lo
  · rw [if_pos (Or.inl e1)]
    have h3 : t.hi < s.hi := lt_of_le_of_ne h2 (by rcases hne with h | h; exact absurd e1 h; exact h.symm)
    exact pieceSpec_right hs ht hl h3 (h1.trans lt.le) e1.ge
  · have h3 : s.lo < t.lo := lt_of_le_of_ne h1 e1
    rw [if_neg (by rintro (h | h); exacts [e1 h, (h3.trans lt).ne h]), if_pos (Or.inl rfl),
      if_pos (Or.inr rfl)]
    by_cases e2 : t.hi = s.hi
    · rw [if_pos e2]; exact pieceSpec_left hs ht hl h3 (lt.le.trans h2) e2.ge
    · rw [if_neg e2]; exact pieceSpec_both hs ht hl h3 (lt_of_le_of_ne h2 e2)

theorem composite_eq_unpack (s t : Segment) :
    subtractSegmentsComposite s t = unpackSegments (subtractComponentPieces s t) := by
  unfold subtractSegmentsComposite subtractComponentPieces
  simp only
  split_ifs <;> rfl

theorem PieceSpec.difference {s t : Segment} {R : List Segment} (h : PieceSpec s t R) :
    IsDifference s.pts t.pts (segsPts R) := by
  refine ⟨h.covers, ?_, ?_⟩
  · rintro p ⟨r, hr, hp⟩; exact h.within r hr hp
  · refine (Set.toFinite {t.start, t.stop}).subset ?_
    rintro p ⟨⟨r, hr, hp⟩, hq⟩
    exact h.common r hr p hp hq

theorem overlapping_of_finite_false {s : Segment} (hs : s.Proper) : s.pts.Infinite := by
  intro hf
  have : Set.Finite (Set.univ : Set ℕ) := by
    apply Set.Finite.of_finite_image (f := fun n : ℕ => s.at (1 / (n + 1)))
    · apply hf.subset
      rintro _ ⟨n, -, rfl⟩
      have : (0:ℚ) < n + 1 := by positivity
      exact ⟨1 / (n + 1), by positivity, (div_le_one this).2 (by linarith [(Nat.cast_nonneg n : (0:ℚ) ≤ n)]), rfl, rfl⟩
    · intro m _ n _ he
      simp only [Segment.at, Point.mk.injEq, add_right_inj] at he
      have hd := not_both_zero hs
      have h1 : (0:ℚ) < m + 1 := by positivity
      have h2 : (0:ℚ) < n + 1 := by positivity
      have : (1 : ℚ) / (m + 1) = 1 / (n + 1) := by
        rcases hd with hd | hd
        · exact mul_right_cancel₀ hd he.1
        · exact mul_right_cancel₀ hd he.2
      rw [div_eq_div_iff h1.ne' h2.ne'] at this
      have : (m : ℚ) = n := by linarith
      exact_mod_cast this
  exact Set.infinite_univ this

end Clipping

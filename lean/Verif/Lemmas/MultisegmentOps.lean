import Verif.Lemmas.SegmentOps

/-! # Helper lemmas for the segment/multisegment functions -/

namespace Clipping

/-- Two segments neither overlap nor cross. -/
def Compatible (s t : Segment) : Prop := ¬ Overlapping s t ∧ ¬ Crossing s t

theorem Compatible.symm {s t : Segment} (h : Compatible s t) : Compatible t s :=
  ⟨fun ⟨p, q, a, b, c, d, e⟩ => h.1 ⟨p, q, a, d, e, b, c⟩,
    fun ⟨p, a, b, c, d⟩ => h.2 ⟨p, b, a, d, c⟩⟩

/-- A sub-segment containing an end of the whole has it as an end. -/
theorem sub_end {u t : Segment} (hu : u.pts ⊆ t.pts) {p : Point} (ht : t.IsEnd p) (hp : p ∈ u.pts) :
    u.IsEnd p := by
  rw [Segment.isEnd_iff] at *
  have a := Segment.lo_le_of_mem hp
  have b := Segment.le_hi_of_mem hp
  rcases ht with rfl | rfl
  · exact Or.inl (le_antisymm (Segment.lo_le_of_mem (hu u.lo_mem)) a)
  · exact Or.inr (le_antisymm b (Segment.le_hi_of_mem (hu u.hi_mem)))

theorem Compatible.mono {s t a b : Segment} (h : Compatible s t) (ha : a.pts ⊆ s.pts)
    (hb : b.pts ⊆ t.pts) : Compatible a b := by
  constructor
  · rintro ⟨p, q, hpq, h1, h2, h3, h4⟩
    exact h.1 ⟨p, q, hpq, ha h1, ha h2, hb h3, hb h4⟩
  · rintro ⟨p, h1, h2, h3, h4⟩
    exact h.2 ⟨p, ha h1, hb h2, fun e => h3 (sub_end ha e h1), fun e => h4 (sub_end hb e h2)⟩

theorem compatible_finite {s t : Segment} (h : ¬ Overlapping s t) : (s.pts ∩ t.pts).Finite := by
  by_cases hn : (s.pts ∩ t.pts).Nonempty
  · obtain ⟨c, hc⟩ := hn
    refine pts_finite_of_unique (p := c) fun q hq => ?_
    by_contra hne
    exact h ⟨q, c, hne, hq.1, hc.1, hq.2, hc.2⟩
  · rw [Set.not_nonempty_iff_eq_empty] at hn; rw [hn]; exact Set.finite_empty

theorem mk_sub {u : Segment} {p q : Point} (hp : p ∈ u.pts) (hq : q ∈ u.pts) :
    (Segment.mk p q).pts ⊆ u.pts := fun _ hr => pts_convex hp hq hr

theorem PieceSpec.compatible {s t : Segment} (ht : t.Proper) {R : List Segment} (h : PieceSpec s t R) :
    ∀ r ∈ R, Compatible r t := by
  intro r hr
  constructor
  · rintro ⟨p, q, hpq, h1, h2, h3, h4⟩
    have e1 := h.common r hr p h1 h3
    have e2 := h.common r hr q h2 h4
    have : t.pts ⊆ r.pts := by
      rcases e1 with rfl | rfl <;> rcases e2 with rfl | rfl
      · exact (hpq rfl).elim
      · exact mk_sub h1 h2
      · exact mk_sub h2 h1
      · exact (hpq rfl).elim
    apply overlapping_of_finite_false ht
    exact (Set.toFinite {t.start, t.stop}).subset fun x hx => h.common r hr x (this hx) hx
  · rintro ⟨p, h1, h2, -, h4⟩
    exact h4 (h.common r hr p h1 h2)

theorem segsPts_finite_inter {l : List Segment} {A : Set Point}
    (h : ∀ r ∈ l, (r.pts ∩ A).Finite) : (segsPts l ∩ A).Finite := by
  induction l with
  | nil => rw [segsPts_nil, Set.empty_inter]; exact Set.finite_empty
  | cons r l ih =>
    rw [segsPts_cons, Set.union_inter_distrib_right]
    exact (h r (by simp)).union (ih fun r hr => h r (by simp [hr]))

theorem mem_segsPts {l : List Segment} {p : Point} : p ∈ segsPts l ↔ ∃ s ∈ l, p ∈ s.pts := Iff.rfl

/-- What the list left after subtracting `s` from `l` satisfies. -/
structure SubtractSpec (s : Segment) (l R : List Segment) : Prop where
  within : ∀ r ∈ R, ∃ t ∈ l, r.pts ⊆ t.pts
  valid : ValidSegments R
  covers : segsPts l \ s.pts ⊆ segsPts R
  compatible : ∀ r ∈ R, Compatible r s

theorem SubtractSpec.cons {s t : Segment} {l R G : List Segment} (hv : ValidSegments (t :: l))
    (h : SubtractSpec s l R) (hG : ValidSegments G) (hw : ∀ r ∈ G, r.pts ⊆ t.pts)
    (hc : t.pts \ s.pts ⊆ segsPts G) (hk : ∀ r ∈ G, Compatible r s) :
    SubtractSpec s (t :: l) (G ++ R) := by
  refine ⟨?_, ⟨?_, ?_⟩, ?_, ?_⟩
  · intro r hr
    rcases List.mem_append.1 hr with hr | hr
    · exact ⟨t, by simp, hw r hr⟩
    · obtain ⟨t', ht', h'⟩ := h.within r hr
      exact ⟨t', by simp [ht'], h'⟩
  · intro r hr
    rcases List.mem_append.1 hr with hr | hr
    exacts [hG.1 r hr, h.valid.1 r hr]
  · rw [List.pairwise_append]
    refine ⟨hG.2, h.valid.2, ?_⟩
    intro a ha b hb
    obtain ⟨t', ht', h'⟩ := h.within b hb
    exact Compatible.mono ((List.pairwise_cons.1 hv.2).1 t' ht') (hw a ha) h'
  · rw [segsPts_cons, segsPts_append]
    rintro p ⟨hp | hp, hn⟩
    · exact Or.inl (hc ⟨hp, hn⟩)
    · exact Or.inr (h.covers ⟨hp, hn⟩)
  · intro r hr
    rcases List.mem_append.1 hr with hr | hr
    exacts [hk r hr, h.compatible r hr]

theorem ValidSegments.tail {t : Segment} {l : List Segment} (h : ValidSegments (t :: l)) : ValidSegments l :=
  ⟨fun s hs => h.1 s (by simp [hs]), (List.pairwise_cons.1 h.2).2⟩

theorem validSingle {t : Segment} (h : t.Proper) : ValidSegments [t] :=
  ⟨by simpa using h, List.pairwise_singleton _ _⟩

/-- Remaining segments once the subtracted segment was found inside `t`. -/
theorem SubtractSpec.rest {s t : Segment} {l : List Segment} (hv : ValidSegments (t :: l))
    (hs : s.pts ⊆ t.pts) : SubtractSpec s l l :=
  ⟨fun r hr => ⟨r, hr, subset_rfl⟩, hv.tail, fun _ hp => hp.1,
    fun r hr => (Compatible.mono (Compatible.symm ((List.pairwise_cons.1 hv.2).1 r hr)) subset_rfl hs)⟩

theorem subtractList_spec {s : Segment} (hs : s.Proper) (l : List Segment) (hv : ValidSegments l) :
    SubtractSpec s l (subtractSegmentFromMultisegmentList s l) := by
  induction l with
  | nil => exact ⟨by simp [subtractSegmentFromMultisegmentList], hv,
      by rw [segsPts_nil]; simp, by simp [subtractSegmentFromMultisegmentList]⟩
  | cons t l ih =>
    have ht : t.Proper := hv.1 t (by simp)
    have hm := relation_spec hs ht
    have hf := segmentsRelation_flip hs ht
    have ih := ih hv.tail
    unfold subtractSegmentFromMultisegmentList
    cases h : segmentsRelation s t <;> rw [h] at hm hf <;> simp only
    · refine ih.cons hv (G := [t]) (validSingle ht) (by simp) ?_ ?_
      · rw [segsPts_cons, segsPts_nil, Set.union_empty]; exact Set.sdiff_subset
      · simp only [List.mem_singleton, forall_eq]
        exact (show Compatible s t from ok_of_disjoint hm).symm
    · refine ih.cons hv (G := [t]) (validSingle ht) (by simp) ?_ ?_
      · rw [segsPts_cons, segsPts_nil, Set.union_empty]; exact Set.sdiff_subset
      · simp only [List.mem_singleton, forall_eq]
        obtain ⟨p, h1, h2, hu, he⟩ := hm
        exact (show Compatible s t from ok_of_common hu fun _ _ => he).symm
    · obtain ⟨h1, h2, hu, hn1, hn2⟩ := cross_data ht hs hf
      set c := segmentsIntersection t s
      refine ih.cons hv (G := [⟨t.start, c⟩, ⟨c, t.stop⟩]) ⟨?_, ?_⟩ ?_ ?_ ?_
      · intro r hr; simp only [List.mem_cons, List.not_mem_nil, or_false] at hr
        rcases hr with rfl | rfl
        · exact fun e => hn1 (Or.inl e.symm)
        · exact fun e => hn1 (Or.inr e)
      · simp only [List.pairwise_cons, List.mem_singleton, forall_eq, List.not_mem_nil, false_imp_iff,
          implies_true, List.Pairwise.nil, and_true]
        exact ok_of_common (fun p a b => split_common h1 a b) fun _ _ => Or.inl (Or.inr rfl)
      · intro r hr; simp only [List.mem_cons, List.not_mem_nil, or_false] at hr
        rcases hr with rfl | rfl
        exacts [split_left_sub h1, split_right_sub h1]
      · rw [segsPts_cons, segsPts_cons, segsPts_nil, Set.union_empty, split_pts h1]
        exact Set.sdiff_subset
      · intro r hr; simp only [List.mem_cons, List.not_mem_nil, or_false] at hr
        rcases hr with rfl | rfl
        · exact ok_of_common (fun p a b => hu p (split_left_sub h1 a) b) fun _ _ => Or.inl (Or.inr rfl)
        · exact ok_of_common (fun p a b => hu p (split_right_sub h1 a) b) fun _ _ => Or.inl (Or.inl rfl)
    · have hp := overlap_pieces ht hs (hm.1.symm hs ht) hm.2.symm
      exact ih.cons hv (pieces_ok hp) hp.within hp.covers (hp.compatible hs)
    · have hp := pieceSpec_none (component_sub hs (hm.1.symm hs ht) hm.2.1 hm.2.2.1)
      exact ih.cons hv (pieces_ok hp) hp.within hp.covers (hp.compatible hs)
    · have e := pts_eq_of_lo_hi hm.1 hm.2
      have hp : PieceSpec t s [] := pieceSpec_none e.ge
      exact (SubtractSpec.rest hv e.le).cons hv (pieces_ok hp) hp.within hp.covers (hp.compatible hs)
    · have hp := component_pieces ht hs (hm.1.symm hs ht) hm.2.1 hm.2.2.1 (hm.2.2.2.imp Ne.symm Ne.symm)
      exact (SubtractSpec.rest hv (component_sub ht hm.1 hm.2.1 hm.2.2.1)).cons hv (pieces_ok hp)
        hp.within hp.covers (hp.compatible hs)

/-- What the list of overlaps of `s` with the elements of `l` satisfies. -/
structure IntersectSpec (s : Segment) (l R : List Segment) : Prop where
  proper : ∀ r ∈ R, r.Proper
  within : ∀ r ∈ R, ∃ t ∈ l, r.pts ⊆ t.pts ∧ r.pts ⊆ s.pts
  covers : ((s.pts ∩ segsPts l) \ segsPts R).Finite
  valid : ValidSegments l → ValidSegments R

theorem IntersectSpec.skip {s t : Segment} {l R : List Segment} (h : IntersectSpec s l R)
    (hf : (s.pts ∩ t.pts).Finite) : IntersectSpec s (t :: l) R := by
  refine ⟨h.proper, ?_, ?_, fun hv => h.valid hv.tail⟩
  · intro r hr; obtain ⟨t', a, b⟩ := h.within r hr; exact ⟨t', by simp [a], b⟩
  · refine (hf.union h.covers).subset ?_
    rintro p ⟨⟨h1, h2⟩, h3⟩
    rw [segsPts_cons] at h2
    rcases h2 with h2 | h2
    · exact Or.inl ⟨h1, h2⟩
    · exact Or.inr ⟨⟨h1, h2⟩, h3⟩

theorem IntersectSpec.keep {s t u : Segment} {l R : List Segment} (h : IntersectSpec s l R)
    (hu : u.Proper) (he : u.pts = s.pts ∩ t.pts) : IntersectSpec s (t :: l) (u :: R) := by
  have ut : u.pts ⊆ t.pts := he ▸ Set.inter_subset_right
  have us : u.pts ⊆ s.pts := he ▸ Set.inter_subset_left
  refine ⟨?_, ?_, ?_, ?_⟩
  · intro r hr; rcases List.mem_cons.1 hr with rfl | hr
    exacts [hu, h.proper r hr]
  · intro r hr; rcases List.mem_cons.1 hr with rfl | hr
    · exact ⟨t, by simp, ut, us⟩
    · obtain ⟨t', a, b⟩ := h.within r hr; exact ⟨t', by simp [a], b⟩
  · refine h.covers.subset ?_
    rintro p ⟨⟨h1, h2⟩, h3⟩
    rw [segsPts_cons] at h2 h3
    rcases h2 with h2 | h2
    · exact (h3 (Or.inl (he ▸ ⟨h1, h2⟩))).elim
    · exact ⟨⟨h1, h2⟩, fun h4 => h3 (Or.inr h4)⟩
  · intro hv
    refine ⟨?_, ?_⟩
    · intro r hr; rcases List.mem_cons.1 hr with rfl | hr
      exacts [hu, h.proper r hr]
    · rw [List.pairwise_cons]
      refine ⟨fun r hr => ?_, (h.valid hv.tail).2⟩
      obtain ⟨t', a, b, -⟩ := h.within r hr
      exact Compatible.mono ((List.pairwise_cons.1 hv.2).1 t' a) ut b

theorem intersectList_spec {s : Segment} (hs : s.Proper) (l : List Segment) (hl : ∀ t ∈ l, t.Proper) :
    IntersectSpec s l (intersectSegmentWithMultisegmentList s l) := by
  induction l with
  | nil => exact ⟨by simp [intersectSegmentWithMultisegmentList], by simp [intersectSegmentWithMultisegmentList],
      by rw [segsPts_nil]; simp, fun h => h⟩
  | cons t l ih =>
    have ht : t.Proper := hl t (by simp)
    have hm := relation_spec hs ht
    have ih := ih fun r hr => hl r (by simp [hr])
    unfold intersectSegmentWithMultisegmentList
    cases h : segmentsRelation s t <;> rw [h] at hm <;> simp only
    · exact ih.skip (Set.Finite.subset Set.finite_empty fun p hp => hm p hp.1 hp.2)
    · obtain ⟨p, -, -, hu, -⟩ := hm
      exact ih.skip (pts_finite_of_unique fun q hq => hu q hq.1 hq.2)
    · obtain ⟨⟨p, -, -, hu, -⟩, -⟩ := hm
      exact ih.skip (pts_finite_of_unique fun q hq => hu q hq.1 hq.2)
    · obtain ⟨h1, h2⟩ := linear_facts hs ht (r := .overlap) hm trivial
      refine ih.keep ?_ (overlap_pts ht h1 h2.le)
      unfold intersectSegmentsOverlap; rw [sorted4_eq]
      simp only [min_eq_left h2.le, max_eq_right h2.le]
      exact h2.ne
    · exact ih.keep ht (Set.inter_eq_right.2 (component_sub hs (hm.1.symm hs ht) hm.2.1 hm.2.2.1)).symm
    · exact ih.keep hs (Set.inter_eq_left.2 (pts_eq_of_lo_hi hm.1 hm.2).le).symm
    · exact ih.keep hs (Set.inter_eq_left.2 (component_sub ht hm.1 hm.2.1 hm.2.2.1)).symm

end Clipping

import Verif.Lemmas.Segments

/-! # The relation of two segments is determined by its meaning -/

namespace Clipping

def Segment.rev (s : Segment) : Segment := ⟨s.stop, s.start⟩

theorem Segment.rev_lo (s : Segment) : s.rev.lo = s.lo := min_comm _ _
theorem Segment.rev_hi (s : Segment) : s.rev.hi = s.hi := max_comm _ _
theorem Segment.rev_pts (s : Segment) : s.rev.pts = s.pts := Segment.pts_swap _ _
theorem Segment.rev_proper {s : Segment} (h : s.Proper) : s.rev.Proper := fun h' => h h'.symm
theorem Segment.rev_isEnd {s : Segment} {p : Point} : s.rev.IsEnd p ↔ s.IsEnd p := or_comm

theorem segmentsRelation_rev_left (s t : Segment) : segmentsRelation s.rev t = segmentsRelation s t := by
  unfold segmentsRelation; rw [s.rev_lo, s.rev_hi]

theorem segmentsRelation_rev_right (s t : Segment) : segmentsRelation s t.rev = segmentsRelation s t := by
  unfold segmentsRelation; rw [t.rev_lo, t.rev_hi]

theorem two_common {s t : Segment} (ht : t.Proper) (hl : SameLine s t)
    (h : max s.lo t.lo < min s.hi t.hi) :
    ∃ p q, p ≠ q ∧ p ∈ s.pts ∧ q ∈ s.pts ∧ p ∈ t.pts ∧ q ∈ t.pts := by
  have e := overlap_pts ht hl h.le
  have e' : intersectSegmentsOverlap s t = ⟨max s.lo t.lo, min s.hi t.hi⟩ := by
    unfold intersectSegmentsOverlap; rw [sorted4_eq]
    simp only [min_eq_left h.le, max_eq_right h.le]
  rw [e'] at e
  have m1 : max s.lo t.lo ∈ s.pts ∩ t.pts := by rw [← e]; exact Segment.start_mem _
  have m2 : min s.hi t.hi ∈ s.pts ∩ t.pts := by rw [← e]; exact Segment.stop_mem _
  exact ⟨_, _, h.ne, m1.1, m2.1, m1.2, m2.2⟩

def Relation.Linear : Relation → Prop
  | .overlap | .composite | .equal | .component => True
  | _ => False

theorem linear_facts {s t : Segment} (hs : s.Proper) (ht : t.Proper) {r : Relation}
    (h : RelationMeaning s t r) (hr : r.Linear) :
    SameLine s t ∧ max s.lo t.lo < min s.hi t.hi := by
  have ls := Segment.lo_lt_hi hs
  have lt := Segment.lo_lt_hi ht
  cases r <;> try exact hr.elim
  · obtain ⟨h1, h2⟩ := h
    refine ⟨h1, ?_⟩
    rw [max_lt_iff, lt_min_iff, lt_min_iff]
    rcases h2 with ⟨a, b, c⟩ | ⟨a, b, c⟩
    · exact ⟨⟨ls, a.trans lt⟩, b, lt⟩
    · exact ⟨⟨ls, b⟩, a.trans ls, lt⟩
  · obtain ⟨h1, h2, h3, -⟩ := h
    refine ⟨h1, ?_⟩
    rw [max_lt_iff, lt_min_iff, lt_min_iff]
    exact ⟨⟨ls, h2.trans_lt lt⟩, lt.trans_le h3, lt⟩
  · obtain ⟨h1, h2⟩ := h
    refine ⟨SameLine.of_lo_hi h1 h2, ?_⟩
    rw [h1, h2, max_self, min_self]; exact lt
  · obtain ⟨h1, h2, h3, -⟩ := h
    refine ⟨h1, ?_⟩
    rw [max_lt_iff, lt_min_iff, lt_min_iff]
    exact ⟨⟨ls, ls.trans_le h3⟩, h2.trans_lt ls, lt⟩

/-- The seven relations exclude each other: the meaning determines the relation. -/
theorem relation_unique {s t : Segment} (hs : s.Proper) (ht : t.Proper) {r r' : Relation}
    (h : RelationMeaning s t r) (h' : RelationMeaning s t r') : r = r' := by
  have key : ∀ r r', RelationMeaning s t r → RelationMeaning s t r' → r.Linear → r'.Linear := by
    intro r r' h h' hr
    obtain ⟨hl, hm⟩ := linear_facts hs ht h hr
    obtain ⟨p, q, hpq, a, b, c, d⟩ := two_common ht hl hm
    cases r' <;> try trivial
    · exact (h' p a c).elim
    · obtain ⟨u, -, -, hu, -⟩ := h'
      exact (hpq ((hu p a c).trans (hu q b d).symm)).elim
    · obtain ⟨⟨u, -, -, hu, -⟩, -⟩ := h'
      exact (hpq ((hu p a c).trans (hu q b d).symm)).elim
  by_cases hr : r.Linear
  · have hr' := key r r' h h' hr
    have ls := Segment.lo_lt_hi hs
    have lt := Segment.lo_lt_hi ht
    cases r <;> (try exact hr.elim) <;> cases r' <;> (try exact hr'.elim) <;> (try rfl) <;>
      exfalso <;> simp only [RelationMeaning] at h h'
    · rcases h.2 with ⟨a, b, c⟩ | ⟨a, b, c⟩
      · exact absurd h'.2.2.1 (not_le.2 c)
      · exact absurd h'.2.1 (not_le.2 a)
    · rcases h.2 with ⟨a, b, c⟩ | ⟨a, b, c⟩
      · exact c.ne h'.2
      · exact c.ne' h'.2
    · rcases h.2 with ⟨a, b, c⟩ | ⟨a, b, c⟩
      · exact absurd h'.2.1 (not_le.2 a)
      · exact absurd h'.2.2.1 (not_le.2 c)
    · rcases h'.2 with ⟨a, b, c⟩ | ⟨a, b, c⟩
      · exact absurd h.2.2.1 (not_le.2 c)
      · exact absurd h.2.1 (not_le.2 a)
    · rcases h.2.2.2 with a | a; exacts [a h'.1, a h'.2]
    · rcases h.2.2.2 with a | a
      exacts [a (le_antisymm h.2.1 h'.2.1), a (le_antisymm h'.2.2.1 h.2.2.1)]
    · rcases h'.2 with ⟨a, b, c⟩ | ⟨a, b, c⟩
      · exact c.ne h.2
      · exact c.ne' h.2
    · rcases h'.2.2.2 with a | a; exacts [a h.1, a h.2]
    · rcases h'.2.2.2 with a | a; exacts [a h.1, a h.2]
    · rcases h'.2 with ⟨a, b, c⟩ | ⟨a, b, c⟩
      · exact absurd h.2.1 (not_le.2 a)
      · exact absurd h.2.2.1 (not_le.2 c)
    · rcases h.2.2.2 with a | a
      exacts [a (le_antisymm h'.2.1 h.2.1), a (le_antisymm h.2.2.1 h'.2.2.1)]
    · rcases h.2.2.2 with a | a; exacts [a h'.1, a h'.2]
  · have hr' : ¬ r'.Linear := fun hh => hr (key r' r h' h hh)
    cases r <;> (try exact (hr trivial).elim) <;> cases r' <;> (try exact (hr' trivial).elim) <;>
      (try rfl) <;> exfalso <;> simp only [RelationMeaning] at h h'
    · obtain ⟨p, a, b, -⟩ := h'; exact h p a b
    · obtain ⟨⟨p, a, b, -⟩, -⟩ := h'; exact h p a b
    · obtain ⟨p, a, b, -⟩ := h; exact h' p a b
    · obtain ⟨p, a, b, c, d⟩ := h; obtain ⟨⟨q, a', b', c', d', e'⟩, -⟩ := h'
      rw [c q a' b'] at d' e'; exact d.elim d' e'
    · obtain ⟨⟨p, a, b, -⟩, -⟩ := h; exact h' p a b
    · obtain ⟨p, a, b, c, d⟩ := h'; obtain ⟨⟨q, a', b', c', d', e'⟩, -⟩ := h
      rw [c q a' b'] at d' e'; exact d.elim d' e'

/-- The relation seen from the other segment. -/
def Relation.flip : Relation → Relation
  | .composite => .component
  | .component => .composite
  | r => r

theorem meaning_flip {s t : Segment} (hs : s.Proper) (ht : t.Proper) {r : Relation}
    (h : RelationMeaning s t r) : RelationMeaning t s r.flip := by
  cases r
  · exact fun p a b => h p b a
  · obtain ⟨p, a, b, c, d⟩ := h; exact ⟨p, b, a, fun q u v => c q v u, d.symm⟩
  · obtain ⟨⟨p, a, b, c, d, e⟩, f⟩ := h
    exact ⟨⟨p, b, a, fun q u v => c q v u, e, d⟩, fun g => f (g.symm ht hs)⟩
  · exact ⟨h.1.symm hs ht, h.2.symm⟩
  · exact ⟨h.1.symm hs ht, h.2.1, h.2.2.1, h.2.2.2.imp Ne.symm Ne.symm⟩
  · exact ⟨h.1.symm, h.2.symm⟩
  · exact ⟨h.1.symm hs ht, h.2.1, h.2.2.1, h.2.2.2.imp Ne.symm Ne.symm⟩

theorem segmentsRelation_flip {s t : Segment} (hs : s.Proper) (ht : t.Proper) :
    segmentsRelation t s = (segmentsRelation s t).flip :=
  relation_unique ht hs (relation_spec ht hs) (meaning_flip hs ht (relation_spec hs ht))

end Clipping

import Verif.Lemmas.Pieces
import Verif.Lemmas.RelationUnique

/-! # Results of the segment/segment functions, relation by relation -/

namespace Clipping

/-- Two segments meeting only in `c`, which is an end of one of them, neither overlap nor cross. -/
theorem ok_of_common {s t : Segment} {c : Point} (h : ∀ p, p ∈ s.pts → p ∈ t.pts → p = c)
    (he : c ∈ s.pts → c ∈ t.pts → s.IsEnd c ∨ t.IsEnd c) : ¬ Overlapping s t ∧ ¬ Crossing s t := by
  constructor
  · rintro ⟨p, q, hpq, a, b, a', b'⟩
    exact hpq ((h p a a').trans (h q b b').symm)
  · rintro ⟨p, a, b, c', d⟩
    have := h p a b; subst this
    rcases he a b with e | e
    exacts [c' e, d e]

theorem ok_of_disjoint {s t : Segment} (h : ∀ p, p ∈ s.pts → p ∉ t.pts) :
    ¬ Overlapping s t ∧ ¬ Crossing s t := by
  constructor
  · rintro ⟨p, q, hpq, a, b, a', b'⟩; exact h p a a'
  · rintro ⟨p, a, b, -⟩; exact h p a b

theorem split_common {s : Segment} {c : Point} (hc : c ∈ s.pts) {p : Point}
    (h1 : p ∈ (Segment.mk s.start c).pts) (h2 : p ∈ (Segment.mk c s.stop).pts) : p = c := by
  have a1 := Segment.lo_le_of_mem h1
  have a2 := Segment.le_hi_of_mem h1
  have b1 := Segment.lo_le_of_mem h2
  have b2 := Segment.le_hi_of_mem h2
  have c1 := Segment.lo_le_of_mem hc
  have c2 := Segment.le_hi_of_mem hc
  unfold Segment.lo Segment.hi at *
  simp only at *
  rcases le_total s.start s.stop with h | h
  · rw [min_eq_left h] at c1; rw [max_eq_right h] at c2
    rw [max_eq_right c1] at a2; rw [min_eq_left c2] at b1
    exact le_antisymm a2 b1
  · rw [min_eq_right h] at c1; rw [max_eq_left h] at c2
    rw [min_eq_right c2] at a1; rw [max_eq_left c1] at b2
    exact le_antisymm b2 a1

theorem split_left_sub {s : Segment} {c : Point} (hc : c ∈ s.pts) :
    (Segment.mk s.start c).pts ⊆ s.pts := fun _ hp => split_pts hc ▸ Or.inl hp

theorem split_right_sub {s : Segment} {c : Point} (hc : c ∈ s.pts) :
    (Segment.mk c s.stop).pts ⊆ s.pts := fun _ hp => split_pts hc ▸ Or.inr hp

theorem touch_data {s t : Segment} (hs : s.Proper) (ht : t.Proper)
    (h : segmentsRelation s t = .touch) :
    ∃ p, p ∈ s.pts ∧ p ∈ t.pts ∧ (∀ q, q ∈ s.pts → q ∈ t.pts → q = p) ∧ (s.IsEnd p ∨ t.IsEnd p) := by
  have := relation_spec hs ht; rw [h] at this; exact this

theorem touch_shared {s t : Segment} {a b c : Point} (hs : s.Proper) (ht : t.Proper)
    (hab : (a = s.start ∧ b = s.stop) ∨ (a = s.stop ∧ b = s.start))
    (hac : (a = t.start ∧ c = t.stop) ∨ (a = t.stop ∧ c = t.start))
    (ho : orientation a b c = .collinear) : SameLine t s := by
  rw [orientation_col] at ho
  have h1 : cross s.start s.stop a = 0 := by
    rcases hab with ⟨h, -⟩ | ⟨h, -⟩ <;> rw [h]
    exacts [cross_self_left _ _, cross_self_right _ _]
  have h2 : cross s.start s.stop c = 0 := by
    rcases hab with ⟨h, h'⟩ | ⟨h, h'⟩ <;> rw [h, h'] at ho
    · exact ho
    · rw [cross_swap, ho, neg_zero]
  rw [← cross_lo_hi] at h1 h2
  constructor
  · rcases t.lo_hi_cases with ⟨e1, e2, -⟩ | ⟨e1, e2, -⟩ <;> rcases hac with ⟨f1, f2⟩ | ⟨f1, f2⟩ <;>
      rw [e1] <;> rw [f1] at h1 <;> rw [f2] at h2 <;> assumption
  · rcases t.lo_hi_cases with ⟨e1, e2, -⟩ | ⟨e1, e2, -⟩ <;> rcases hac with ⟨f1, f2⟩ | ⟨f1, f2⟩ <;>
      rw [e2] <;> rw [f1] at h1 <;> rw [f2] at h2 <;> assumption

theorem uniteTouch_cases {s t : Segment} (hs : s.Proper) (ht : t.Proper) :
    uniteSegmentsTouch s t = .multisegment [s, t] ∨
    (SameLine s t ∧ uniteSegmentsTouch s t = .segment ⟨min s.lo t.lo, max s.hi t.hi⟩) := by
  unfold uniteSegmentsTouch
  split_ifs with h
  · exact Or.inl rfl
  · right
    refine ⟨?_, ?_⟩
    · apply SameLine.symm ht hs
      by_contra hc
      apply h
      refine ⟨?_, ?_, ?_, ?_⟩ <;> by_contra hd <;> push Not at hd <;> apply hc
      · exact touch_shared hs ht (Or.inl ⟨rfl, rfl⟩) (Or.inl ⟨hd.1, rfl⟩) hd.2
      · exact touch_shared hs ht (Or.inl ⟨rfl, rfl⟩) (Or.inr ⟨hd.1, rfl⟩) hd.2
      · exact touch_shared hs ht (Or.inr ⟨rfl, rfl⟩) (Or.inl ⟨hd.1, rfl⟩) hd.2
      · exact touch_shared hs ht (Or.inr ⟨rfl, rfl⟩) (Or.inr ⟨hd.1, rfl⟩) hd.2
    · simp only [Segment.lo, Segment.hi, min_assoc, max_assoc]

theorem pair_pts (s t : Segment) : (Geometry.multisegment [s, t]).pts = s.pts ∪ t.pts := by
  show segsPts _ = _
  rw [segsPts_cons, segsPts_cons, segsPts_nil, Set.union_empty]

/-- On one line, with intervals that meet, the union is the segment between the extreme ends. -/
theorem hull_pts {s t : Segment} (ht : t.Proper) (hl : SameLine s t)
    (ho : max s.lo t.lo ≤ min s.hi t.hi) :
    (Segment.mk (min s.lo t.lo) (max s.hi t.hi)).pts = s.pts ∪ t.pts := by
  have ps := onLine_pts ht hl
  have c1 : cross t.lo t.hi (min s.lo t.lo) = 0 := by
    rcases min_choice s.lo t.lo with h | h <;> rw [h]
    exacts [hl.1, cross_self_left _ _]
  have c2 : cross t.lo t.hi (max s.hi t.hi) = 0 := by
    rcases max_choice s.hi t.hi with h | h <;> rw [h]
    exacts [hl.2, cross_self_right _ _]
  have hle : min s.lo t.lo ≤ max s.hi t.hi := (min_le_left _ _).trans (s.lo_le_hi.trans (le_max_left _ _))
  ext p
  rw [mem_on_line ht c1 c2 hle, Set.mem_union, ps, Segment.mem_iff ht, min_le_iff, le_max_iff]
  rw [max_le_iff, le_min_iff, le_min_iff] at ho
  obtain ⟨⟨h1, h2⟩, h3, h4⟩ := ho
  constructor
  · rintro ⟨a, b, c⟩
    rcases b with b | b <;> rcases c with c | c
    · exact Or.inl ⟨a, b, c⟩
    · rcases le_total p s.hi with d | d
      · exact Or.inl ⟨a, b, d⟩
      · exact Or.inr ⟨a, h3.trans d, c⟩
    · rcases le_total p t.hi with d | d
      · exact Or.inr ⟨a, b, d⟩
      · exact Or.inl ⟨a, h2.trans d, c⟩
    · exact Or.inr ⟨a, b, c⟩
  · rintro (⟨a, b, c⟩ | ⟨a, b, c⟩)
    · exact ⟨a, Or.inl b, Or.inl c⟩
    · exact ⟨a, Or.inr b, Or.inr c⟩

theorem hull_proper {s t : Segment} (hs : s.Proper) :
    (Segment.mk (min s.lo t.lo) (max s.hi t.hi)).Proper :=
  ((min_le_left _ _).trans_lt ((Segment.lo_lt_hi hs).trans_le (le_max_left _ _))).ne

theorem common_le {s t : Segment} {p : Point} (h1 : p ∈ s.pts) (h2 : p ∈ t.pts) :
    max s.lo t.lo ≤ min s.hi t.hi :=
  le_trans (max_le (Segment.lo_le_of_mem h1) (Segment.lo_le_of_mem h2))
    (le_min (Segment.le_hi_of_mem h1) (Segment.le_hi_of_mem h2))

theorem uniteTouch_pts {s t : Segment} (hs : s.Proper) (ht : t.Proper)
    (h : segmentsRelation s t = .touch) : (uniteSegmentsTouch s t).pts = s.pts ∪ t.pts := by
  rcases uniteTouch_cases hs ht with e | ⟨hl, e⟩ <;> rw [e]
  · exact pair_pts s t
  · obtain ⟨p, h1, h2, -⟩ := touch_data hs ht h
    exact hull_pts ht hl (common_le h1 h2)

theorem uniteTouch_ok {s t : Segment} (hs : s.Proper) (ht : t.Proper)
    (h : segmentsRelation s t = .touch) : (uniteSegmentsTouch s t).LinearOk := by
  rcases uniteTouch_cases hs ht with e | ⟨hl, e⟩ <;> rw [e]
  · obtain ⟨p, h1, h2, hu, he⟩ := touch_data hs ht h
    refine ⟨by simp, ?_, ?_⟩
    · intro r hr; simp at hr; rcases hr with rfl | rfl <;> assumption
    · simp only [List.pairwise_cons, List.mem_singleton, forall_eq, List.not_mem_nil, false_imp_iff,
        implies_true, List.Pairwise.nil, and_true]
      exact ok_of_common hu fun _ _ => he
  · exact hull_proper hs

theorem cross_data {s t : Segment} (hs : s.Proper) (ht : t.Proper)
    (h : segmentsRelation s t = .cross) :
    let c := segmentsIntersection s t
    c ∈ s.pts ∧ c ∈ t.pts ∧ (∀ q, q ∈ s.pts → q ∈ t.pts → q = c) ∧ ¬ s.IsEnd c ∧ ¬ t.IsEnd c := by
  obtain ⟨h1, h2, h3⟩ := intersection_spec hs ht (Or.inr h)
  have := relation_spec hs ht; rw [h] at this
  obtain ⟨⟨p, a, b, c, d, e⟩, -⟩ := this
  rw [h3 p a b] at d e
  exact ⟨h1, h2, h3, d, e⟩

theorem uniteCross_pts {s t : Segment} (hs : s.Proper) (ht : t.Proper)
    (h : segmentsRelation s t = .cross) : (uniteSegmentsCross s t).pts = s.pts ∪ t.pts := by
  obtain ⟨h1, h2, -⟩ := cross_data hs ht h
  show segsPts _ = _
  rw [segsPts_cons, segsPts_cons, segsPts_cons, segsPts_cons, segsPts_nil, Set.union_empty,
    ← split_pts h1, ← split_pts h2]
  ext p; simp only [Set.mem_union]; tauto

theorem uniteCross_ok {s t : Segment} (hs : s.Proper) (ht : t.Proper)
    (h : segmentsRelation s t = .cross) : (uniteSegmentsCross s t).LinearOk := by
  obtain ⟨h1, h2, hu, hn1, hn2⟩ := cross_data hs ht h
  unfold uniteSegmentsCross
  simp only
  set c := segmentsIntersection s t
  have p1 : s.start ≠ c := fun e => hn1 (Or.inl e.symm)
  have p2 : t.start ≠ c := fun e => hn2 (Or.inl e.symm)
  have p3 : c ≠ s.stop := fun e => hn1 (Or.inr e)
  have p4 : c ≠ t.stop := fun e => hn2 (Or.inr e)
  refine ⟨by simp, ?_, ?_⟩
  · intro r hr; simp only [List.mem_cons, List.not_mem_nil, or_false] at hr
    rcases hr with rfl | rfl | rfl | rfl <;> assumption
  · have l1 := split_left_sub h1
    have r1 := split_right_sub h1
    have l2 := split_left_sub h2
    have r2 := split_right_sub h2
    have eL : ∀ a : Point, (Segment.mk a c).IsEnd c := fun a => Or.inr rfl
    have eR : ∀ a : Point, (Segment.mk c a).IsEnd c := fun a => Or.inl rfl
    simp only [List.pairwise_cons, List.mem_cons, List.not_mem_nil, or_false, forall_eq_or_imp, forall_eq,
      false_imp_iff, implies_true, List.Pairwise.nil, and_true]
    refine ⟨⟨?_, ?_, ?_⟩, ⟨?_, ?_⟩, ?_⟩
    · exact ok_of_common (fun p a b => hu p (l1 a) (l2 b)) fun _ _ => Or.inl (eL _)
    · exact ok_of_common (fun p a b => split_common h1 a b) fun _ _ => Or.inl (eL _)
    · exact ok_of_common (fun p a b => hu p (l1 a) (r2 b)) fun _ _ => Or.inl (eL _)
    · exact ok_of_common (fun p a b => hu p (r1 b) (l2 a)) fun _ _ => Or.inl (eL _)
    · exact ok_of_common (fun p a b => split_common h2 a b) fun _ _ => Or.inl (eL _)
    · exact ok_of_common (fun p a b => hu p (r1 a) (r2 b)) fun _ _ => Or.inl (eR _)

theorem pieces_ok {s t : Segment} {R : List Segment} (h : PieceSpec s t R) : ValidSegments R :=
  ⟨h.proper, h.apart.imp fun hd => ok_of_disjoint fun p a b => hd p a b⟩

theorem unpackSegments_ok {R : List Segment} (h : ValidSegments R) : (unpackSegments R).LinearOk := by
  match R with
  | [] => trivial
  | [s] => exact h.1 s (by simp)
  | s :: t :: r => exact ⟨by simp, h⟩

theorem unpackSegments_isSegments (R : List Segment) : (unpackSegments R).IsSegments := by
  match R with
  | [] => trivial
  | [s] => trivial
  | s :: t :: r => trivial

theorem symOverlap {s t : Segment} (hs : s.Proper) (ht : t.Proper)
    (h : segmentsRelation s t = .overlap) :
    ∃ a b, PieceSpec s t [a] ∧ PieceSpec t s [b] ∧
      (symmetricSubtractSegmentsOverlap s t = .multisegment [a, b] ∨
       symmetricSubtractSegmentsOverlap s t = .multisegment [b, a]) := by
  have hm := relation_spec hs ht; rw [h] at hm
  obtain ⟨hl, hm⟩ := hm
  have ls := Segment.lo_lt_hi hs
  have lt := Segment.lo_lt_hi ht
  unfold symmetricSubtractSegmentsOverlap
  rw [sorted4_eq]
  rcases hm with ⟨h1, h2, h3⟩ | ⟨h1, h2, h3⟩
  · refine ⟨_, _, pieceSpec_left hs ht hl h1 h2.le h3.le,
      pieceSpec_right ht hs (hl.symm hs ht) h3 h2.le h1.le, Or.inl ?_⟩
    simp only [min_eq_left h1.le, max_eq_right h1.le, min_eq_left h3.le, max_eq_right h3.le,
      min_eq_left h2.le, max_eq_right h2.le]
  · refine ⟨_, _, pieceSpec_right hs ht hl h3 h2.le h1.le,
      pieceSpec_left ht hs (hl.symm hs ht) h1 h2.le h3.le, Or.inr ?_⟩
    simp only [min_eq_right h1.le, max_eq_left h1.le, min_eq_right h3.le, max_eq_left h3.le,
      min_eq_left h2.le, max_eq_right h2.le]

theorem PieceSpec.sym {s t : Segment} {R R' : List Segment} (h : PieceSpec s t R)
    (h' : PieceSpec t s R') : IsSymmetricDifference s.pts t.pts (segsPts R ∪ segsPts R') := by
  refine ⟨?_, ?_, ?_⟩
  · rintro p (hp | hp)
    · exact Or.inl (h.covers hp)
    · exact Or.inr (h'.covers hp)
  · rintro p (⟨r, hr, hp⟩ | ⟨r, hr, hp⟩)
    · exact Or.inl (h.within r hr hp)
    · exact Or.inr (h'.within r hr hp)
  · refine (Set.toFinite {s.start, s.stop, t.start, t.stop}).subset ?_
    rintro p ⟨⟨r, hr, hp⟩ | ⟨r, hr, hp⟩, h1, h2⟩
    · rcases h.common r hr p hp h2 with e | e <;> simp [e]
    · rcases h'.common r hr p hp h1 with e | e <;> simp [e]

theorem pieceSpec_none {s t : Segment} (h : s.pts ⊆ t.pts) : PieceSpec s t [] :=
  ⟨by simp, by simp, fun p hp => (hp.2 (h hp.1)).elim, by simp, by simp, by simp⟩

theorem component_sub {s t : Segment} (ht : t.Proper) (hl : SameLine s t) (h1 : t.lo ≤ s.lo)
    (h2 : s.hi ≤ t.hi) : s.pts ⊆ t.pts := by
  intro p hp
  rw [onLine_pts ht hl] at hp
  rw [Segment.mem_iff ht]
  exact ⟨hp.1, h1.trans hp.2.1, hp.2.2.trans h2⟩

/-- What `subtract_segments` computes, as a list of pieces. -/
theorem subtractSegments_pieces (s t : Segment) (hs : s.Proper) (ht : t.Proper) :
    (∃ R, subtractSegments s t = unpackSegments R ∧ PieceSpec s t R) ∨
    (subtractSegments s t = .segment s ∧ (s.pts ∩ t.pts).Finite) := by
  have hm := relation_spec hs ht
  unfold subtractSegments
  cases h : segmentsRelation s t <;> rw [h] at hm <;> simp only
  · exact Or.inr ⟨trivial, Set.Finite.subset Set.finite_empty fun p hp => hm p hp.1 hp.2⟩
  · obtain ⟨p, -, -, hu, -⟩ := hm
    exact Or.inr ⟨trivial, pts_finite_of_unique fun q hq => hu q hq.1 hq.2⟩
  · obtain ⟨⟨p, -, -, hu, -⟩, -⟩ := hm
    exact Or.inr ⟨trivial, pts_finite_of_unique fun q hq => hu q hq.1 hq.2⟩
  · exact Or.inl ⟨[_], rfl, overlap_pieces hs ht hm.1 hm.2⟩
  · exact Or.inl ⟨_, composite_eq_unpack s t, component_pieces hs ht hm.1 hm.2.1 hm.2.2.1 hm.2.2.2⟩
  · exact Or.inl ⟨[], rfl, pieceSpec_none (pts_eq_of_lo_hi hm.1 hm.2).subset⟩
  · exact Or.inl ⟨[], rfl, pieceSpec_none (component_sub ht hm.1 hm.2.1 hm.2.2.1)⟩

/-- When the common points are finitely many, the union is also the symmetric difference. -/
theorem union_isSym {A B : Set Point} (h : (A ∩ B).Finite) : IsSymmetricDifference A B (A ∪ B) :=
  ⟨fun _ hp => hp.elim (fun h => Or.inl h.1) (fun h => Or.inr h.1), subset_rfl,
    h.subset Set.inter_subset_right⟩

theorem IsSymmetricDifference.of_empty_right {A B R : Set Point} (h : IsSymmetricDifference A B (R ∪ ∅)) :
    IsSymmetricDifference A B R := by rwa [Set.union_empty] at h

theorem uniteTouch_merges {s t : Segment} (hs : s.Proper) (ht : t.Proper)
    (h : segmentsRelation s t = .touch) (hl : SameLine s t) :
    uniteSegmentsTouch s t = .segment ⟨min s.lo t.lo, max s.hi t.hi⟩ := by
  obtain ⟨p, h1, h2, hu, -⟩ := touch_data hs ht h
  have hp := sameLine_single hs ht hl h1 h2 hu
  have c1 : cross s.start s.stop t.start = 0 := by
    rw [← cross_lo_hi]
    rcases t.lo_hi_cases with ⟨e, e', -⟩ | ⟨e, e', -⟩
    · rw [← e]; exact (hl.symm hs ht).1
    · rw [← e']; exact (hl.symm hs ht).2
  have c2 : cross s.start s.stop t.stop = 0 := by
    rw [← cross_lo_hi]
    rcases t.lo_hi_cases with ⟨e, e', -⟩ | ⟨e, e', -⟩
    · rw [← e']; exact (hl.symm hs ht).2
    · rw [← e]; exact (hl.symm hs ht).1
  have c3 : cross s.stop s.start t.start = 0 := by rw [cross_swap, c1, neg_zero]
  have c4 : cross s.stop s.start t.stop = 0 := by rw [cross_swap, c2, neg_zero]
  have hse : p = s.start ∨ p = s.stop := eq_lo_or_hi.2 (hp.imp And.left And.left)
  have hte : p = t.start ∨ p = t.stop := eq_lo_or_hi.2 (hp.symm.imp And.right And.right)
  unfold uniteSegmentsTouch
  rw [if_neg]
  · simp only [Segment.lo, Segment.hi, min_assoc, max_assoc]
  · simp only [Ne, orientation_col, c1, c2, c3, c4, not_true_eq_false, or_false]
    rintro ⟨g1, g2, g3, g4⟩
    rcases hse with e | e <;> rcases hte with f | f <;> rw [e] at f
    exacts [g1 f, g2 f, g3 f, g4 f]

/-- Two segments on one line without a common point leave a gap. -/
theorem gap_point {s t : Segment} (hs : s.Proper) (ht : t.Proper) (hl : SameLine s t)
    (h : s.hi < t.lo) : ∃ p, p ∈ (Segment.mk s.hi t.lo).pts ∧ p ∉ s.pts ∧ p ∉ t.pts := by
  have hpr : (Segment.mk s.hi t.lo).Proper := h.ne
  have hinf := overlapping_of_finite_false hpr
  by_contra hc
  push Not at hc
  apply hinf
  refine (Set.toFinite {s.hi, t.lo}).subset fun p hp => ?_
  have b := Segment.lo_le_of_mem hp
  have c := Segment.le_hi_of_mem hp
  have e1 : (Segment.mk s.hi t.lo).lo = s.hi := min_eq_left h.le
  have e2 : (Segment.mk s.hi t.lo).hi = t.lo := max_eq_right h.le
  rw [e1] at b; rw [e2] at c
  by_cases d : p ∈ s.pts
  · left; exact le_antisymm (Segment.le_hi_of_mem d) b
  · right; exact le_antisymm c (Segment.lo_le_of_mem (hc p hp d))

theorem pts_convex {u : Segment} {p q r : Point} (hp : p ∈ u.pts) (hq : q ∈ u.pts)
    (hr : r ∈ (Segment.mk p q).pts) : r ∈ u.pts := by
  obtain ⟨a, a0, a1, ax, ay⟩ := hp
  obtain ⟨b, b0, b1, bx, b_y⟩ := hq
  obtain ⟨c, c0, c1, cx, cy⟩ := hr
  simp only at cx cy
  refine ⟨a + c * (b - a), by nlinarith, by nlinarith, ?_, ?_⟩
  · rw [cx, ax, bx]; ring
  · rw [cy, ay, b_y]; ring

theorem sameLine_of_subset {s t u : Segment} (hs : s.Proper) (ht : t.Proper)
    (h1 : s.pts ⊆ u.pts) (h2 : t.pts ⊆ u.pts) : SameLine s t := by
  have e : ∀ p, cross t.lo t.hi p = 0 ↔ cross u.start u.stop p = 0 := by
    have hu : u.start ≠ u.stop := by
      intro e
      have : ∀ p ∈ u.pts, p = u.start := by
        rintro p ⟨r, -, -, hx, hy⟩
        rw [← e] at hx hy
        exact Point.ext' (by rw [hx]; ring) (by rw [hy]; ring)
      exact hs ((this _ (h1 s.start_mem)).trans (this _ (h1 s.stop_mem)).symm)
    exact line_eq hu (Segment.lo_lt_hi ht).ne (mem_cross (h2 t.lo_mem)) (mem_cross (h2 t.hi_mem))
  exact ⟨(e _).2 (mem_cross (h1 s.lo_mem)), (e _).2 (mem_cross (h1 s.hi_mem))⟩

end Clipping

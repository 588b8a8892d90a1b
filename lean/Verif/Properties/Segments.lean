import Verif.Lemmas.SegmentOps

/-!
# C01–C06: the four segment/segment functions

`Segment.Proper s` (start ≠ end) is the precondition of ground's segments.
-/

namespace Clipping

/-- A bent pair of segments used as witness below. -/
def exS : Segment := ⟨⟨0, 0⟩, ⟨4, 4⟩⟩
def exT : Segment := ⟨⟨6, 6⟩, ⟨2, 2⟩⟩
def exU : Segment := ⟨⟨0, 4⟩, ⟨4, 0⟩⟩

/-- **C01** `intersect_segments` returns exactly the common points. -/
theorem intersectSegments_exact (s t : Segment) (hs : s.Proper) (ht : t.Proper) :
    (intersectSegments s t).pts = s.pts ∩ t.pts := by
  have hm := relation_spec hs ht
  unfold intersectSegments
  cases h : segmentsRelation s t <;> rw [h] at hm <;> simp only
  · ext p; simp only [Geometry.pts, Set.mem_empty_iff_false, Set.mem_inter_iff, false_iff, not_and]
    exact hm p
  · obtain ⟨h1, h2, h3⟩ := intersection_spec hs ht (Or.inl h)
    ext p; simp only [Geometry.pts, List.mem_singleton, Set.mem_inter_iff, Set.mem_ofPred_eq]
    exact ⟨by rintro rfl; exact ⟨h1, h2⟩, fun ⟨a, b⟩ => h3 p a b⟩
  · obtain ⟨h1, h2, h3⟩ := intersection_spec hs ht (Or.inr h)
    ext p; simp only [Geometry.pts, List.mem_singleton, Set.mem_inter_iff, Set.mem_ofPred_eq]
    exact ⟨by rintro rfl; exact ⟨h1, h2⟩, fun ⟨a, b⟩ => h3 p a b⟩
  · obtain ⟨h1, h2⟩ := linear_facts hs ht (r := .overlap) hm trivial
    exact overlap_pts ht h1 h2.le
  · exact (Set.inter_eq_right.2 (component_sub hs (hm.1.symm hs ht) hm.2.1 hm.2.2.1)).symm
  · rw [pts_eq_of_lo_hi hm.1 hm.2, Set.inter_self, ← pts_eq_of_lo_hi hm.1 hm.2]; rfl
  · exact (Set.inter_eq_left.2 (component_sub ht hm.1 hm.2.1 hm.2.2.1)).symm

example : exS.Proper ∧ exT.Proper ∧ (intersectSegments exS exT).pts = (Segment.mk ⟨2, 2⟩ ⟨4, 4⟩).pts := by
  refine ⟨by decide +kernel, by decide +kernel, ?_⟩
  have : intersectSegments exS exT = .segment ⟨⟨2, 2⟩, ⟨4, 4⟩⟩ := by
    have h : segmentsRelation exS exT = .overlap := by decide +kernel
    unfold intersectSegments; rw [h]; simp only
    have : intersectSegmentsOverlap exS exT = ⟨⟨2, 2⟩, ⟨4, 4⟩⟩ := by decide +kernel
    rw [this]
  rw [this]; rfl

/-- **C02** `subtract_segments` returns the regularized difference: every point of the minuend off the
subtrahend, only points of the minuend, at most finitely many points of the subtrahend, and no
isolated points. -/
theorem subtractSegments_difference (s t : Segment) (hs : s.Proper) (ht : t.Proper) :
    IsDifference s.pts t.pts (subtractSegments s t).pts ∧ (subtractSegments s t).IsSegments := by
  rcases subtractSegments_pieces s t hs ht with ⟨R, e, h⟩ | ⟨e, h⟩ <;> rw [e]
  · rw [unpackSegments_pts]; exact ⟨h.difference, unpackSegments_isSegments R⟩
  · exact ⟨⟨Set.sdiff_subset, subset_rfl, h⟩, trivial⟩

example : exS.Proper ∧ exT.Proper ∧
    subtractSegments exS exT = .segment ⟨⟨0, 0⟩, ⟨2, 2⟩⟩ := by
  refine ⟨by decide +kernel, by decide +kernel, ?_⟩
  have h : segmentsRelation exS exT = .overlap := by decide +kernel
  unfold subtractSegments; rw [h]; simp only
  have : subtractSegmentsOverlap exS exT = ⟨⟨0, 0⟩, ⟨2, 2⟩⟩ := by decide +kernel
  rw [this]

/-- **C03** `symmetric_subtract_segments` returns the regularized symmetric difference. -/
theorem symmetricSubtractSegments_symmetricDifference (s t : Segment) (hs : s.Proper) (ht : t.Proper) :
    IsSymmetricDifference s.pts t.pts (symmetricSubtractSegments s t).pts ∧
      (symmetricSubtractSegments s t).IsSegments := by
  have hm := relation_spec hs ht
  unfold symmetricSubtractSegments
  cases h : segmentsRelation s t <;> rw [h] at hm <;> simp only
  · rw [pair_pts]
    exact ⟨union_isSym (Set.Finite.subset Set.finite_empty fun p hp => hm p hp.1 hp.2), trivial⟩
  · rw [uniteTouch_pts hs ht h]
    obtain ⟨p, -, -, hu, -⟩ := hm
    refine ⟨union_isSym (pts_finite_of_unique fun q hq => hu q hq.1 hq.2), ?_⟩
    rcases uniteTouch_cases hs ht with e | ⟨-, e⟩ <;> rw [e] <;> trivial
  · rw [uniteCross_pts hs ht h]
    obtain ⟨⟨p, -, -, hu, -⟩, -⟩ := hm
    exact ⟨union_isSym (pts_finite_of_unique fun q hq => hu q hq.1 hq.2), trivial⟩
  · obtain ⟨a, b, ha, hb, e | e⟩ := symOverlap hs ht h <;> rw [e] <;> refine ⟨?_, trivial⟩
    · have := ha.sym hb
      rwa [segsPts_cons, segsPts_cons, segsPts_nil, Set.union_empty, Set.union_empty, ← pair_pts] at this
    · have := ha.sym hb
      rwa [segsPts_cons, segsPts_cons, segsPts_nil, Set.union_empty, Set.union_empty, Set.union_comm,
        ← pair_pts] at this
  · rw [composite_eq_unpack, unpackSegments_pts]
    refine ⟨?_, unpackSegments_isSegments _⟩
    have := (component_pieces hs ht hm.1 hm.2.1 hm.2.2.1 hm.2.2.2).sym
      (pieceSpec_none (component_sub hs (hm.1.symm hs ht) hm.2.1 hm.2.2.1))
    rw [segsPts_nil] at this
    exact this.of_empty_right
  · refine ⟨?_, trivial⟩
    have e := pts_eq_of_lo_hi hm.1 hm.2
    exact ⟨by rw [e]; simp, Set.empty_subset _, by simp [Geometry.pts]⟩
  · rw [composite_eq_unpack, unpackSegments_pts]
    refine ⟨?_, unpackSegments_isSegments _⟩
    have := (pieceSpec_none (component_sub ht hm.1 hm.2.1 hm.2.2.1)).sym
      (component_pieces ht hs (hm.1.symm hs ht) hm.2.1 hm.2.2.1 (hm.2.2.2.imp Ne.symm Ne.symm))
    rw [segsPts_nil, Set.union_comm] at this
    exact this.of_empty_right

example : exS.Proper ∧ exT.Proper ∧
    symmetricSubtractSegments exS exT = .multisegment [⟨⟨0, 0⟩, ⟨2, 2⟩⟩, ⟨⟨4, 4⟩, ⟨6, 6⟩⟩] := by
  refine ⟨by decide +kernel, by decide +kernel, ?_⟩
  have h : segmentsRelation exS exT = .overlap := by decide +kernel
  unfold symmetricSubtractSegments symmetricSubtractSegmentsOverlap; rw [h]; simp only
  have : sorted4 exS.start exS.stop exT.start exT.stop = (⟨0, 0⟩, ⟨2, 2⟩, ⟨4, 4⟩, ⟨6, 6⟩) := by
    decide +kernel
  rw [this]

/-- **C04** `unite_segments` returns exactly the points of the operands. -/
theorem uniteSegments_exact (s t : Segment) (hs : s.Proper) (ht : t.Proper) :
    (uniteSegments s t).pts = s.pts ∪ t.pts := by
  have hm := relation_spec hs ht
  unfold uniteSegments
  cases h : segmentsRelation s t <;> rw [h] at hm <;> simp only
  · exact pair_pts s t
  · exact uniteTouch_pts hs ht h
  · exact uniteCross_pts hs ht h
  · obtain ⟨h1, h2⟩ := linear_facts hs ht (r := .overlap) hm trivial
    unfold uniteSegmentsOverlap; rw [sorted4_eq]
    exact hull_pts ht h1 h2.le
  · exact (Set.union_eq_self_of_subset_right
      (component_sub hs (hm.1.symm hs ht) hm.2.1 hm.2.2.1)).symm
  · rw [← pts_eq_of_lo_hi hm.1 hm.2, Set.union_self]; rfl
  · exact (Set.union_eq_self_of_subset_left (component_sub ht hm.1 hm.2.1 hm.2.2.1)).symm

example : exS.Proper ∧ exU.Proper ∧ segmentsRelation exS exU = .cross ∧
    segmentsIntersection exS exU = ⟨2, 2⟩ := by
  refine ⟨?_, ?_, ?_, ?_⟩ <;> decide +kernel

/-- **C05** results of the four functions are well-formed: no zero-length segment, at least two segments
in a multisegment, no two of them crossing or overlapping. -/
theorem segments_results_ok (s t : Segment) (hs : s.Proper) (ht : t.Proper) :
    (intersectSegments s t).LinearOk ∧ (subtractSegments s t).LinearOk ∧
    (symmetricSubtractSegments s t).LinearOk ∧ (uniteSegments s t).LinearOk := by
  have pair_ok : ∀ a b : Segment, a.Proper → b.Proper → ¬ Overlapping a b ∧ ¬ Crossing a b →
      (Geometry.multisegment [a, b]).LinearOk := by
    intro a b ha hb hab
    refine ⟨by simp, ?_, ?_⟩
    · intro r hr; simp at hr; rcases hr with rfl | rfl <;> assumption
    · simpa using hab
  have hm := relation_spec hs ht
  refine ⟨?_, ?_, ?_, ?_⟩
  · unfold intersectSegments
    cases h : segmentsRelation s t <;> rw [h] at hm <;> simp only [Geometry.LinearOk] <;>
      first | exact hs | exact ht | simp | skip
    obtain ⟨h1, h2⟩ := linear_facts hs ht (r := .overlap) hm trivial
    unfold intersectSegmentsOverlap; rw [sorted4_eq]
    simp only [min_eq_left h2.le, max_eq_right h2.le]
    exact h2.ne
  · rcases subtractSegments_pieces s t hs ht with ⟨R, e, h⟩ | ⟨e, h⟩ <;> rw [e]
    · exact unpackSegments_ok (pieces_ok h)
    · exact hs
  · unfold symmetricSubtractSegments
    cases h : segmentsRelation s t <;> rw [h] at hm <;> simp only
    · exact pair_ok s t hs ht (ok_of_disjoint hm)
    · exact uniteTouch_ok hs ht h
    · exact uniteCross_ok hs ht h
    · obtain ⟨a, b, ha, hb, e⟩ := symOverlap hs ht h
      have pa := ha.proper a (by simp)
      have pb := hb.proper b (by simp)
      have key : ∀ p, p ∈ a.pts → p ∉ b.pts := by
        intro p h1 h2
        have w1 := ha.within a (by simp) h1
        have w2 := hb.within b (by simp) h2
        have c1 := ha.common a (by simp) p h1 w2
        have c2 := hb.common b (by simp) p h2 w1
        rw [Segment.isEnd_iff] at c1 c2
        have ls := Segment.lo_lt_hi hs
        have lt := Segment.lo_lt_hi ht
        have z1 := Segment.lo_le_of_mem w1
        have z2 := Segment.le_hi_of_mem w1
        have z3 := Segment.lo_le_of_mem w2
        have z4 := Segment.le_hi_of_mem w2
        rcases hm.2 with ⟨g1, g2, g3⟩ | ⟨g1, g2, g3⟩ <;> rcases c1 with rfl | rfl <;>
          rcases c2 with c2 | c2
        · exact g1.ne c2.symm
        · exact g2.ne c2
        · rw [c2] at lt; exact absurd (lt.trans g1) (lt_irrefl _)
        · exact g3.ne c2.symm
        · exact g1.ne c2
        · rw [c2] at lt; exact absurd (lt.trans g3) (lt_irrefl _)
        · exact g2.ne c2.symm
        · exact g3.ne c2
      rcases e with e | e <;> rw [e]
      · exact pair_ok a b pa pb (ok_of_disjoint key)
      · exact pair_ok b a pb pa (ok_of_disjoint fun p h1 h2 => key p h2 h1)
    · rw [composite_eq_unpack]
      exact unpackSegments_ok (pieces_ok (component_pieces hs ht hm.1 hm.2.1 hm.2.2.1 hm.2.2.2))
    · trivial
    · rw [composite_eq_unpack]
      exact unpackSegments_ok (pieces_ok (component_pieces ht hs (hm.1.symm hs ht) hm.2.1 hm.2.2.1
        (hm.2.2.2.imp Ne.symm Ne.symm)))
  · unfold uniteSegments
    cases h : segmentsRelation s t <;> rw [h] at hm <;> simp only
    · exact pair_ok s t hs ht (ok_of_disjoint hm)
    · exact uniteTouch_ok hs ht h
    · exact uniteCross_ok hs ht h
    · unfold uniteSegmentsOverlap; rw [sorted4_eq]; exact hull_proper hs
    · exact hs
    · exact hs
    · exact ht

/-- **C06** (operands) swapping the operands of the symmetric functions keeps the point set. -/
theorem segments_results_comm (s t : Segment) (hs : s.Proper) (ht : t.Proper) :
    (intersectSegments s t).pts = (intersectSegments t s).pts ∧
    (uniteSegments s t).pts = (uniteSegments t s).pts ∧
    (symmetricSubtractSegments s t).pts = (symmetricSubtractSegments t s).pts := by
  refine ⟨?_, ?_, ?_⟩
  · rw [intersectSegments_exact s t hs ht, intersectSegments_exact t s ht hs, Set.inter_comm]
  · rw [uniteSegments_exact s t hs ht, uniteSegments_exact t s ht hs, Set.union_comm]
  · have hf := segmentsRelation_flip hs ht
    unfold symmetricSubtractSegments
    cases h : segmentsRelation s t <;> rw [h] at hf <;> rw [hf] <;> simp only [Relation.flip]
    · rw [pair_pts, pair_pts, Set.union_comm]
    · rw [uniteTouch_pts hs ht h, uniteTouch_pts ht hs hf, Set.union_comm]
    · rw [uniteCross_pts hs ht h, uniteCross_pts ht hs hf, Set.union_comm]
    · unfold symmetricSubtractSegmentsOverlap
      rw [sorted4_eq, sorted4_eq, min_comm s.lo, max_comm s.lo, min_comm s.hi, max_comm s.hi]

/-- **C06** (end points) reversing the end points of an operand keeps the point set. -/
theorem segments_results_reverse (s t : Segment) (hs : s.Proper) (ht : t.Proper) :
    ∀ s' ∈ [s, s.rev], ∀ t' ∈ [t, t.rev],
    (intersectSegments s' t').pts = (intersectSegments s t).pts ∧
    (uniteSegments s' t').pts = (uniteSegments s t).pts ∧
    (subtractSegments s' t').pts = (subtractSegments s t).pts ∧
    (symmetricSubtractSegments s' t').pts = (symmetricSubtractSegments s t).pts := by
  have key : ∀ s' t' : Segment, s'.lo = s.lo → s'.hi = s.hi → t'.lo = t.lo → t'.hi = t.hi →
      s'.Proper → t'.Proper →
      (intersectSegments s' t').pts = (intersectSegments s t).pts ∧
      (uniteSegments s' t').pts = (uniteSegments s t).pts ∧
      (subtractSegments s' t').pts = (subtractSegments s t).pts ∧
      (symmetricSubtractSegments s' t').pts = (symmetricSubtractSegments s t).pts := by
    intro s' t' a b c d hs' ht'
    have es := pts_eq_of_lo_hi a b
    have et := pts_eq_of_lo_hi c d
    have er : segmentsRelation s' t' = segmentsRelation s t := by
      unfold segmentsRelation; rw [a, b, c, d]
    have e4 : sorted4 s'.start s'.stop t'.start t'.stop = sorted4 s.start s.stop t.start t.stop := by
      rw [sorted4_eq, sorted4_eq, a, b, c, d]
    have e4' : sorted4 t'.start t'.stop s'.start s'.stop = sorted4 t.start t.stop s.start s.stop := by
      rw [sorted4_eq, sorted4_eq, a, b, c, d]
    have ec : subtractSegmentsComposite s' t' = subtractSegmentsComposite s t := by
      unfold subtractSegmentsComposite; rw [e4]; simp only [eq_lo_or_hi]; rw [c, d]
    have ec' : subtractSegmentsComposite t' s' = subtractSegmentsComposite t s := by
      unfold subtractSegmentsComposite; rw [e4']; simp only [eq_lo_or_hi]; rw [a, b]
    refine ⟨?_, ?_, ?_, ?_⟩
    · rw [intersectSegments_exact _ _ hs' ht', intersectSegments_exact _ _ hs ht, es, et]
    · rw [uniteSegments_exact _ _ hs' ht', uniteSegments_exact _ _ hs ht, es, et]
    · unfold subtractSegments
      cases h : segmentsRelation s t <;> rw [h] at er <;> rw [er] <;>
        simp only [Geometry.pts, es, ec]
      · unfold subtractSegmentsOverlap; rw [e4]; simp only [eq_lo_or_hi]; rw [a, b]
    · unfold symmetricSubtractSegments
      cases h : segmentsRelation s t <;> rw [h] at er <;> rw [er] <;>
        simp only [ec, ec']
      · rw [pair_pts, pair_pts, es, et]
      · rw [uniteTouch_pts hs ht h, uniteTouch_pts hs' ht' er, es, et]
      · rw [uniteCross_pts hs ht h, uniteCross_pts hs' ht' er, es, et]
      · unfold symmetricSubtractSegmentsOverlap; rw [e4]
  intro s' h1 t' h2
  simp only [List.mem_cons, List.not_mem_nil, or_false] at h1 h2
  rcases h1 with rfl | rfl <;> rcases h2 with rfl | rfl
  · exact ⟨rfl, rfl, rfl, rfl⟩
  · exact key _ _ rfl rfl t.rev_lo t.rev_hi hs (Segment.rev_proper ht)
  · exact key _ _ s.rev_lo s.rev_hi rfl rfl (Segment.rev_proper hs) ht
  · exact key _ _ s.rev_lo s.rev_hi t.rev_lo t.rev_hi (Segment.rev_proper hs) (Segment.rev_proper ht)

/-- **C33** `unite_segments` returns a single segment exactly when the union of the operands is a
segment (collinear touching operands are merged). -/
theorem uniteSegments_single_iff (s t : Segment) (hs : s.Proper) (ht : t.Proper) :
    (∃ u, uniteSegments s t = .segment u) ↔ ∃ u : Segment, s.pts ∪ t.pts = u.pts := by
  constructor
  · rintro ⟨u, h⟩
    refine ⟨u, ?_⟩
    rw [← uniteSegments_exact s t hs ht, h]; rfl
  · rintro ⟨u, h⟩
    have s1 : s.pts ⊆ u.pts := h ▸ Set.subset_union_left
    have s2 : t.pts ⊆ u.pts := h ▸ Set.subset_union_right
    have hl := sameLine_of_subset hs ht s1 s2
    have hm := relation_spec hs ht
    unfold uniteSegments
    cases hr : segmentsRelation s t <;> rw [hr] at hm <;> simp only
    · exfalso
      have step : ∀ a b : Segment, a.Proper → b.Proper → SameLine a b → a.pts ∪ b.pts = u.pts →
          ¬ a.hi < b.lo := by
        intro a b ha hb hab e hlt
        obtain ⟨p, h1, h2, h3⟩ := gap_point ha hb hab hlt
        have : p ∈ u.pts := pts_convex (e ▸ Or.inl a.hi_mem) (e ▸ Or.inr b.lo_mem) h1
        rw [← e] at this
        exact this.elim h2 h3
      have n1 := step s t hs ht hl h
      have n2 := step t s ht hs (hl.symm hs ht) (by rw [Set.union_comm]; exact h)
      push Not at n1 n2
      have hle : max s.lo t.lo ≤ min s.hi t.hi :=
        max_le (le_min s.lo_le_hi n2) (le_min n1 t.lo_le_hi)
      have e := overlap_pts ht hl hle
      have := (intersectSegmentsOverlap s t).start_mem
      rw [e] at this
      exact hm _ this.1 this.2
    · exact ⟨_, uniteTouch_merges hs ht hr hl⟩
    · exact (hm.2 hl).elim
    · exact ⟨_, rfl⟩
    · exact ⟨_, rfl⟩
    · exact ⟨_, rfl⟩
    · exact ⟨_, rfl⟩

example : exS.Proper ∧ (Segment.mk ⟨5, 5⟩ ⟨4, 4⟩).Proper ∧
    segmentsRelation exS ⟨⟨5, 5⟩, ⟨4, 4⟩⟩ = .touch := by
  refine ⟨?_, ?_, ?_⟩ <;> decide +kernel

end Clipping

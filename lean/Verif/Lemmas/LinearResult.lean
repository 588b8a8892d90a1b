import Verif.Lemmas.LinearSweep
import Verif.Properties.Bounding

/-!
# Results of the sweeping linear operations
-/

namespace Clipping

open Sweep

theorem join_left (a b : Box) : a.pts ⊆ (a.join b).pts := by
  rintro p ⟨h1, h2, h3, h4⟩
  simp only [Box.join, Box.pts]
  exact ⟨(min_le_left _ _).trans h1, h2.trans (le_max_left _ _), (min_le_left _ _).trans h3,
    h4.trans (le_max_left _ _)⟩

theorem join_right (a b : Box) : b.pts ⊆ (a.join b).pts := by
  rintro p ⟨h1, h2, h3, h4⟩
  simp only [Box.join, Box.pts]
  exact ⟨(min_le_right _ _).trans h1, h2.trans (le_max_right _ _), (min_le_right _ _).trans h3,
    h4.trans (le_max_right _ _)⟩

theorem segmentsBox_spec (s : Segment) (l : List Segment) : ∀ t ∈ s :: l, t.pts ⊆ (segmentsBox s l).pts := by
  have key : ∀ (l : List Segment) (b : Box), b.pts ⊆ (l.foldl (fun b t => b.join (segmentBox t)) b).pts ∧
      ∀ t ∈ l, t.pts ⊆ (l.foldl (fun b t => b.join (segmentBox t)) b).pts := by
    intro l
    induction l with
    | nil => intro b; simp
    | cons u l ih =>
      intro b
      obtain ⟨h1, h2⟩ := ih (b.join (segmentBox u))
      rw [List.foldl_cons]
      refine ⟨(join_left _ _).trans h1, ?_⟩
      intro t ht
      rcases List.mem_cons.1 ht with rfl | ht
      · exact ((segmentBox_pts t).trans (join_right _ _)).trans h1
      · exact h2 t ht
  obtain ⟨h1, h2⟩ := key l (segmentBox s)
  intro t ht
  unfold segmentsBox
  rcases List.mem_cons.1 ht with rfl | ht
  · exact (segmentBox_pts t).trans h1
  · exact h2 t ht

/-- The box of a list of segments contains them. -/
theorem boxOf_spec {l : List Segment} {b : Box} (h : boxOf l = .ok b) : segsPts l ⊆ b.pts ∧ b.Nonempty := by
  cases l with
  | nil => cases h
  | cons s l =>
    cases h
    have := segmentsBox_spec s l
    refine ⟨fun q ⟨t, ht, hq⟩ => this t ht hq, ?_⟩
    obtain ⟨h1, h2, h3, h4⟩ := this s (by simp) s.start_mem
    exact ⟨h1.trans h2, h3.trans h4⟩

/-- The coupled filter loses finitely many points only. -/
theorem coupled_finite {b : Box} {l : List Segment} (hb : b.Nonempty) (hl : ∀ s ∈ l, s.Proper)
    (hc : ∀ s ∈ l, NoCornerInside b s) :
    ((segsPts l \ segsPts (toCoupledSegments b l)) ∩ b.pts).Finite := by
  have : (segsPts l \ segsPts (toCoupledSegments b l)) ∩ b.pts ⊆
      ⋃ s ∈ {s | s ∈ l ∧ coupledWithSegment b s = false}, s.pts ∩ b.pts := by
    rintro q ⟨⟨⟨s, hs, hq⟩, hn⟩, hb⟩
    rw [Set.mem_iUnion₂]
    refine ⟨s, ⟨hs, ?_⟩, hq, hb⟩
    by_contra hc
    exact hn ⟨s, by unfold toCoupledSegments; rw [List.mem_filter]; exact ⟨hs, by simpa using hc⟩, hq⟩
  refine Set.Finite.subset (Set.Finite.biUnion ?_ ?_) this
  · exact (List.finite_toSet l).subset fun s hs => hs.1
  · rintro s ⟨hs, hf⟩
    have key := coupledWithSegment_partial b s hb (hl s hs) (by
      intro v hv hvs
      refine hc s hs v ?_ ?_ hvs
      · simp only [toVertices, List.mem_cons, List.not_mem_nil, or_false] at hv
        rcases hv with rfl | rfl | rfl | rfl <;> simp
      · simp only [toVertices, List.mem_cons, List.not_mem_nil, or_false] at hv
        rcases hv with rfl | rfl | rfl | rfl <;> simp) hf
    exact Set.Subsingleton.finite fun p hp q hq => key p q hp.2 hq.2 hp.1 hq.1

theorem coupled_sub (b : Box) (l : List Segment) : (toCoupledSegments b l).Sublist l := List.filter_sublist

theorem segsPts_mono {l l' : List Segment} (h : ∀ s ∈ l, s ∈ l') : segsPts l ⊆ segsPts l' := by
  rintro q ⟨s, hs, hq⟩; exact ⟨s, h s hs, hq⟩

/-- Segments meeting only in end points of both neither cross nor overlap. -/
theorem endsOnly_not {s t : Segment} (hs : s.Proper) (ht : t.Proper)
    (h : ∀ q, q ∈ s.pts → q ∈ t.pts → s.IsEnd q ∧ t.IsEnd q) : ¬ Overlapping s t ∧ ¬ Crossing s t := by
  refine ⟨?_, ?_⟩
  · rintro ⟨p, q, hne, h1, h2, h3, h4⟩
    have ep := h p h1 h3
    have eq := h q h2 h4
    rw [Segment.isEnd_iff, Segment.isEnd_iff] at ep eq
    have ls := lo_lt_hi hs
    have lt := lo_lt_hi ht
    -- both are the two end points of both segments
    have key : s.lo = t.lo ∧ s.hi = t.hi := by
      have a1 : t.lo ≤ s.lo ∨ s.lo ≤ t.lo := le_total _ _
      rcases ep with ⟨e1 | e1, e2 | e2⟩ <;> rcases eq with ⟨e3 | e3, e4 | e4⟩ <;>
        first
        | (exfalso; apply hne; rw [e1, e3]; done)
        | (exfalso; apply hne; rw [e2, e4]; done)
        | exact ⟨e1.symm.trans e2, e3.symm.trans e4⟩
        | exact ⟨e3.symm.trans e4, e1.symm.trans e2⟩
        | (exfalso
           have b1 := e1.symm.trans e2
           have b2 := e3.symm.trans e4
           rw [← b1, ← b2] at lt
           exact absurd ls lt.asymm)
        | (exfalso
           have b1 := e1.symm.trans e2
           have b2 := e3.symm.trans e4
           rw [b1, b2] at ls
           exact absurd lt ls.asymm)
    have hpts := pts_eq_of_lo_hi key.1 key.2
    have inf := overlapping_of_finite_false hs
    apply inf
    refine Set.Finite.subset (Set.toFinite {s.lo, s.hi}) ?_
    intro r hr
    have := (h r hr (hpts ▸ hr)).1
    rw [Segment.isEnd_iff] at this
    simpa using this
  · rintro ⟨p, h1, h2, h3, -⟩
    exact h3 (h p h1 h2).1

/-- Result of a sweep: segments in ascending order which meet only in end points of both. -/
structure Swept (l : List Segment) : Prop where
  lt : ∀ t ∈ l, t.start < t.stop
  nodup : l.Nodup
  sorted : l.Pairwise endpointsLe
  ends : EndsOnly l

theorem Swept.valid {l : List Segment} (h : Swept l) : ValidSegments l := by
  have pr : ∀ s ∈ l, s.Proper := fun s hs => (h.lt s hs).ne
  refine ⟨pr, ?_⟩
  refine h.ends.imp_of_mem ?_
  intro s t hs ht g
  exact endsOnly_not (pr s hs) (pr t ht) g

theorem Sweep.Final.swept {h : Heap Unit} {F : List ℕ} {stop : Point → Bool} {l : List (Segment × Bool)}
    (f : Final h F stop l) (keep : List Bool → Bool) : Swept (selectSegments keep h F) := by
  obtain ⟨a, b, c, d⟩ := f.select_ok keep
  exact ⟨a, b, c, d⟩

/-- Operand of a linear operation: at least one segment, no two of them overlap. -/
structure OperandOk (o : LinearOperand) : Prop where
  ne : o.segments ≠ []
  no : NoOverlap o.segments
  pts : o.value.pts = segsPts o.segments

theorem disjoint_boxes {a b : List Segment} {ba bb : Box} (ha : boxOf a = .ok ba) (hb : boxOf b = .ok bb)
    (h : disjointWith ba bb = true) : ∀ q, q ∈ segsPts a → q ∉ segsPts b := by
  obtain ⟨h1, n1⟩ := boxOf_spec ha
  obtain ⟨h2, n2⟩ := boxOf_spec hb
  have := (disjointWith_iff ba bb n1 n2).1.1 h
  intro q hq hq'
  exact this q (h1 hq) (h2 hq')

theorem isDifference_self {A B : Set Point} (h : (A ∩ B).Finite) : IsDifference A B A :=
  ⟨Set.sdiff_subset, subset_rfl, h⟩

section ops
variable (tb : TieBreak) {o₁ o₂ : LinearOperand} (k₁ : OperandOk o₁) (k₂ : OperandOk o₂)
include k₁ k₂

/-- `Difference.compute` -/
theorem linearDifference_result : ∃ g, linearDifference tb o₁ o₂ = .ok g ∧
    segsPts o₁.segments \ segsPts o₂.segments ⊆ g.pts ∧ g.pts ⊆ segsPts o₁.segments ∧
    ((∀ b, boxOf o₁.segments = .ok b → ∀ s ∈ o₂.segments, NoCornerInside b s) →
      (g.pts ∩ segsPts o₂.segments).Finite) ∧
    (g = o₁.value ∨ ∃ l, g = unpackSegments l ∧ Swept l) := by
  obtain ⟨b₁, hb₁⟩ := boxOf_ok k₁.ne
  obtain ⟨b₂, hb₂⟩ := boxOf_ok k₂.ne
  obtain ⟨i₁, n₁⟩ := boxOf_spec hb₁
  unfold linearDifference
  rw [hb₁, hb₂]
  simp only [bind, Except.bind, pure, Except.pure]
  by_cases hd : disjointWith b₁ b₂ = true
  · rw [if_pos hd]
    refine ⟨_, rfl, ?_, ?_, ?_, Or.inl rfl⟩
    · rw [k₁.pts]; exact Set.sdiff_subset
    · rw [k₁.pts]
    · intro _
      rw [k₁.pts]
      have := disjoint_boxes hb₁ hb₂ hd
      exact (Set.finite_empty).subset fun q hq => this q hq.1 hq.2
  rw [if_neg hd]
  have hfin : (∀ s ∈ o₂.segments, NoCornerInside b₁ s) →
      ((segsPts o₂.segments \ segsPts (toCoupledSegments b₁ o₂.segments)) ∩ b₁.pts).Finite := fun hc =>
    coupled_finite n₁ k₂.no.1 hc
  by_cases he : (toCoupledSegments b₁ o₂.segments).isEmpty = true
  · rw [if_pos he]
    refine ⟨_, rfl, ?_, ?_, ?_, Or.inl rfl⟩
    · rw [k₁.pts]; exact Set.sdiff_subset
    · rw [k₁.pts]
    · intro hc
      rw [k₁.pts]
      refine (hfin (hc b₁ rfl)).subset ?_
      rintro q ⟨h1, h2⟩
      refine ⟨⟨h2, ?_⟩, i₁ h1⟩
      rw [List.isEmpty_iff.1 he, segsPts_nil]; simp
  rw [if_neg he]
  obtain ⟨m, hm⟩ := maxXOf_ok k₁.ne
  rw [hm]
  obtain ⟨h, F, e, f⟩ := linearSweep_final tb (some m) k₁.no (k₂.no.sublist (coupled_sub b₁ o₂.segments))
  dsimp only
  rw [e]
  dsimp only
  have hall : ∀ i < h.count, h.first i = true → i ∈ F := by
    intro i hi hf
    rw [f.done i hi]
    have : h.stop i ∈ segsPts o₁.segments := f.mem_first.2 ⟨i, hi, hf, (h.segment i).stop_mem⟩
    simp only [stopAt, decide_eq_false_iff_not, not_lt]
    exact maxXOf_spec hm this
  have D := f.difference hall
  have sub : segsPts (toCoupledSegments b₁ o₂.segments) ⊆ segsPts o₂.segments :=
    segsPts_mono (coupled_sub _ _).subset
  refine ⟨_, rfl, ?_, ?_, ?_, Or.inr ⟨_, rfl, f.swept _⟩⟩
  · rw [unpackSegments_pts]
    exact fun q hq => D.covers ⟨hq.1, fun h => hq.2 (sub h)⟩
  · rw [unpackSegments_pts]; exact D.within
  · intro hc
    rw [unpackSegments_pts]
    refine (D.finite.union (hfin (hc b₁ rfl))).subset ?_
    rintro q ⟨h1, h2⟩
    by_cases hq : q ∈ segsPts (toCoupledSegments b₁ o₂.segments)
    · exact Or.inl ⟨h1, hq⟩
    · exact Or.inr ⟨⟨h2, hq⟩, i₁ (D.within h1)⟩

/-- `Intersection.compute` -/
theorem linearIntersection_result : ∃ g, linearIntersection tb o₁ o₂ = .ok g ∧
    g.pts ⊆ segsPts o₁.segments ∩ segsPts o₂.segments ∧
    ((∀ b, boxOf o₁.segments = .ok b → ∀ s ∈ o₂.segments, NoCornerInside b s) →
     (∀ b, boxOf o₂.segments = .ok b → ∀ s ∈ o₁.segments, NoCornerInside b s) →
      ((segsPts o₁.segments ∩ segsPts o₂.segments) \ g.pts).Finite) ∧
    ∃ l, g = unpackSegments l ∧ Swept l := by
  have swept_nil : Swept [] := ⟨by simp, List.nodup_nil, List.Pairwise.nil, List.Pairwise.nil⟩
  obtain ⟨b₁, hb₁⟩ := boxOf_ok k₁.ne
  obtain ⟨b₂, hb₂⟩ := boxOf_ok k₂.ne
  obtain ⟨i₁, n₁⟩ := boxOf_spec hb₁
  obtain ⟨i₂, n₂⟩ := boxOf_spec hb₂
  unfold linearIntersection
  rw [hb₁, hb₂]
  simp only [bind, Except.bind, pure, Except.pure]
  by_cases hd : disjointWith b₁ b₂ = true
  · rw [if_pos hd]
    refine ⟨_, rfl, by simp [Geometry.pts], ?_, [], rfl, swept_nil⟩
    intro _ _
    have := disjoint_boxes hb₁ hb₂ hd
    exact (Set.finite_empty).subset fun q hq => this q hq.1.1 hq.1.2
  rw [if_neg hd]
  have hfin₂ : (∀ s ∈ o₂.segments, NoCornerInside b₁ s) →
      ((segsPts o₂.segments \ segsPts (toCoupledSegments b₁ o₂.segments)) ∩ b₁.pts).Finite := fun hc =>
    coupled_finite n₁ k₂.no.1 hc
  have hfin₁ : (∀ s ∈ o₁.segments, NoCornerInside b₂ s) →
      ((segsPts o₁.segments \ segsPts (toCoupledSegments b₂ o₁.segments)) ∩ b₂.pts).Finite := fun hc =>
    coupled_finite n₂ k₁.no.1 hc
  by_cases he₁ : (toCoupledSegments b₂ o₁.segments).isEmpty = true
  · rw [if_pos he₁]
    refine ⟨_, rfl, by simp [Geometry.pts], ?_, [], rfl, swept_nil⟩
    intro _ hc
    refine (hfin₁ (hc b₂ rfl)).subset ?_
    rintro q ⟨⟨h1, h2⟩, -⟩
    refine ⟨⟨h1, ?_⟩, i₂ h2⟩
    rw [List.isEmpty_iff.1 he₁, segsPts_nil]; simp
  rw [if_neg he₁]
  by_cases he₂ : (toCoupledSegments b₁ o₂.segments).isEmpty = true
  · rw [if_pos he₂]
    refine ⟨_, rfl, by simp [Geometry.pts], ?_, [], rfl, swept_nil⟩
    intro hc _
    refine (hfin₂ (hc b₁ rfl)).subset ?_
    rintro q ⟨⟨h1, h2⟩, -⟩
    refine ⟨⟨h2, ?_⟩, i₁ h1⟩
    rw [List.isEmpty_iff.1 he₂, segsPts_nil]; simp
  rw [if_neg he₂]
  obtain ⟨m₁, hm₁⟩ := maxXOf_ok (l := toCoupledSegments b₂ o₁.segments) (by
    intro h; exact he₁ (by rw [h]; rfl))
  obtain ⟨m₂, hm₂⟩ := maxXOf_ok (l := toCoupledSegments b₁ o₂.segments) (by
    intro h; exact he₂ (by rw [h]; rfl))
  rw [hm₁, hm₂]
  obtain ⟨h, F, e, f⟩ := linearSweep_final tb (some (min m₁ m₂))
    (k₁.no.sublist (coupled_sub b₂ o₁.segments)) (k₂.no.sublist (coupled_sub b₁ o₂.segments))
  dsimp only
  rw [e]
  dsimp only
  have hall : ∀ i < h.count, ∀ j < h.count, h.first i = true → h.first j = false → i ∈ F ∨ j ∈ F := by
    intro i hi j hj hfi hfj
    rw [f.done i hi, f.done j hj]
    have g1 : h.stop i ∈ segsPts (toCoupledSegments b₂ o₁.segments) :=
      f.mem_first.2 ⟨i, hi, hfi, (h.segment i).stop_mem⟩
    have g2 : h.stop j ∈ segsPts (toCoupledSegments b₁ o₂.segments) :=
      f.mem_second.2 ⟨j, hj, hfj, (h.segment j).stop_mem⟩
    have g1 := maxXOf_spec hm₁ g1
    have g2 := maxXOf_spec hm₂ g2
    simp only [stopAt, decide_eq_false_iff_not, not_lt]
    rcases min_choice m₁ m₂ with e | e <;> rw [e]
    · exact Or.inl g1
    · exact Or.inr g2
  have D := f.intersection hall
  have sub₁ : segsPts (toCoupledSegments b₂ o₁.segments) ⊆ segsPts o₁.segments :=
    segsPts_mono (coupled_sub _ _).subset
  have sub₂ : segsPts (toCoupledSegments b₁ o₂.segments) ⊆ segsPts o₂.segments :=
    segsPts_mono (coupled_sub _ _).subset
  refine ⟨_, rfl, ?_, ?_, _, rfl, f.swept _⟩
  · rw [unpackSegments_pts]
    exact fun q hq => ⟨sub₁ (D.within hq).1, sub₂ (D.within hq).2⟩
  · intro hc₁ hc₂
    rw [unpackSegments_pts]
    refine ((D.finite.union (hfin₁ (hc₂ b₂ rfl))).union (hfin₂ (hc₁ b₁ rfl))).subset ?_
    rintro q ⟨⟨h1, h2⟩, h3⟩
    by_cases g1 : q ∈ segsPts (toCoupledSegments b₂ o₁.segments)
    · by_cases g2 : q ∈ segsPts (toCoupledSegments b₁ o₂.segments)
      · exact Or.inl (Or.inl ⟨⟨g1, g2⟩, h3⟩)
      · exact Or.inr ⟨⟨h2, g2⟩, i₁ h1⟩
    · exact Or.inl (Or.inr ⟨⟨h1, g1⟩, i₂ h2⟩)

/-- Form of the union and the symmetric difference when the boxes are disjoint -/
structure Juxtaposed (a b l : List Segment) : Prop where
  disjoint : ∀ q, q ∈ segsPts a → q ∉ segsPts b
  perm : l.Perm (a ++ b)
  sorted : l.Pairwise endpointsLe

omit k₁ k₂ in
theorem Juxtaposed.pts {a b l : List Segment} (h : Juxtaposed a b l) : segsPts l = segsPts a ∪ segsPts b := by
  rw [← segsPts_append]
  exact subset_antisymm (segsPts_mono fun s hs => h.perm.mem_iff.1 hs)
    (segsPts_mono fun s hs => h.perm.mem_iff.2 hs)

omit k₁ k₂ in
theorem Juxtaposed.valid {a b l : List Segment} (h : Juxtaposed a b l) (ha : ValidSegments a)
    (hb : ValidSegments b) : ValidSegments l := by
  have sym : ∀ {s t : Segment}, (¬ Overlapping s t ∧ ¬ Crossing s t) → (¬ Overlapping t s ∧ ¬ Crossing t s) := by
    rintro s t ⟨h1, h2⟩
    refine ⟨?_, ?_⟩
    · rintro ⟨p, q, a, b, c, d, e⟩; exact h1 ⟨p, q, a, d, e, b, c⟩
    · rintro ⟨p, a, b, c, d⟩; exact h2 ⟨p, b, a, d, c⟩
  have : ValidSegments (a ++ b) := by
    refine ⟨?_, ?_⟩
    · intro s hs
      rcases List.mem_append.1 hs with hs | hs
      · exact ha.1 s hs
      · exact hb.1 s hs
    · rw [List.pairwise_append]
      refine ⟨ha.2, hb.2, ?_⟩
      intro s hs t ht
      have hd : ∀ q, q ∈ s.pts → q ∉ t.pts := fun q h1 h2 => h.disjoint q ⟨s, hs, h1⟩ ⟨t, ht, h2⟩
      refine ⟨?_, ?_⟩
      · rintro ⟨p, q, -, h1, -, h3, -⟩; exact hd p h1 h3
      · rintro ⟨p, h1, h2, -⟩; exact hd p h1 h2
  refine ⟨fun s hs => this.1 s (h.perm.mem_iff.1 hs), ?_⟩
  exact (h.perm.pairwise_iff (fun {_ _} g => sym g)).2 this.2

/-- `SymmetricDifference.compute` -/
theorem linearSymmetricDifference_result : ∃ g, linearSymmetricDifference tb o₁ o₂ = .ok g ∧
    IsSymmetricDifference (segsPts o₁.segments) (segsPts o₂.segments) g.pts ∧
    ((∃ l, g = .multisegment l ∧ Juxtaposed o₁.segments o₂.segments l) ∨
      ∃ l, g = unpackSegments l ∧ Swept l) := by
  obtain ⟨b₁, hb₁⟩ := boxOf_ok k₁.ne
  obtain ⟨b₂, hb₂⟩ := boxOf_ok k₂.ne
  unfold linearSymmetricDifference
  rw [hb₁, hb₂]
  simp only [bind, Except.bind, pure, Except.pure]
  by_cases hd : disjointWith b₁ b₂ = true
  · rw [if_pos hd]
    have J : Juxtaposed o₁.segments o₂.segments (sortEndpoints (o₁.segments ++ o₂.segments)) :=
      ⟨disjoint_boxes hb₁ hb₂ hd, sortEndpoints_perm _, sortEndpoints_sorted _⟩
    refine ⟨_, rfl, ?_, Or.inl ⟨_, rfl, J⟩⟩
    have e : (Geometry.multisegment (sortEndpoints (o₁.segments ++ o₂.segments))).pts =
      segsPts o₁.segments ∪ segsPts o₂.segments := J.pts
    rw [e]
    refine ⟨?_, subset_rfl, ?_⟩
    · rintro q (h | h)
      · exact Or.inl h.1
      · exact Or.inr h.1
    · exact (Set.finite_empty).subset fun q hq => J.disjoint q hq.2.1 hq.2.2
  rw [if_neg hd]
  obtain ⟨h, F, e, f⟩ := linearSweep_final tb none k₁.no k₂.no
  rw [e]
  dsimp only
  have D := f.symmetricDifference (fun i hi => (f.done i hi).2 rfl)
  refine ⟨_, rfl, ?_, Or.inr ⟨_, rfl, f.swept _⟩⟩
  rw [unpackSegments_pts]
  exact D

/-- `Union.compute` -/
theorem linearUnion_result : ∃ l, linearUnion tb o₁ o₂ = .ok (.multisegment l) ∧
    segsPts l = segsPts o₁.segments ∪ segsPts o₂.segments ∧
    (Juxtaposed o₁.segments o₂.segments l ∨ Swept l) ∧ (2 ≤ o₁.segments.length → 2 ≤ l.length) := by
  obtain ⟨b₁, hb₁⟩ := boxOf_ok k₁.ne
  obtain ⟨b₂, hb₂⟩ := boxOf_ok k₂.ne
  unfold linearUnion
  rw [hb₁, hb₂]
  simp only [bind, Except.bind, pure, Except.pure]
  by_cases hd : disjointWith b₁ b₂ = true
  · rw [if_pos hd]
    have J : Juxtaposed o₁.segments o₂.segments (sortEndpoints (o₁.segments ++ o₂.segments)) :=
      ⟨disjoint_boxes hb₁ hb₂ hd, sortEndpoints_perm _, sortEndpoints_sorted _⟩
    refine ⟨_, rfl, J.pts, Or.inl J, fun h => ?_⟩
    rw [J.perm.length_eq, List.length_append]
    omega
  rw [if_neg hd]
  obtain ⟨h, F, e, f⟩ := linearSweep_final tb none k₁.no k₂.no
  rw [e]
  dsimp only
  have hall : ∀ i < h.count, i ∈ F := fun i hi => (f.done i hi).2 rfl
  refine ⟨_, rfl, f.union hall, Or.inr (f.swept _), fun h2 => ?_⟩
  have len := f.length
  have hlen : 2 ≤ (marked o₁.segments o₂.segments).length := by simp [marked]; omega
  have hf : ∀ k < 2, h.first k = true := by
    intro k hk
    refine f.orig k (o₁.segments[k]'(by omega), true) ?_
    unfold marked
    rw [List.getElem?_append_left (by simp; omega)]
    simp [List.getElem?_eq_getElem (show k < o₁.segments.length by omega)]
  have hne : h.segment 0 ≠ h.segment 1 := fun he =>
    f.op 0 (by omega) 1 (by omega) (by omega) he ((hf 0 (by omega)).trans (hf 1 (by omega)).symm)
  have m : ∀ k < 2, h.segment k ∈ selectSegments (fun _ => true) h F := fun k hk =>
    f.mem_select.2 ⟨k, hall k (by omega), rfl, rfl⟩
  have m0 := m 0 (by omega)
  have m1 := m 1 (by omega)
  match hl : selectSegments (fun _ => true) h F with
  | [] => rw [hl] at m0; cases m0
  | [s] =>
    rw [hl, List.mem_singleton] at m0 m1
    exact absurd (m0.trans m1.symm) hne
  | _ :: _ :: _ => simp

end ops

end Clipping

import Verif.Lemmas.Arrangement
import Verif.Properties.Linear

/-!
# C26, C34, C35: results of the multisegment operations as edges of the arrangement, independence of the
queue and of the form of the operands, commutativity
-/

namespace Clipping

open Sweep

variable (tb tb' : TieBreak)

/-- Strictly ascending list of segments. -/
structure Ascending (l : List Segment) : Prop where
  nodup : l.Nodup
  sorted : l.Pairwise endpointsLe

theorem Ascending.unique {l l' : List Segment} (h : Ascending l) (h' : Ascending l')
    (e : ∀ t, t ∈ l ↔ t ∈ l') : l = l' := ascending_unique h.nodup h'.nodup h.sorted h'.sorted e

theorem ascending_nil : Ascending [] := ⟨List.nodup_nil, List.Pairwise.nil⟩

theorem ascending_select {h : Heap Unit} {F : List ℕ} {stop : Point → Bool} {l : List (Segment × Bool)}
    (f : Final h F stop l) (keep : List Bool → Bool) : Ascending (selectSegments keep h F) :=
  ⟨(f.swept keep).nodup, (f.swept keep).sorted⟩

/-- `subtract_multisegments`, branch by branch -/
theorem linearDifference_edges {a b : List Segment} {ba bb : Box} (ha : boxOf a = .ok ba) (hb : boxOf b = .ok bb)
    (na : NoOverlap a) (nb : NoOverlap b) :
    ((disjointWith ba bb = true ∨ toCoupledSegments ba b = []) ∧
      subtractMultisegments tb a b = .ok (.multisegment a)) ∨
    (disjointWith ba bb = false ∧ toCoupledSegments ba b ≠ [] ∧
      ∃ l, subtractMultisegments tb a b = .ok (unpackSegments l) ∧ Ascending l ∧
      ∀ e, e ∈ l ↔ IsEdge (a ++ toCoupledSegments ba b) e ∧ PartOf e a ∧ ¬ PartOf e (toCoupledSegments ba b)) := by
  unfold subtractMultisegments linearDifference multisegmentOperand
  dsimp only
  rw [ha, hb]
  simp only [bind, Except.bind, pure, Except.pure]
  by_cases hd : disjointWith ba bb = true
  · rw [if_pos hd]; exact Or.inl ⟨Or.inl hd, rfl⟩
  rw [if_neg hd]
  by_cases he : (toCoupledSegments ba b).isEmpty = true
  · rw [if_pos he]; exact Or.inl ⟨Or.inr (List.isEmpty_iff.1 he), rfl⟩
  rw [if_neg he]
  right
  refine ⟨by simpa using hd, fun h => he (by rw [h]; rfl), ?_⟩
  obtain ⟨m, hm⟩ := maxXOf_ok (l := a) (by rintro rfl; cases ha)
  have nb' := nb.sublist (coupled_sub ba b)
  rw [hm]
  obtain ⟨h, F, e, f⟩ := linearSweep_final tb (some m) na nb'
  dsimp only
  rw [e]
  refine ⟨_, rfl, ascending_select f _, f.difference_edges na nb' ?_⟩
  intro i hi hf
  rw [f.done i hi]
  have : h.stop i ∈ segsPts a := f.mem_first.2 ⟨i, hi, hf, (h.segment i).stop_mem⟩
  simp only [stopAt, decide_eq_false_iff_not, not_lt]
  exact maxXOf_spec hm this

/-- `intersect_multisegments`, branch by branch -/
theorem linearIntersection_edges {a b : List Segment} {ba bb : Box} (ha : boxOf a = .ok ba)
    (hb : boxOf b = .ok bb) (na : NoOverlap a) (nb : NoOverlap b) :
    ∃ l, intersectMultisegments tb a b = .ok (unpackSegments l) ∧ Ascending l ∧
      ∀ e, e ∈ l ↔ disjointWith ba bb = false ∧ toCoupledSegments bb a ≠ [] ∧ toCoupledSegments ba b ≠ [] ∧
        IsEdge (toCoupledSegments bb a ++ toCoupledSegments ba b) e ∧
        PartOf e (toCoupledSegments bb a) ∧ PartOf e (toCoupledSegments ba b) := by
  unfold intersectMultisegments linearIntersection multisegmentOperand
  dsimp only
  rw [ha, hb]
  simp only [bind, Except.bind, pure, Except.pure]
  by_cases hd : disjointWith ba bb = true
  · rw [if_pos hd]; exact ⟨[], rfl, ascending_nil, by simp [hd]⟩
  rw [if_neg hd]
  by_cases he₁ : (toCoupledSegments bb a).isEmpty = true
  · rw [if_pos he₁]; exact ⟨[], rfl, ascending_nil, by simp [List.isEmpty_iff.1 he₁]⟩
  rw [if_neg he₁]
  by_cases he₂ : (toCoupledSegments ba b).isEmpty = true
  · rw [if_pos he₂]; exact ⟨[], rfl, ascending_nil, by simp [List.isEmpty_iff.1 he₂]⟩
  rw [if_neg he₂]
  have e₁ : toCoupledSegments bb a ≠ [] := fun h => he₁ (by rw [h]; rfl)
  have e₂ : toCoupledSegments ba b ≠ [] := fun h => he₂ (by rw [h]; rfl)
  obtain ⟨m₁, hm₁⟩ := maxXOf_ok e₁
  obtain ⟨m₂, hm₂⟩ := maxXOf_ok e₂
  rw [hm₁, hm₂]
  have na' := na.sublist (coupled_sub bb a)
  have nb' := nb.sublist (coupled_sub ba b)
  obtain ⟨h, F, e, f⟩ := linearSweep_final tb (some (min m₁ m₂)) na' nb'
  dsimp only
  rw [e]
  refine ⟨_, rfl, ascending_select f _, fun t => ?_⟩
  rw [f.intersection_edges na' nb' ?_]
  · simp [hd, e₁, e₂]
  · intro i hi j hj hfi hfj
    rw [f.done i hi, f.done j hj]
    have g1 : h.stop i ∈ segsPts (toCoupledSegments bb a) :=
      f.mem_first.2 ⟨i, hi, hfi, (h.segment i).stop_mem⟩
    have g2 : h.stop j ∈ segsPts (toCoupledSegments ba b) :=
      f.mem_second.2 ⟨j, hj, hfj, (h.segment j).stop_mem⟩
    have g1 := maxXOf_spec hm₁ g1
    have g2 := maxXOf_spec hm₂ g2
    simp only [stopAt, decide_eq_false_iff_not, not_lt]
    rcases min_choice m₁ m₂ with e | e <;> rw [e]
    · exact Or.inl g1
    · exact Or.inr g2

/-- `symmetric_subtract_multisegments`, branch by branch -/
theorem linearSymmetricDifference_edges {a b : List Segment} {ba bb : Box} (ha : boxOf a = .ok ba)
    (hb : boxOf b = .ok bb) (na : NoOverlap a) (nb : NoOverlap b) :
    (disjointWith ba bb = true ∧
      symmetricSubtractMultisegments tb a b = .ok (.multisegment (sortEndpoints (a ++ b)))) ∨
    (disjointWith ba bb = false ∧ ∃ l, symmetricSubtractMultisegments tb a b = .ok (unpackSegments l) ∧
      Ascending l ∧ ∀ e, e ∈ l ↔ IsEdge (a ++ b) e ∧ ¬ (PartOf e a ∧ PartOf e b)) := by
  unfold symmetricSubtractMultisegments linearSymmetricDifference multisegmentOperand
  dsimp only
  rw [ha, hb]
  simp only [bind, Except.bind, pure, Except.pure]
  by_cases hd : disjointWith ba bb = true
  · rw [if_pos hd]; exact Or.inl ⟨hd, rfl⟩
  rw [if_neg hd]
  obtain ⟨h, F, e, f⟩ := linearSweep_final tb none na nb
  rw [e]
  exact Or.inr ⟨by simpa using hd, _, rfl, ascending_select f _,
    f.symmetricDifference_edges na nb fun i hi => (f.done i hi).2 rfl⟩

/-- `unite_multisegments`, branch by branch -/
theorem linearUnion_edges {a b : List Segment} {ba bb : Box} (ha : boxOf a = .ok ba)
    (hb : boxOf b = .ok bb) (na : NoOverlap a) (nb : NoOverlap b) :
    (disjointWith ba bb = true ∧
      uniteMultisegments tb a b = .ok (.multisegment (sortEndpoints (a ++ b)))) ∨
    (disjointWith ba bb = false ∧ ∃ l, uniteMultisegments tb a b = .ok (.multisegment l) ∧
      Ascending l ∧ ∀ e, e ∈ l ↔ IsEdge (a ++ b) e) := by
  unfold uniteMultisegments linearUnion multisegmentOperand
  dsimp only
  rw [ha, hb]
  simp only [bind, Except.bind, pure, Except.pure]
  by_cases hd : disjointWith ba bb = true
  · rw [if_pos hd]; exact Or.inl ⟨hd, rfl⟩
  rw [if_neg hd]
  obtain ⟨h, F, e, f⟩ := linearSweep_final tb none na nb
  rw [e]
  exact Or.inr ⟨by simpa using hd, _, rfl, ascending_select f _,
    f.union_edges na nb fun i hi => (f.done i hi).2 rfl⟩

/-- **C34** If the operands have a common point, the segments returned by `unite_multisegments` are
exactly the edges of the arrangement of all segments, each once and in ascending order. -/
theorem uniteMultisegments_edges {a b : List Segment} (na : NoOverlap a) (nb : NoOverlap b)
    (hc : (segsPts a ∩ segsPts b).Nonempty) : ∃ l, uniteMultisegments tb a b = .ok (.multisegment l) ∧
      Ascending l ∧ ∀ e, e ∈ l ↔ IsEdge (a ++ b) e := by
  obtain ⟨q, h1, h2⟩ := hc
  obtain ⟨ba, ha⟩ := boxOf_ok (l := a) (by rintro rfl; rw [segsPts_nil] at h1; exact h1)
  obtain ⟨bb, hb⟩ := boxOf_ok (l := b) (by rintro rfl; rw [segsPts_nil] at h2; exact h2)
  rcases linearUnion_edges tb ha hb na nb with ⟨hd, -⟩ | ⟨-, h⟩
  · exact absurd h2 (disjoint_boxes ha hb hd q h1)
  · exact h

/-- **C34** If the operands have a common point, the segments returned by
`symmetric_subtract_multisegments` are exactly the edges of the arrangement of all segments which are
not parts of both operands. -/
theorem symmetricSubtractMultisegments_edges {a b : List Segment} (na : NoOverlap a) (nb : NoOverlap b)
    (hc : (segsPts a ∩ segsPts b).Nonempty) : ∃ l, symmetricSubtractMultisegments tb a b = .ok (unpackSegments l) ∧
      Ascending l ∧ ∀ e, e ∈ l ↔ IsEdge (a ++ b) e ∧ ¬ (PartOf e a ∧ PartOf e b) := by
  obtain ⟨q, h1, h2⟩ := hc
  obtain ⟨ba, ha⟩ := boxOf_ok (l := a) (by rintro rfl; rw [segsPts_nil] at h1; exact h1)
  obtain ⟨bb, hb⟩ := boxOf_ok (l := b) (by rintro rfl; rw [segsPts_nil] at h2; exact h2)
  rcases linearSymmetricDifference_edges tb ha hb na nb with ⟨hd, -⟩ | ⟨-, h⟩
  · exact absurd h2 (disjoint_boxes ha hb hd q h1)
  · exact h

/-- **C34** The segments returned by `intersect_multisegments` are the edges of the arrangement of some
segments of the operands, which are parts of both; those returned by `subtract_multisegments` are edges of
the arrangement of the minuend and some segments of the subtrahend which are parts of the minuend only,
unless the minuend itself is returned. -/
theorem intersect_subtract_edges {a b : List Segment} (ha : a ≠ []) (hb : b ≠ []) (na : NoOverlap a)
    (nb : NoOverlap b) :
    (∃ l a' b', intersectMultisegments tb a b = .ok (unpackSegments l) ∧ Ascending l ∧ a'.Sublist a ∧
      b'.Sublist b ∧ ∀ e ∈ l, IsEdge (a' ++ b') e ∧ PartOf e a' ∧ PartOf e b') ∧
    (subtractMultisegments tb a b = .ok (.multisegment a) ∨
      ∃ l b', subtractMultisegments tb a b = .ok (unpackSegments l) ∧ Ascending l ∧
      b'.Sublist b ∧ ∀ e, e ∈ l ↔ IsEdge (a ++ b') e ∧ PartOf e a ∧ ¬ PartOf e b') := by
  obtain ⟨ba, ha⟩ := boxOf_ok ha
  obtain ⟨bb, hb⟩ := boxOf_ok hb
  refine ⟨?_, ?_⟩
  · obtain ⟨l, h, h1, h2⟩ := linearIntersection_edges tb ha hb na nb
    exact ⟨l, _, _, h, h1, coupled_sub bb a, coupled_sub ba b, fun e he => ((h2 e).1 he).2.2.2⟩
  · rcases linearDifference_edges tb ha hb na nb with ⟨-, h⟩ | ⟨-, -, l, h, h1, h2⟩
    · exact Or.inl h
    · exact Or.inr ⟨l, _, h, h1, coupled_sub ba b, h2⟩

example : NoOverlap exA ∧ NoOverlap exB ∧ (segsPts exA ∩ segsPts exB).Nonempty ∧ exA ≠ [] ∧ exB ≠ [] := by
  refine ⟨exA_valid.noOverlap, exB_valid.noOverlap, ⟨⟨2, 2⟩, ⟨_, ?_, (Segment.mk ⟨0, 4⟩ ⟨2, 2⟩).stop_mem⟩,
    ⟨_, ?_, (Segment.mk ⟨2, 2⟩ ⟨4, 2⟩).start_mem⟩⟩, by simp [exA], by simp [exB]⟩ <;> simp [exA, exB]

/-! ## Independence of the form of the operands -/

theorem SameSegments.refl (a : List Segment) : SameSegments a a :=
  ⟨fun s hs => ⟨s, hs, rfl, rfl⟩, fun s hs => ⟨s, hs, rfl, rfl⟩⟩

theorem eq_or_rev {s t : Segment} (h1 : s.lo = t.lo) (h2 : s.hi = t.hi) : s = t ∨ s = t.rev := by
  rcases Segment.lo_hi_cases s with ⟨a, b, -⟩ | ⟨a, b, -⟩ <;> rcases Segment.lo_hi_cases t with ⟨c, d, -⟩ | ⟨c, d, -⟩ <;>
    rw [a, c] at h1 <;> rw [b, d] at h2 <;> cases s <;> cases t <;>
    simp_all [Segment.rev]

theorem segmentBox_congr {s t : Segment} (h1 : s.lo = t.lo) (h2 : s.hi = t.hi) : segmentBox s = segmentBox t := by
  rcases eq_or_rev h1 h2 with rfl | rfl
  · rfl
  · exact segmentBox_rev t

theorem coupled_congr (b : Box) {s t : Segment} (h1 : s.lo = t.lo) (h2 : s.hi = t.hi) :
    coupledWithSegment b s = coupledWithSegment b t := by
  rcases eq_or_rev h1 h2 with rfl | rfl
  · rfl
  · simp only [coupledWithSegment, segmentBox_rev, segmentsRelation_rev_right]

/-- The box of a list of segments is the least one. -/
theorem segmentsBox_attained (s : Segment) (l : List Segment) :
    (∀ t ∈ s :: l, (segmentsBox s l).minX ≤ (segmentBox t).minX ∧ (segmentBox t).maxX ≤ (segmentsBox s l).maxX ∧
      (segmentsBox s l).minY ≤ (segmentBox t).minY ∧ (segmentBox t).maxY ≤ (segmentsBox s l).maxY) ∧
    (∃ t ∈ s :: l, (segmentsBox s l).minX = (segmentBox t).minX) ∧
    (∃ t ∈ s :: l, (segmentsBox s l).maxX = (segmentBox t).maxX) ∧
    (∃ t ∈ s :: l, (segmentsBox s l).minY = (segmentBox t).minY) ∧
    (∃ t ∈ s :: l, (segmentsBox s l).maxY = (segmentBox t).maxY) := by
  have key : ∀ (l : List Segment) (b : Box), let r := l.foldl (fun b t => b.join (segmentBox t)) b
      (r.minX ≤ b.minX ∧ b.maxX ≤ r.maxX ∧ r.minY ≤ b.minY ∧ b.maxY ≤ r.maxY) ∧
      (∀ t ∈ l, r.minX ≤ (segmentBox t).minX ∧ (segmentBox t).maxX ≤ r.maxX ∧
        r.minY ≤ (segmentBox t).minY ∧ (segmentBox t).maxY ≤ r.maxY) ∧
      (r.minX = b.minX ∨ ∃ t ∈ l, r.minX = (segmentBox t).minX) ∧
      (r.maxX = b.maxX ∨ ∃ t ∈ l, r.maxX = (segmentBox t).maxX) ∧
      (r.minY = b.minY ∨ ∃ t ∈ l, r.minY = (segmentBox t).minY) ∧
      (r.maxY = b.maxY ∨ ∃ t ∈ l, r.maxY = (segmentBox t).maxY) := by
    intro l
    induction l with
    | nil => intro b; simp
    | cons u l ih =>
      intro b
      obtain ⟨⟨h1, h2, h3, h4⟩, h5, h6, h7, h8, h9⟩ := ih (b.join (segmentBox u))
      simp only [List.foldl_cons, Box.join] at h1 h2 h3 h4 h5 h6 h7 h8 h9 ⊢
      rw [le_min_iff] at h1 h3
      rw [max_le_iff] at h2 h4
      refine ⟨⟨h1.1, h2.1, h3.1, h4.1⟩, ?_, ?_, ?_, ?_, ?_⟩
      · intro t ht
        rcases List.mem_cons.1 ht with rfl | ht
        · exact ⟨h1.2, h2.2, h3.2, h4.2⟩
        · exact h5 t ht
      · rcases h6 with h | ⟨t, ht, h⟩
        · rcases min_choice b.minX (segmentBox u).minX with e | e
          · exact Or.inl (h.trans e)
          · exact Or.inr ⟨u, by simp, h.trans e⟩
        · exact Or.inr ⟨t, by simp [ht], h⟩
      · rcases h7 with h | ⟨t, ht, h⟩
        · rcases max_choice b.maxX (segmentBox u).maxX with e | e
          · exact Or.inl (h.trans e)
          · exact Or.inr ⟨u, by simp, h.trans e⟩
        · exact Or.inr ⟨t, by simp [ht], h⟩
      · rcases h8 with h | ⟨t, ht, h⟩
        · rcases min_choice b.minY (segmentBox u).minY with e | e
          · exact Or.inl (h.trans e)
          · exact Or.inr ⟨u, by simp, h.trans e⟩
        · exact Or.inr ⟨t, by simp [ht], h⟩
      · rcases h9 with h | ⟨t, ht, h⟩
        · rcases max_choice b.maxY (segmentBox u).maxY with e | e
          · exact Or.inl (h.trans e)
          · exact Or.inr ⟨u, by simp, h.trans e⟩
        · exact Or.inr ⟨t, by simp [ht], h⟩
  obtain ⟨h1, h2, h3, h4, h5, h6⟩ := key l (segmentBox s)
  unfold segmentsBox
  refine ⟨?_, ?_, ?_, ?_, ?_⟩
  · intro t ht
    rcases List.mem_cons.1 ht with rfl | ht
    · exact h1
    · exact h2 t ht
  · rcases h3 with h | ⟨t, ht, h⟩
    · exact ⟨s, by simp, h⟩
    · exact ⟨t, by simp [ht], h⟩
  · rcases h4 with h | ⟨t, ht, h⟩
    · exact ⟨s, by simp, h⟩
    · exact ⟨t, by simp [ht], h⟩
  · rcases h5 with h | ⟨t, ht, h⟩
    · exact ⟨s, by simp, h⟩
    · exact ⟨t, by simp [ht], h⟩
  · rcases h6 with h | ⟨t, ht, h⟩
    · exact ⟨s, by simp, h⟩
    · exact ⟨t, by simp [ht], h⟩

theorem SameSegments.boxOf {a b : List Segment} (h : SameSegments a b) : boxOf a = boxOf b := by
  match ha : a, hb : b with
  | [], [] => rfl
  | [], t :: b => cases (h.nil_iff.1 rfl)
  | s :: a, [] => cases (h.nil_iff.2 rfl)
  | s :: a, t :: b =>
    simp only [Clipping.boxOf, Except.ok.injEq]
    have key : ∀ (s t : Segment) (a b : List Segment), SameSegments (s :: a) (t :: b) →
        (segmentsBox s a).minX ≤ (segmentsBox t b).minX ∧ (segmentsBox t b).maxX ≤ (segmentsBox s a).maxX ∧
        (segmentsBox s a).minY ≤ (segmentsBox t b).minY ∧ (segmentsBox t b).maxY ≤ (segmentsBox s a).maxY := by
      intro s t a b h
      obtain ⟨h1, -⟩ := segmentsBox_attained s a
      obtain ⟨-, ⟨t1, m1, e1⟩, ⟨t2, m2, e2⟩, ⟨t3, m3, e3⟩, ⟨t4, m4, e4⟩⟩ := segmentsBox_attained t b
      rw [e1, e2, e3, e4]
      obtain ⟨s1, n1, a1, b1⟩ := h.2 t1 m1
      obtain ⟨s2, n2, a2, b2⟩ := h.2 t2 m2
      obtain ⟨s3, n3, a3, b3⟩ := h.2 t3 m3
      obtain ⟨s4, n4, a4, b4⟩ := h.2 t4 m4
      rw [← segmentBox_congr a1 b1, ← segmentBox_congr a2 b2, ← segmentBox_congr a3 b3, ← segmentBox_congr a4 b4]
      exact ⟨(h1 s1 n1).1, (h1 s2 n2).2.1, (h1 s3 n3).2.2.1, (h1 s4 n4).2.2.2⟩
    have k1 := key s t a b h
    have k2 := key t s b a h.symm
    cases hx : segmentsBox s a
    cases hy : segmentsBox t b
    rw [hx, hy] at k1 k2
    simp only at k1 k2
    congr 1
    · exact le_antisymm k1.1 k2.1
    · exact le_antisymm k2.2.1 k1.2.1
    · exact le_antisymm k1.2.2.1 k2.2.2.1
    · exact le_antisymm k2.2.2.2 k1.2.2.2

theorem sortEndpoints_pts (l : List Segment) : (Geometry.multisegment (sortEndpoints l)).pts = segsPts l :=
  subset_antisymm (segsPts_mono fun s hs => (sortEndpoints_perm l).mem_iff.1 hs)
    (segsPts_mono fun s hs => (sortEndpoints_perm l).mem_iff.2 hs)

/-- **C26** The points returned by the operations on two multisegments do not depend on how the priority
queue breaks ties, nor on the order and the directions of the segments of the operands. -/
theorem multisegment_operations_invariant {a b a' b' : List Segment} (ha : a ≠ []) (hb : b ≠ [])
    (na : NoOverlap a) (nb : NoOverlap b) (na' : NoOverlap a') (nb' : NoOverlap b') (sa : SameSegments a a')
    (sb : SameSegments b b') :
    (∃ g g', completeIntersectMultisegments tb a b = .ok g ∧ completeIntersectMultisegments tb' a' b' = .ok g' ∧
      g.pts = g'.pts) ∧
    (∃ g, intersectMultisegments tb a b = .ok g ∧ intersectMultisegments tb' a' b' = .ok g) ∧
    (∃ g g', subtractMultisegments tb a b = .ok g ∧ subtractMultisegments tb' a' b' = .ok g' ∧
      g.pts = g'.pts) ∧
    (∃ g g', symmetricSubtractMultisegments tb a b = .ok g ∧ symmetricSubtractMultisegments tb' a' b' = .ok g' ∧
      g.pts = g'.pts) ∧
    (∃ g g', uniteMultisegments tb a b = .ok g ∧ uniteMultisegments tb' a' b' = .ok g' ∧
      g.pts = g'.pts) := by
  have ha' : a' ≠ [] := fun h => ha (sa.nil_iff.2 h)
  have hb' : b' ≠ [] := fun h => hb (sb.nil_iff.2 h)
  obtain ⟨ba, ea⟩ := boxOf_ok ha
  obtain ⟨bb, eb⟩ := boxOf_ok hb
  have ea' := sa.boxOf ▸ ea
  have eb' := sb.boxOf ▸ eb
  have sa' : SameSegments (toCoupledSegments bb a) (toCoupledSegments bb a') :=
    sa.filter fun _ _ h1 h2 => coupled_congr bb h1 h2
  have sb' : SameSegments (toCoupledSegments ba b) (toCoupledSegments ba b') :=
    sb.filter fun _ _ h1 h2 => coupled_congr ba h1 h2
  refine ⟨?_, ?_, ?_, ?_, ?_⟩
  · obtain ⟨ps, l, h, h1, -⟩ := completeIntersectMultisegments_intersection tb ha hb na nb
    obtain ⟨ps', l', h', h1', -⟩ := completeIntersectMultisegments_intersection tb' ha' hb' na' nb'
    exact ⟨_, _, h, h', by rw [h1, h1', sa.pts, sb.pts]⟩
  · obtain ⟨l, h, h1, h2⟩ := linearIntersection_edges tb ea eb na nb
    obtain ⟨l', h', h1', h2'⟩ := linearIntersection_edges tb' ea' eb' na' nb'
    have : l = l' := by
      refine h1.unique h1' fun e => ?_
      rw [h2 e, h2' e, (sa'.append sb').isEdge, sa'.partOf, sb'.partOf, ne_eq, ne_eq, ne_eq, ne_eq, sa'.nil_iff,
        sb'.nil_iff]
    exact ⟨_, h, this ▸ h'⟩
  · rcases linearDifference_edges tb ea eb na nb with ⟨c, h⟩ | ⟨c1, c2, l, h, h1, h2⟩
    · rcases linearDifference_edges tb' ea' eb' na' nb' with ⟨c', h'⟩ | ⟨c1', c2', l', h', h1', h2'⟩
      · exact ⟨_, _, h, h', sa.pts⟩
      · exfalso
        rcases c with c | c
        · rw [c] at c1'; cases c1'
        · exact c2' (sb'.nil_iff.1 c)
    · rcases linearDifference_edges tb' ea' eb' na' nb' with ⟨c', h'⟩ | ⟨c1', c2', l', h', h1', h2'⟩
      · exfalso
        rcases c' with c' | c'
        · rw [c'] at c1; cases c1
        · exact c2 (sb'.nil_iff.2 c')
      · have : l = l' := by
          refine h1.unique h1' fun e => ?_
          rw [h2 e, h2' e, (sa.append sb').isEdge, sa.partOf, sb'.partOf]
        exact ⟨_, _, h, h', by rw [this]⟩
  · rcases linearSymmetricDifference_edges tb ea eb na nb with ⟨c, h⟩ | ⟨c, l, h, h1, h2⟩
    · rcases linearSymmetricDifference_edges tb' ea' eb' na' nb' with ⟨c', h'⟩ | ⟨c', -⟩
      · exact ⟨_, _, h, h', by rw [sortEndpoints_pts, sortEndpoints_pts, (sa.append sb).pts]⟩
      · rw [c] at c'; cases c'
    · rcases linearSymmetricDifference_edges tb' ea' eb' na' nb' with ⟨c', h'⟩ | ⟨c', l', h', h1', h2'⟩
      · rw [c] at c'; cases c'
      · have : l = l' := by
          refine h1.unique h1' fun e => ?_
          rw [h2 e, h2' e, (sa.append sb).isEdge, sa.partOf, sb.partOf]
        exact ⟨_, _, h, h', by rw [this]⟩
  · obtain ⟨g, h, h1⟩ := uniteMultisegments_union tb ha hb na nb
    obtain ⟨g', h', h1'⟩ := uniteMultisegments_union tb' ha' hb' na' nb'
    exact ⟨_, _, h, h', by rw [h1, h1', sa.pts, sb.pts]⟩

/-- `exA` in another order and with other directions. -/
def exA' : List Segment := [⟨⟨2, 2⟩, ⟨0, 4⟩⟩, ⟨⟨4, 0⟩, ⟨0, 0⟩⟩, ⟨⟨4, -1⟩, ⟨4, 4⟩⟩]

example : exA ≠ [] ∧ exB ≠ [] ∧ NoOverlap exA ∧ NoOverlap exB ∧ NoOverlap exA' ∧ SameSegments exA exA' ∧
    exA ≠ exA' := by
  refine ⟨by simp [exA], by simp [exB], exA_valid.noOverlap, exB_valid.noOverlap, ValidSegments.noOverlap ?_, ?_, ?_⟩
  · refine noOverlap_of_relations ?_ ?_ ?_ <;> decide +kernel
  · constructor <;> decide +kernel
  · decide +kernel

theorem disjointWith_comm (a b : Box) : disjointWith a b = disjointWith b a := by
  rw [Bool.eq_iff_iff]
  simp only [disjointWith, Bool.or_eq_true, decide_eq_true_eq]
  tauto

theorem sortEndpoints_comm (a b : List Segment) : sortEndpoints (a ++ b) = sortEndpoints (b ++ a) := by
  refine List.Perm.eq_of_pairwise ?_ (sortEndpoints_sorted _) (sortEndpoints_sorted _) ?_
  · rintro ⟨a, b⟩ ⟨c, d⟩ - - h1 h2
    simp only [endpointsLe] at h1 h2
    rcases h1 with h1 | ⟨rfl, h1⟩
    · rcases h2 with h2 | ⟨rfl, -⟩
      · exact absurd h1 h2.asymm
      · exact absurd h1 (lt_irrefl _)
    · rcases h2 with h2 | ⟨-, h2⟩
      · exact absurd h2 (lt_irrefl _)
      · rw [le_antisymm h1 h2]
  · exact (sortEndpoints_perm _).trans (List.perm_append_comm.trans (sortEndpoints_perm _).symm)

/-- **C35** Intersection, symmetric difference and union of multisegments do not depend on the order of
the operands (whatever the ties): the very same geometry is returned; the complete intersection has the
same points. -/
theorem multisegment_operations_commute {a b : List Segment} (ha : a ≠ []) (hb : b ≠ [])
    (na : NoOverlap a) (nb : NoOverlap b) :
    (∃ g, intersectMultisegments tb a b = .ok g ∧ intersectMultisegments tb' b a = .ok g) ∧
    (∃ g, symmetricSubtractMultisegments tb a b = .ok g ∧ symmetricSubtractMultisegments tb' b a = .ok g) ∧
    (∃ g, uniteMultisegments tb a b = .ok g ∧ uniteMultisegments tb' b a = .ok g) ∧
    (∃ g g', completeIntersectMultisegments tb a b = .ok g ∧ completeIntersectMultisegments tb' b a = .ok g' ∧
      g.pts = g'.pts) := by
  obtain ⟨ba, ea⟩ := boxOf_ok ha
  obtain ⟨bb, eb⟩ := boxOf_ok hb
  refine ⟨?_, ?_, ?_, ?_⟩
  · obtain ⟨l, h, h1, h2⟩ := linearIntersection_edges tb ea eb na nb
    obtain ⟨l', h', h1', h2'⟩ := linearIntersection_edges tb' eb ea nb na
    have : l = l' := by
      refine h1.unique h1' fun e => ?_
      rw [h2 e, h2' e, (SameSegments.comm _ _).isEdge, disjointWith_comm]
      tauto
    exact ⟨_, h, this ▸ h'⟩
  · rcases linearSymmetricDifference_edges tb ea eb na nb with ⟨c, h⟩ | ⟨c, l, h, h1, h2⟩
    · rcases linearSymmetricDifference_edges tb' eb ea nb na with ⟨c', h'⟩ | ⟨c', -⟩
      · exact ⟨_, h, by rw [sortEndpoints_comm]; exact h'⟩
      · rw [disjointWith_comm, c] at c'; cases c'
    · rcases linearSymmetricDifference_edges tb' eb ea nb na with ⟨c', h'⟩ | ⟨c', l', h', h1', h2'⟩
      · rw [disjointWith_comm, c] at c'; cases c'
      · have : l = l' := by
          refine h1.unique h1' fun e => ?_
          rw [h2 e, h2' e, (SameSegments.comm _ _).isEdge, and_comm (a := PartOf e a)]
        exact ⟨_, h, this ▸ h'⟩
  · rcases linearUnion_edges tb ea eb na nb with ⟨c, h⟩ | ⟨c, l, h, h1, h2⟩
    · rcases linearUnion_edges tb' eb ea nb na with ⟨c', h'⟩ | ⟨c', -⟩
      · exact ⟨_, h, by rw [sortEndpoints_comm]; exact h'⟩
      · rw [disjointWith_comm, c] at c'; cases c'
    · rcases linearUnion_edges tb' eb ea nb na with ⟨c', h'⟩ | ⟨c', l', h', h1', h2'⟩
      · rw [disjointWith_comm, c] at c'; cases c'
      · have : l = l' := by
          refine h1.unique h1' fun e => ?_
          rw [h2 e, h2' e, (SameSegments.comm _ _).isEdge]
        exact ⟨_, h, this ▸ h'⟩
  · obtain ⟨ps, l, h, h1, -⟩ := completeIntersectMultisegments_intersection tb ha hb na nb
    obtain ⟨ps', l', h', h1', -⟩ := completeIntersectMultisegments_intersection tb' hb ha nb na
    exact ⟨_, _, h, h', by rw [h1, h1', Set.inter_comm]⟩

example : exA ≠ [] ∧ exB ≠ [] ∧ NoOverlap exA ∧ NoOverlap exB :=
  ⟨by simp [exA], by simp [exB], exA_valid.noOverlap, exB_valid.noOverlap⟩

end Clipping

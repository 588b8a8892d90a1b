import Verif.Lemmas.TreeSweep.Linear
import Verif.Properties.TreeSweep

/-!
# C75: any operands

Nothing is assumed here but that segments have two different end points: segments of one operand may overlap.  Then the sweep line may be
out of order, and what is found in the tree depends on its shape.  Still every operation on multisegments either raises the documented
error, which it never does unless an operand has overlapping segments, or returns a result, and no result has anything which the operation
should not return.
-/

namespace Clipping

open TreeSweep

variable {α : Type} {a b : List Segment}

/-- **C75** Every sweep over any segments comes to an end: it raises the error of overlapping segments in one operand, or ends normally. -/
theorem sweep_ends_always (B : Balancing) (O : Ops α) (d : α) (tb : TieBreak) (stop : Point → Bool)
    (pa : ∀ s ∈ a, s.Proper) (pb : ∀ s ∈ b, s.Proper) :
    treeSweep B O d tb stop a b = .error .sameOperandOverlap ∨ ∃ r, treeSweep B O d tb stop a b = .ok r := by
  rcases treeSweep_good B O d tb stop pa pb with h | ⟨s, log, h, -⟩
  · exact Or.inl h
  · exact Or.inr ⟨_, h⟩

/-- **C75** The error is never raised unless two segments of one operand overlap. -/
theorem sweep_raises_only_overlaps (B : Balancing) (O : Ops α) (d : α) (tb : TieBreak) (stop : Point → Bool)
    (pa : ∀ s ∈ a, s.Proper) (pb : ∀ s ∈ b, s.Proper) (e : treeSweep B O d tb stop a b = .error .sameOperandOverlap) :
    ¬ a.Pairwise (fun s t => ¬ Overlapping s t) ∨ ¬ b.Pairwise (fun s t => ¬ Overlapping s t) := by
  by_contra h
  push Not at h
  obtain ⟨s, log, tree, -, h', -⟩ := sweep_any_tree B O d tb stop ⟨pa, h.1⟩ ⟨pb, h.2⟩
  rw [e] at h'
  cases h'

section
variable (B : Balancing) (tb : TieBreak) (ha : a ≠ []) (hb : b ≠ []) (pa : ∀ s ∈ a, s.Proper) (pb : ∀ s ∈ b, s.Proper)
include ha hb pa pb

/-- **C75** A union has only parts of segments of the operands. -/
theorem unite_any_multisegments :
    treeLinearUnion B tb (multisegmentOperand a) (multisegmentOperand b) = .error .sameOperandOverlap ∨
    ∃ l, treeLinearUnion B tb (multisegmentOperand a) (multisegmentOperand b) = .ok (.multisegment l) ∧
      (∀ c ∈ l, PartOf c (a ++ b)) ∧ (∀ c ∈ l, ∀ v, c.IsEnd v → Vertex (a ++ b) v) := by
  obtain ⟨b₁, hb₁⟩ := boxOf_ok ha
  obtain ⟨b₂, hb₂⟩ := boxOf_ok hb
  unfold treeLinearUnion multisegmentOperand treeLinearSweep
  dsimp only
  rw [hb₁, hb₂]
  simp only [bind, Except.bind, pure, Except.pure]
  by_cases hd : disjointWith b₁ b₂ = true
  · rw [if_pos hd]
    refine Or.inr ⟨_, rfl, ?_, ?_⟩ <;> intro c hc <;> rw [(sortEndpoints_perm _).mem_iff] at hc
    · exact ⟨c, hc, subset_rfl⟩
    · exact fun v hv => Or.inl ⟨c, hc, hv⟩
  rw [if_neg hd]
  rcases treeSweep_good B linearOps () tb (stopAt none) pa pb with h | ⟨s, log, h, P⟩
  · rw [h]; exact Or.inl rfl
  · rw [h]
    exact Or.inr ⟨_, rfl, fun c hc => (P.select hc).1, fun c hc => (P.select hc).2⟩

/-- **C75** A symmetric difference has only parts of segments of the operands. -/
theorem symmetric_subtract_any_multisegments :
    treeLinearSymmetricDifference B tb (multisegmentOperand a) (multisegmentOperand b) = .error .sameOperandOverlap ∨
    ∃ g, treeLinearSymmetricDifference B tb (multisegmentOperand a) (multisegmentOperand b) = .ok g ∧ g.IsSegments ∧
      g.pts ⊆ segsPts a ∪ segsPts b := by
  obtain ⟨b₁, hb₁⟩ := boxOf_ok ha
  obtain ⟨b₂, hb₂⟩ := boxOf_ok hb
  unfold treeLinearSymmetricDifference multisegmentOperand treeLinearSweep
  dsimp only
  rw [hb₁, hb₂, ← segsPts_append]
  simp only [bind, Except.bind, pure, Except.pure]
  by_cases hd : disjointWith b₁ b₂ = true
  · rw [if_pos hd]
    exact Or.inr ⟨_, rfl, trivial, segsPts_mono fun c hc => (sortEndpoints_perm _).mem_iff.1 hc⟩
  rw [if_neg hd]
  rcases treeSweep_good B linearOps () tb (stopAt none) pa pb with h | ⟨s, log, h, P⟩
  · rw [h]; exact Or.inl rfl
  · rw [h]
    refine Or.inr ⟨_, rfl, unpackSegments_isSegments _, ?_⟩
    rw [unpackSegments_pts]
    exact partOf_pts fun c hc => (P.select hc).1

/-- **C75** A difference has only points of the minuend. -/
theorem subtract_any_multisegments :
    treeLinearDifference B tb (multisegmentOperand a) (multisegmentOperand b) = .error .sameOperandOverlap ∨
    ∃ g, treeLinearDifference B tb (multisegmentOperand a) (multisegmentOperand b) = .ok g ∧ g.IsSegments ∧ g.pts ⊆ segsPts a := by
  obtain ⟨b₁, hb₁⟩ := boxOf_ok ha
  obtain ⟨b₂, hb₂⟩ := boxOf_ok hb
  obtain ⟨m, hm⟩ := maxXOf_ok ha
  unfold treeLinearDifference multisegmentOperand treeLinearSweep
  dsimp only
  rw [hb₁, hb₂]
  simp only [bind, Except.bind, pure, Except.pure]
  by_cases hd : disjointWith b₁ b₂ = true
  · rw [if_pos hd]
    exact Or.inr ⟨_, rfl, trivial, subset_rfl⟩
  rw [if_neg hd]
  by_cases he : (toCoupledSegments b₁ b).isEmpty = true
  · rw [if_pos he]
    exact Or.inr ⟨_, rfl, trivial, subset_rfl⟩
  rw [if_neg he, hm]
  dsimp only
  rcases treeSweep_good B linearOps () tb (stopAt (some m)) pa (b := toCoupledSegments b₁ b)
    (fun s hs => pb s (List.filter_sublist.subset hs)) with h | ⟨s, log, h, P⟩
  · rw [h]; exact Or.inl rfl
  · rw [h]
    refine Or.inr ⟨_, rfl, unpackSegments_isSegments _, ?_⟩
    rw [unpackSegments_pts]
    exact partOf_pts fun c hc => P.select_first hc

/-- **C75** An intersection has only common points of the operands. -/
theorem intersect_any_multisegments :
    treeLinearIntersection B tb (multisegmentOperand a) (multisegmentOperand b) = .error .sameOperandOverlap ∨
    ∃ g, treeLinearIntersection B tb (multisegmentOperand a) (multisegmentOperand b) = .ok g ∧ g.IsSegments ∧
      g.pts ⊆ segsPts a ∩ segsPts b := by
  obtain ⟨b₁, hb₁⟩ := boxOf_ok ha
  obtain ⟨b₂, hb₂⟩ := boxOf_ok hb
  unfold treeLinearIntersection multisegmentOperand treeLinearSweep
  dsimp only
  rw [hb₁, hb₂]
  simp only [bind, Except.bind, pure, Except.pure]
  have emp : (∃ g, (Except.ok Geometry.empty : Except Err Geometry) = .ok g ∧ g.IsSegments ∧ g.pts ⊆ segsPts a ∩ segsPts b) :=
    ⟨_, rfl, trivial, Set.empty_subset _⟩
  by_cases hd : disjointWith b₁ b₂ = true
  · rw [if_pos hd]; exact Or.inr emp
  rw [if_neg hd]
  by_cases he : (toCoupledSegments b₂ a).isEmpty = true
  · rw [if_pos he]; exact Or.inr emp
  rw [if_neg he]
  by_cases he' : (toCoupledSegments b₁ b).isEmpty = true
  · rw [if_pos he']; exact Or.inr emp
  rw [if_neg he']
  obtain ⟨m, hm⟩ := maxXOf_ok (l := toCoupledSegments b₂ a) (by simpa using he)
  obtain ⟨m', hm'⟩ := maxXOf_ok (l := toCoupledSegments b₁ b) (by simpa using he')
  rw [hm, hm']
  dsimp only
  rcases treeSweep_good B linearOps () tb (stopAt (some (min m m'))) (a := toCoupledSegments b₂ a) (b := toCoupledSegments b₁ b)
    (fun s hs => pa s (List.filter_sublist.subset hs)) (fun s hs => pb s (List.filter_sublist.subset hs)) with h | ⟨s, log, h, P⟩
  · rw [h]; exact Or.inl rfl
  · rw [h]
    refine Or.inr ⟨_, rfl, unpackSegments_isSegments _, ?_⟩
    rw [unpackSegments_pts]
    exact Set.subset_inter
      ((partOf_pts fun c hc => (P.select_both hc).1).trans (segsPts_mono fun s hs => List.filter_sublist.subset hs))
      ((partOf_pts fun c hc => (P.select_both hc).2).trans (segsPts_mono fun s hs => List.filter_sublist.subset hs))

/-- **C75** A complete intersection has only common points of the operands. -/
theorem complete_intersect_any_multisegments :
    treeLinearCompleteIntersection B tb (multisegmentOperand a) (multisegmentOperand b) = .error .sameOperandOverlap ∨
    ∃ g, treeLinearCompleteIntersection B tb (multisegmentOperand a) (multisegmentOperand b) = .ok g ∧
      g.pts ⊆ segsPts a ∩ segsPts b := by
  obtain ⟨b₁, hb₁⟩ := boxOf_ok ha
  obtain ⟨b₂, hb₂⟩ := boxOf_ok hb
  unfold treeLinearCompleteIntersection multisegmentOperand treeLinearSweepAll
  dsimp only
  rw [hb₁, hb₂]
  simp only [bind, Except.bind, pure, Except.pure]
  have emp : (∃ g, (Except.ok Geometry.empty : Except Err Geometry) = .ok g ∧ g.pts ⊆ segsPts a ∩ segsPts b) :=
    ⟨_, rfl, Set.empty_subset _⟩
  by_cases hd : disjointWith b₁ b₂ = true
  · rw [if_pos hd]; exact Or.inr emp
  rw [if_neg hd]
  by_cases he : (toIntersectingSegments b₂ a).isEmpty = true
  · rw [if_pos he]; exact Or.inr emp
  rw [if_neg he]
  by_cases he' : (toIntersectingSegments b₁ b).isEmpty = true
  · rw [if_pos he']; exact Or.inr emp
  rw [if_neg he']
  obtain ⟨m, hm⟩ := maxXOf_ok (l := toIntersectingSegments b₂ a) (by simpa using he)
  obtain ⟨m', hm'⟩ := maxXOf_ok (l := toIntersectingSegments b₁ b) (by simpa using he')
  rw [hm, hm']
  dsimp only
  rcases treeSweep_good B linearOps () tb (stopAt (some (min m m'))) (a := toIntersectingSegments b₂ a) (b := toIntersectingSegments b₁ b)
    (fun s hs => pa s (List.filter_sublist.subset hs)) (fun s hs => pb s (List.filter_sublist.subset hs)) with h | ⟨s, log, h, P⟩
  · rw [h]; exact Or.inl rfl
  · rw [h]
    refine Or.inr ⟨_, rfl, ?_⟩
    rw [unpackLinearMix_pts]
    have ma : segsPts (toIntersectingSegments b₂ a) ⊆ segsPts a := segsPts_mono fun s hs => List.filter_sublist.subset hs
    have mb : segsPts (toIntersectingSegments b₁ b) ⊆ segsPts b := segsPts_mono fun s hs => List.filter_sublist.subset hs
    obtain ⟨h1, h2⟩ := P.common (l := (log.map Prod.fst).insertionSort fun e f =>
      endpointsLe (evEndpoints s.store.heap e) (evEndpoints s.store.heap f)) (by
        intro e he
        rw [(List.perm_insertionSort _ _).mem_iff, List.mem_map] at he
        obtain ⟨x, hx, rfl⟩ := he
        exact (P.log x hx).1)
    rintro q (hq | hq)
    · exact ⟨ma (h1 q hq).1, mb (h1 q hq).2⟩
    · exact ⟨ma (partOf_pts (fun c hc => (h2 c hc).1) hq), mb (partOf_pts (fun c hc => (h2 c hc).2) hq)⟩

end

/-- **C75** More cannot be said: a segment given twice in the minuend is not found, and the difference has all of the subtrahend. -/
theorem subtract_duplicates_keeps : ∃ s t : Segment, s.Proper ∧ t.Proper ∧
    ∃ g, treeLinearDifference redBlack .id (multisegmentOperand [s, s]) (multisegmentOperand [t]) = .ok g ∧ t.pts ⊆ g.pts := by
  refine ⟨⟨⟨0, 0⟩, ⟨3, 0⟩⟩, ⟨⟨1, 0⟩, ⟨2, 0⟩⟩, by decide +kernel, by decide +kernel,
    .multisegment [⟨⟨0, 0⟩, ⟨1, 0⟩⟩, ⟨⟨0, 0⟩, ⟨3, 0⟩⟩, ⟨⟨2, 0⟩, ⟨3, 0⟩⟩], by decide +kernel, ?_⟩
  rintro q ⟨t, h0, h1, hx, hy⟩
  refine ⟨⟨⟨0, 0⟩, ⟨3, 0⟩⟩, by simp, (1 + t) / 3, by linarith, by linarith, ?_, ?_⟩
  · rw [hx]; dsimp only; ring
  · rw [hy]; dsimp only; ring

/-- Operands with an overlap which is not found, and with one which is. -/
def exOverlap : List Segment := [⟨⟨0, 1⟩, ⟨3, 1⟩⟩, ⟨⟨0, 1⟩, ⟨1, 1⟩⟩]
def exOther : List Segment := [⟨⟨1, 1⟩, ⟨2, 1⟩⟩, ⟨⟨3, 3⟩, ⟨0, 0⟩⟩]
def exRaising : List Segment := [⟨⟨0, 0⟩, ⟨2, 0⟩⟩, ⟨⟨1, 0⟩, ⟨3, 0⟩⟩]

example : exOverlap ≠ [] ∧ exOther ≠ [] ∧ (∀ s ∈ exOverlap, s.Proper) ∧ (∀ s ∈ exOther, s.Proper) ∧ ¬ NoOverlap exOverlap ∧
    treeLinearUnion redBlack .id (multisegmentOperand exOverlap) (multisegmentOperand exOther) =
      .ok (.multisegment [⟨⟨0, 0⟩, ⟨1, 1⟩⟩, ⟨⟨0, 1⟩, ⟨1, 1⟩⟩, ⟨⟨1, 1⟩, ⟨2, 1⟩⟩, ⟨⟨1, 1⟩, ⟨3, 3⟩⟩, ⟨⟨2, 1⟩, ⟨3, 1⟩⟩]) ∧
    treeLinearIntersection redBlack .id (multisegmentOperand exOverlap) (multisegmentOperand exOther) =
      .ok (.segment ⟨⟨1, 1⟩, ⟨2, 1⟩⟩) ∧
    treeLinearUnion redBlack .id (multisegmentOperand exRaising) (multisegmentOperand exOther) = .error .sameOperandOverlap := by
  refine ⟨by decide, by decide, by decide +kernel, by decide +kernel, ?_, by decide +kernel, by decide +kernel, by decide +kernel⟩
  rintro ⟨-, h⟩
  rw [exOverlap, List.pairwise_cons] at h
  refine h.1 ⟨⟨0, 1⟩, ⟨1, 1⟩⟩ (by simp) ?_
  refine ⟨⟨0, 1⟩, ⟨1, 1⟩, by decide +kernel, Segment.start_mem _, ⟨1 / 3, ?_⟩, Segment.start_mem _, Segment.stop_mem _⟩
  norm_num

end Clipping

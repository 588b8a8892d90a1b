import Verif.Lemmas.Region.Check
import Verif.Lemmas.Nary.Exact
import Verif.Lemmas.Nary.Runs
import Verif.Lemmas.Shaped.CompleteResult
import Verif.Properties.Arrangement

/-!
# C25: `segments_to_multisegment`
-/

namespace Clipping

open Sweep Nary

/-- **C25** (for all segments) Whatever the segments (crossing, overlapping, repeated), the ties of the
priority queue and the balancing of the tree, `segments_to_multisegment` terminates.  Every segment of the
result is a non-degenerate part of a given segment, and it ends at end points or points of intersection of
the given segments.  In particular no points are added. -/
theorem segments_to_multisegment_ends (B : Balancing) (tb : TieBreak) {l : List Segment}
    (hl : ∀ s ∈ l, s.Proper) :
    ∃ g, segmentsToMultisegment B tb l = .ok g ∧ g.IsLinear ∧ g.pts ⊆ segsPts l ∧
      ∀ x ∈ g.linearSegments, x.Proper ∧ Vertex l x.start ∧ Vertex l x.stop ∧ ∃ t ∈ l, x.pts ⊆ t.pts := by
  obtain ⟨r, e, h⟩ := nary_ends B tb hl
  obtain ⟨l1, l2, -⟩ := unpackSegments_linear (l := r)
  refine ⟨unpackSegments r, by unfold segmentsToMultisegment; rw [e], l1, ?_, ?_⟩
  · rw [unpackSegments_pts]
    rintro q ⟨x, hx, hq⟩
    obtain ⟨-, -, -, t, ht, hxt⟩ := h x hx
    exact ⟨t, ht, hxt hq⟩
  · rw [l2]
    intro x hx
    obtain ⟨h1, h2⟩ := h x hx
    exact ⟨h1.ne, h2⟩

example : ∀ s ∈ [(⟨⟨0, 0⟩, ⟨3, 3⟩⟩ : Segment), ⟨⟨1, 1⟩, ⟨2, 2⟩⟩, ⟨⟨0, 2⟩, ⟨2, 0⟩⟩], s.Proper := by decide +kernel

/-- **C25** (missing: overlapping segments) If no two of the given segments overlap (they may cross and
touch), then `segments_to_multisegment` covers exactly their points, and every two segments of the result
meet in common end points only.  The segments of the result are the edges of the arrangement, in ascending
order. -/
theorem segments_to_multisegment_partial (B : Balancing) (tb : TieBreak) {l : List Segment}
    (hl : NoOverlap l) :
    ∃ g, segmentsToMultisegment B tb l = .ok g ∧ g.IsLinear ∧ g.pts = segsPts l ∧
      ValidSegments g.linearSegments ∧ EndsOnly g.linearSegments ∧ Ascending g.linearSegments ∧
      ∀ e, e ∈ g.linearSegments ↔ IsEdge l e := by
  obtain ⟨h, F, -, f, e⟩ := mergeSegments_eq B tb hl
  have nil : NoOverlap [] := ⟨by simp, List.Pairwise.nil⟩
  have hall : ∀ i < h.count, i ∈ F := fun i hi => (f.done i hi).2 rfl
  obtain ⟨l1, l2, -⟩ := unpackSegments_linear (l := selectSegments (fun _ => true) h F)
  have sw := f.swept fun _ => true
  refine ⟨_, by unfold segmentsToMultisegment; rw [e], l1, ?_, ?_, ?_, ?_, ?_⟩
  · rw [unpackSegments_pts, f.union hall]
    have : segsPts ([] : List Segment) = ∅ := by ext; simp [segsPts]
    rw [this, Set.union_empty]
  · rw [l2]; exact sw.valid
  · rw [l2]; exact sw.ends
  · rw [l2]; exact ascending_select f _
  · intro x
    rw [l2, f.union_edges hl nil hall, List.append_nil]

/-- **C25** The result does not depend on the ties, on the balancing of the tree, on the order and on the
directions of the segments. -/
theorem segments_to_multisegment_invariant_partial (B B' : Balancing) (tb tb' : TieBreak) {l l' : List Segment}
    (hl : NoOverlap l) (hl' : NoOverlap l') (h : SameSegments l l') :
    ∃ g, segmentsToMultisegment B tb l = .ok g ∧ segmentsToMultisegment B' tb' l' = .ok g := by
  have key : ∀ (B : Balancing) (tb : TieBreak) {l : List Segment}, NoOverlap l →
      ∃ r, segmentsToMultisegment B tb l = .ok (unpackSegments r) ∧ Ascending r ∧ ∀ e, e ∈ r ↔ IsEdge l e := by
    intro B tb l hl
    obtain ⟨h, F, -, f, e⟩ := mergeSegments_eq B tb hl
    refine ⟨_, by unfold segmentsToMultisegment; rw [e], ascending_select f _, fun x => ?_⟩
    rw [f.union_edges hl ⟨by simp, List.Pairwise.nil⟩ (fun i hi => (f.done i hi).2 rfl), List.append_nil]
  obtain ⟨r, e, a, m⟩ := key B tb hl
  obtain ⟨r', e', a', m'⟩ := key B' tb' hl'
  refine ⟨_, e, ?_⟩
  rw [e', a.unique a' fun t => by rw [m t, m' t, h.isEdge]]

/-- Three segments with crossings and no overlap: the diagonals of a square and its upper side. -/
example : NoOverlap [⟨⟨0, 0⟩, ⟨2, 2⟩⟩, ⟨⟨0, 2⟩, ⟨2, 0⟩⟩, ⟨⟨2, 2⟩, ⟨0, 2⟩⟩] ∧
    ∀ tb, segmentsToMultisegment redBlack tb [⟨⟨0, 0⟩, ⟨2, 2⟩⟩, ⟨⟨0, 2⟩, ⟨2, 0⟩⟩, ⟨⟨2, 2⟩, ⟨0, 2⟩⟩] =
      .ok (.multisegment [⟨⟨0, 0⟩, ⟨1, 1⟩⟩, ⟨⟨0, 2⟩, ⟨1, 1⟩⟩, ⟨⟨0, 2⟩, ⟨2, 2⟩⟩, ⟨⟨1, 1⟩, ⟨2, 0⟩⟩,
        ⟨⟨1, 1⟩, ⟨2, 2⟩⟩]) := by
  have no : NoOverlap [⟨⟨0, 0⟩, ⟨2, 2⟩⟩, ⟨⟨0, 2⟩, ⟨2, 0⟩⟩, ⟨⟨2, 2⟩, ⟨0, 2⟩⟩] := by
    refine noOverlap_of_crossing ?_ ?_ ?_ <;> decide +kernel
  refine ⟨no, fun tb => ?_⟩
  obtain ⟨g, h1, h2⟩ := segments_to_multisegment_invariant_partial redBlack redBlack tb TieBreak.id no no
    (SameSegments.refl _)
  rw [h1, ← h2]
  decide +kernel

/-- All runs give the same. -/
theorem segmentsToMultisegment_runs {B : Balancing} {l r : List Segment} (hl : ∀ s ∈ l, s.Proper)
    (h : ∀ x ∈ mergeRuns B l, x = r) (tb : TieBreak) :
    segmentsToMultisegment B tb l = .ok (unpackSegments r) := by
  obtain ⟨x, e, -⟩ := nary_ends B tb hl
  unfold segmentsToMultisegment
  rw [e, h x (mergeSegments_runs e)]

/-- Two of these segments overlap: (0, 0)-(3, 3) and (2, 2)-(0, 0). -/
def exNaryOverlap : List Segment :=
  [⟨⟨0, 0⟩, ⟨3, 3⟩⟩, ⟨⟨0, 0⟩, ⟨3, 0⟩⟩, ⟨⟨2, 2⟩, ⟨0, 0⟩⟩, ⟨⟨1, 1⟩, ⟨0, 2⟩⟩]

/-- **C25** does not hold for overlapping segments: the result of `segments_to_multisegment` may have
overlapping segments, here (0, 0)-(2, 2) and (1, 1)-(2, 2).  The tree is the textbook red-black one. -/
theorem segments_to_multisegment_overlapping (tb : TieBreak) :
    (∀ s ∈ exNaryOverlap, s.Proper) ∧ ∃ r, segmentsToMultisegment redBlack tb exNaryOverlap = .ok (.multisegment r) ∧
      ∃ s ∈ r, ∃ t ∈ r, s ≠ t ∧ Overlapping s t := by
  have hp : ∀ s ∈ exNaryOverlap, s.Proper := by decide +kernel
  have hr : ∀ x ∈ mergeRuns redBlack exNaryOverlap, x = [⟨⟨0, 0⟩, ⟨2, 2⟩⟩, ⟨⟨0, 0⟩, ⟨3, 0⟩⟩, ⟨⟨0, 2⟩, ⟨1, 1⟩⟩,
      ⟨⟨1, 1⟩, ⟨2, 2⟩⟩, ⟨⟨2, 2⟩, ⟨3, 3⟩⟩] := by decide +kernel
  refine ⟨hp, _, segmentsToMultisegment_runs hp hr tb, ⟨⟨0, 0⟩, ⟨2, 2⟩⟩, by simp, ⟨⟨1, 1⟩, ⟨2, 2⟩⟩, by simp,
    by decide +kernel, ⟨1, 1⟩, ⟨2, 2⟩, by decide +kernel, ⟨1 / 2, ?_⟩, ⟨1, ?_⟩, ⟨0, ?_⟩, ⟨1, ?_⟩⟩ <;> norm_num

/-- (0, 0)-(2, 0), (0, 0)-(11/5, 0) and (1, 0)-(3, 0) overlap. -/
def exNaryCross : List Segment :=
  [⟨⟨-1, -7⟩, ⟨4, 3⟩⟩, ⟨⟨0, 0⟩, ⟨2, 0⟩⟩, ⟨⟨0, 0⟩, ⟨11 / 5, 0⟩⟩, ⟨⟨1, 0⟩, ⟨3, 0⟩⟩]

/-- **C25** does not hold for overlapping segments: the result of `segments_to_multisegment` may have
segments which cross, here (-1, -7)-(4, 3) and (11/5, 0)-(3, 0) at (5/2, 0). -/
theorem segments_to_multisegment_crossing (tb : TieBreak) :
    (∀ s ∈ exNaryCross, s.Proper) ∧ ∃ r, segmentsToMultisegment redBlack tb exNaryCross = .ok (.multisegment r) ∧
      ∃ s ∈ r, ∃ t ∈ r, Crossing s t := by
  have hp : ∀ s ∈ exNaryCross, s.Proper := by decide +kernel
  have hr : ∀ x ∈ mergeRuns redBlack exNaryCross, x = [⟨⟨-1, -7⟩, ⟨4, 3⟩⟩, ⟨⟨0, 0⟩, ⟨2, 0⟩⟩, ⟨⟨1, 0⟩, ⟨2, 0⟩⟩,
      ⟨⟨2, 0⟩, ⟨11 / 5, 0⟩⟩, ⟨⟨11 / 5, 0⟩, ⟨3, 0⟩⟩] := by decide +kernel
  refine ⟨hp, _, segmentsToMultisegment_runs hp hr tb, ⟨⟨-1, -7⟩, ⟨4, 3⟩⟩, by simp, ⟨⟨11 / 5, 0⟩, ⟨3, 0⟩⟩, by simp,
    ⟨5 / 2, 0⟩, ⟨7 / 10, ?_⟩, ⟨3 / 8, ?_⟩, ?_, ?_⟩
  · norm_num
  · norm_num
  · unfold Segment.IsEnd; decide +kernel
  · unfold Segment.IsEnd; decide +kernel

/-- (0, 2)-(2, 2), (1, 2)-(2, 2) and (0, 2)-(3, 2) overlap. -/
def exNaryLost : List Segment :=
  [⟨⟨2, 2⟩, ⟨0, 2⟩⟩, ⟨⟨1, 2⟩, ⟨2, 2⟩⟩, ⟨⟨0, 2⟩, ⟨3, 1⟩⟩, ⟨⟨3, 3⟩, ⟨1, 0⟩⟩, ⟨⟨3, 2⟩, ⟨0, 2⟩⟩]

/-- **C25** does not hold for overlapping segments: `segments_to_multisegment` may lose points, here the
ones between (0, 2) and (1, 2). -/
theorem segments_to_multisegment_loses (tb : TieBreak) :
    (∀ s ∈ exNaryLost, s.Proper) ∧ ∃ r, segmentsToMultisegment redBlack tb exNaryLost = .ok (.multisegment r) ∧
      (⟨1 / 2, 2⟩ : Point) ∈ segsPts exNaryLost ∧ (⟨1 / 2, 2⟩ : Point) ∉ segsPts r := by
  have hp : ∀ s ∈ exNaryLost, s.Proper := by decide +kernel
  have hr : ∀ x ∈ mergeRuns redBlack exNaryLost, x = [⟨⟨0, 2⟩, ⟨21 / 11, 15 / 11⟩⟩, ⟨⟨1, 0⟩, ⟨21 / 11, 15 / 11⟩⟩,
      ⟨⟨1, 2⟩, ⟨2, 2⟩⟩, ⟨⟨21 / 11, 15 / 11⟩, ⟨3, 1⟩⟩, ⟨⟨21 / 11, 15 / 11⟩, ⟨3, 3⟩⟩, ⟨⟨2, 2⟩, ⟨3, 2⟩⟩] := by
    decide +kernel
  refine ⟨hp, _, segmentsToMultisegment_runs hp hr tb, ⟨⟨⟨2, 2⟩, ⟨0, 2⟩⟩, by simp [exNaryLost], 3 / 4, by norm_num⟩, ?_⟩
  rintro ⟨s, hs, t, h0, h1, hx, hy⟩
  simp only [List.mem_cons, List.not_mem_nil, or_false] at hs
  rcases hs with rfl | rfl | rfl | rfl | rfl | rfl <;> norm_num at hx hy <;> linarith

/-- (0, 3)-(4, 3) is given twice, there are no other overlaps. -/
def exNaryRepeated : List Segment :=
  [⟨⟨4, 3⟩, ⟨0, 3⟩⟩, ⟨⟨2, 3⟩, ⟨4, 4⟩⟩, ⟨⟨1, 0⟩, ⟨0, 4⟩⟩, ⟨⟨0, 2⟩, ⟨3, 3⟩⟩, ⟨⟨4, 3⟩, ⟨0, 3⟩⟩]

/-- **C25** does not hold for repeated segments either, even if there are no other overlaps: the result of
`segments_to_multisegment` may have segments which meet not only at their ends, here (2, 3)-(4, 4) and
(1/4, 3)-(3, 3). -/
theorem segments_to_multisegment_repeated (tb : TieBreak) :
    (∀ s ∈ exNaryRepeated, s.Proper) ∧ NoOverlap exNaryRepeated.tail ∧
      exNaryRepeated.head? = exNaryRepeated.getLast? ∧
      ∃ r, segmentsToMultisegment redBlack tb exNaryRepeated = .ok (.multisegment r) ∧
        ∃ s ∈ r, ∃ t ∈ r, s ≠ t ∧ ∃ q, q ∈ s.pts ∧ q ∈ t.pts ∧ ¬ t.IsEnd q := by
  have hp : ∀ s ∈ exNaryRepeated, s.Proper := by decide +kernel
  have hr : ∀ x ∈ mergeRuns redBlack exNaryRepeated, x = [⟨⟨0, 2⟩, ⟨6 / 13, 28 / 13⟩⟩, ⟨⟨0, 3⟩, ⟨1 / 4, 3⟩⟩,
      ⟨⟨0, 4⟩, ⟨1 / 4, 3⟩⟩, ⟨⟨1 / 4, 3⟩, ⟨6 / 13, 28 / 13⟩⟩, ⟨⟨1 / 4, 3⟩, ⟨3, 3⟩⟩,
      ⟨⟨6 / 13, 28 / 13⟩, ⟨1, 0⟩⟩, ⟨⟨6 / 13, 28 / 13⟩, ⟨3, 3⟩⟩, ⟨⟨2, 3⟩, ⟨4, 4⟩⟩, ⟨⟨3, 3⟩, ⟨4, 3⟩⟩] := by
    decide +kernel
  refine ⟨hp, noOverlap_of_crossing (by decide +kernel) (by decide +kernel) (by decide +kernel), rfl, _,
    segmentsToMultisegment_runs hp hr tb, ⟨⟨2, 3⟩, ⟨4, 4⟩⟩, by simp, ⟨⟨1 / 4, 3⟩, ⟨3, 3⟩⟩, by simp,
    by decide +kernel, ⟨2, 3⟩, ⟨0, ?_⟩, ⟨7 / 11, ?_⟩, ?_⟩
  · norm_num
  · norm_num
  · unfold Segment.IsEnd; decide +kernel

end Clipping

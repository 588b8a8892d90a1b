import Verif.Lemmas.Shaped.TwinResult
import Verif.Lemmas.Shaped.Exact

/-!
# Union and symmetric difference depend on the edges of the operands only
-/

namespace Clipping

open Sweep

/-- Without repetitions, lists with the same segments are the same up to order and directions. -/
theorem SameSegments.sameEdges {A B : List Segment} (h : SameSegments A B) (hA : NoOverlap A) (hB : NoOverlap B) :
    SameEdges A B := by
  have nd : ∀ {A : List Segment}, NoOverlap A → (A.map Segment.norm).Nodup := by
    intro A hA
    have hA := SameEdges.noOverlap_norm.2 hA
    rw [List.nodup_iff_pairwise_ne]
    refine hA.2.imp_of_mem fun {s t} hs ht hst e => hst ?_
    subst e
    exact ⟨s.start, s.stop, hA.1 s hs, s.start_mem, s.stop_mem, s.start_mem, s.stop_mem⟩
  have sub : ∀ {A B : List Segment}, SameSegments A B → ∀ e ∈ A.map Segment.norm, e ∈ B.map Segment.norm := by
    intro A B h e he
    obtain ⟨s, hs, rfl⟩ := List.mem_map.1 he
    obtain ⟨t, ht, h1, h2⟩ := h.1 s hs
    refine List.mem_map.2 ⟨t, ht, ?_⟩
    unfold Segment.norm
    rw [h1, h2]
  unfold SameEdges
  rw [List.perm_ext_iff_of_nodup (nd hA) (nd hB)]
  exact fun e => ⟨sub h e, sub h.symm e⟩

variable {a b a' b' : ShapedOperand} (ha : ShapedOk a) (hb : ShapedOk b) (ha' : ShapedOk a') (hb' : ShapedOk b')
  (sa : SameSegments (a.polygons.flatMap Polygon.edges) (a'.polygons.flatMap Polygon.edges))
  (sb : SameSegments (b.polygons.flatMap Polygon.edges) (b'.polygons.flatMap Polygon.edges))

include ha hb in
theorem boxes_meet (x : (polysPts a.polygons ∩ polysPts b.polygons).Nonempty) {ba bb : Box}
    (h1 : polygonsBox a.polygons = .ok ba) (h2 : polygonsBox b.polygons = .ok bb) : ¬ disjointWith ba bb = true := by
  obtain ⟨q, q1, q2⟩ := x
  obtain ⟨i₁, n₁⟩ := polygonsBox_spec ha.valid.valid h1
  obtain ⟨i₂, n₂⟩ := polygonsBox_spec hb.valid.valid h2
  exact fun hd => (disjointWith_iff ba bb n₁ n₂).1.1 hd q (i₁ q1) (i₂ q2)

include ha ha' sa in
theorem same_edges : SameEdges (a.polygons.flatMap Polygon.edges) (a'.polygons.flatMap Polygon.edges) :=
  sa.sameEdges (ha.valid.sameEdges.noOverlap ha.valid.isBoundary.noOverlap)
    (ha'.valid.sameEdges.noOverlap ha'.valid.isBoundary.noOverlap)

include ha hb ha' hb' sa sb

theorem same_meet (x : (polysPts a.polygons ∩ polysPts b.polygons).Nonempty) :
    (polysPts a'.polygons ∩ polysPts b'.polygons).Nonempty := by
  rwa [ha'.valid.polysPts_eq, hb'.valid.polysPts_eq, ← (same_edges ha ha' sa).regionPts_eq,
    ← (same_edges hb hb' sb).regionPts_eq, ← ha.valid.polysPts_eq, ← hb.valid.polysPts_eq]

theorem holeyUnion_form (tb tb' : TieBreak) (x : (polysPts a.polygons ∩ polysPts b.polygons).Nonempty) :
    holeyUnion tb a b = holeyUnion tb' a' b' := by
  obtain ⟨ba, bb, h1, h2⟩ := boxes_ok ha hb
  obtain ⟨ba', bb', h1', h2'⟩ := boxes_ok ha' hb'
  have hd := boxes_meet ha hb x h1 h2
  have hd' := boxes_meet ha' hb' (same_meet ha hb ha' hb' sa sb x) h1' h2'
  have ea := same_edges ha ha' sa
  have eb := same_edges hb hb' sb
  unfold holeyUnion
  rw [h1, h2, h1', h2']
  simp only [bind, Except.bind, pure, Except.pure]
  rw [if_neg hd, if_neg hd']
  obtain ⟨h, events, h', events', ps, e, e', g, g'⟩ := holeySweep_twin unionRule_ok unionRule_for unionRule_ok unionRule_for
    tb tb' ha.valid hb.valid ha'.valid hb'.valid (stopOk_none _ _ _) (stopOk_none _ _ _) (ea.append eb)
    (Combined.congr ea eb)
  simp only [e, e', g, g']

theorem holeySymmetricDifference_form (tb tb' : TieBreak) (x : (polysPts a.polygons ∩ polysPts b.polygons).Nonempty) :
    holeySymmetricDifference tb a b = holeySymmetricDifference tb' a' b' := by
  obtain ⟨ba, bb, h1, h2⟩ := boxes_ok ha hb
  obtain ⟨ba', bb', h1', h2'⟩ := boxes_ok ha' hb'
  have hd := boxes_meet ha hb x h1 h2
  have hd' := boxes_meet ha' hb' (same_meet ha hb ha' hb' sa sb x) h1' h2'
  have ea := same_edges ha ha' sa
  have eb := same_edges hb hb' sb
  unfold holeySymmetricDifference
  rw [h1, h2, h1', h2']
  simp only [bind, Except.bind, pure, Except.pure]
  rw [if_neg hd, if_neg hd']
  obtain ⟨h, events, h', events', ps, e, e', g, g'⟩ := holeySweep_twin symmetricDifferenceRule_ok symmetricDifferenceRule_for
    symmetricDifferenceRule_ok symmetricDifferenceRule_for
    tb tb' ha.valid hb.valid ha'.valid hb'.valid (stopOk_none _ _ _) (stopOk_none _ _ _) (ea.append eb)
    (Combined.congr ea eb)
  simp only [e, e', g, g']

end Clipping

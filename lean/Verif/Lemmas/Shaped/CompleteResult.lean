import Verif.Lemmas.Shaped.Complete
import Verif.Lemmas.Shaped.Exact
import Verif.Lemmas.Mixed.Result

/-!
# Complete intersections of polygons
-/

namespace Clipping

open Sweep

theorem CompleteParts.congr {X Y X' Y' R R' : Set Point} {ps : List Point} {l : List Segment} (h : CompleteParts X Y ps l R)
    (hx : ∀ q, q ∈ X ∧ q ∈ Y ↔ q ∈ X' ∧ q ∈ Y') (hr : R = R') : CompleteParts X' Y' ps l R' := by
  subst hr
  exact ⟨fun q => (h.all q).trans (hx q), h.nodup, h.sorted, h.alone, h.directed, h.endsOnly, h.meet⟩

theorem completeParts_empty {X Y R : Set Point} (h : ∀ q, ¬ (q ∈ X ∧ q ∈ Y)) (hr : R = ∅) : CompleteParts X Y [] [] R := by
  subst hr
  refine ⟨fun q => iff_of_false ?_ (h q), List.nodup_nil, List.Pairwise.nil, by simp, by simp, List.Pairwise.nil, by simp⟩
  rw [segsPts_nil]
  simp

section unpack
variable (ps : List Point) (l : List Segment) (gs : List Polygon)

theorem unpackPoints_discrete : (unpackPoints ps).IsDiscrete ∧ (unpackPoints ps).discretePoints = ps ∧
    ((unpackPoints ps).isEmpty = true ↔ ps = []) := by
  cases ps <;> simp [unpackPoints, Geometry.IsDiscrete, Geometry.discretePoints, Geometry.isEmpty]

theorem unpackSegments_linear : (unpackSegments l).IsLinear ∧ (unpackSegments l).linearSegments = l ∧
    ((unpackSegments l).isEmpty = true ↔ l = []) := by
  rcases l with _ | ⟨s, _ | ⟨t, l⟩⟩ <;>
    simp [unpackSegments, Geometry.IsLinear, Geometry.linearSegments, Geometry.isEmpty]

theorem unpackPolygons_polygonal : (unpackPolygons gs).IsPolygonal ∧ (unpackPolygons gs).shapedPolygons = gs ∧
    ((unpackPolygons gs).isEmpty = true ↔ gs = []) := by
  rcases gs with _ | ⟨s, _ | ⟨t, l⟩⟩ <;>
    simp [unpackPolygons, Geometry.IsPolygonal, Geometry.shapedPolygons, Geometry.isEmpty]

theorem Geometry.isEmpty_iff {g : Geometry} : g.isEmpty = true ↔ g = .empty := by
  cases g <;> simp [Geometry.isEmpty]

theorem IsDiscrete.others {g : Geometry} (h : g.IsDiscrete) : g.linearSegments = [] ∧ g.shapedPolygons = [] := by
  cases g <;> simp [Geometry.IsDiscrete, Geometry.linearSegments, Geometry.shapedPolygons] at h ⊢

theorem IsLinear.others {g : Geometry} (h : g.IsLinear) : g.discretePoints = [] ∧ g.shapedPolygons = [] := by
  cases g <;> simp [Geometry.IsLinear, Geometry.discretePoints, Geometry.shapedPolygons] at h ⊢

theorem IsPolygonal.others {g : Geometry} (h : g.IsPolygonal) : g.discretePoints = [] ∧ g.linearSegments = [] := by
  cases g <;> simp [Geometry.IsPolygonal, Geometry.discretePoints, Geometry.linearSegments] at h ⊢

theorem canonical_of {g : Geometry} (h : g.IsDiscrete ∨ g.IsLinear ∨ g.IsPolygonal) : g.Canonical := by
  cases g
  case mix => simp [Geometry.IsDiscrete, Geometry.IsLinear, Geometry.IsPolygonal] at h
  all_goals exact h

theorem unpackMix_parts {d l s : Geometry} (hd : d.IsDiscrete) (hl : l.IsLinear) (hs : s.IsPolygonal) :
    (unpackMix d l s).Canonical ∧ (unpackMix d l s).discretePoints = d.discretePoints ∧
      (unpackMix d l s).linearSegments = l.linearSegments ∧ (unpackMix d l s).shapedPolygons = s.shapedPolygons := by
  unfold unpackMix
  have ed : d.isEmpty = true → d.discretePoints = [] := fun h => by rw [Geometry.isEmpty_iff.1 h]; rfl
  have el : l.isEmpty = true → l.linearSegments = [] := fun h => by rw [Geometry.isEmpty_iff.1 h]; rfl
  have es : s.isEmpty = true → s.shapedPolygons = [] := fun h => by rw [Geometry.isEmpty_iff.1 h]; rfl
  have nd : ¬ d.isEmpty = true → d ≠ .empty := fun h h' => h (Geometry.isEmpty_iff.2 h')
  have nl : ¬ l.isEmpty = true → l ≠ .empty := fun h h' => h (Geometry.isEmpty_iff.2 h')
  have ns : ¬ s.isEmpty = true → s ≠ .empty := fun h h' => h (Geometry.isEmpty_iff.2 h')
  obtain ⟨d1, d2⟩ := IsDiscrete.others hd
  obtain ⟨l1, l2⟩ := IsLinear.others hl
  obtain ⟨s1, s2⟩ := IsPolygonal.others hs
  by_cases h1 : d.isEmpty = true
  · rw [if_pos h1]
    by_cases h2 : l.isEmpty = true
    · rw [if_pos h2]
      exact ⟨canonical_of (Or.inr (Or.inr hs)), by rw [s1, ed h1], by rw [s2, el h2], rfl⟩
    · rw [if_neg h2]
      by_cases h3 : s.isEmpty = true
      · rw [if_pos h3]
        exact ⟨canonical_of (Or.inr (Or.inl hl)), by rw [l1, ed h1], rfl, by rw [l2, es h3]⟩
      · rw [if_neg h3]
        exact ⟨⟨hd, hl, hs, Or.inr (Or.inr ⟨nl h2, ns h3⟩)⟩, rfl, rfl, rfl⟩
  · rw [if_neg h1]
    by_cases h2 : (s.isEmpty && l.isEmpty) = true
    · rw [if_pos h2]
      rw [Bool.and_eq_true] at h2
      exact ⟨canonical_of (Or.inl hd), rfl, by rw [d1, el h2.2], by rw [d2, es h2.1]⟩
    · rw [if_neg h2]
      refine ⟨⟨hd, hl, hs, ?_⟩, rfl, rfl, rfl⟩
      rw [Bool.and_eq_true, not_and_or] at h2
      rcases h2 with h2 | h2
      · exact Or.inr (Or.inl ⟨nd h1, ns h2⟩)
      · exact Or.inl ⟨nd h1, nl h2⟩

end unpack

theorem Geometry.Canonical.pts_eq {g : Geometry} (h : g.Canonical) :
    g.pts = {q | q ∈ g.discretePoints} ∪ segsPts g.linearSegments ∪ polysPts g.shapedPolygons := by
  have e1 : segsPts [] = ∅ := segsPts_nil
  have e2 : polysPts [] = ∅ := by ext q; simp [polysPts]
  have e3 : ∀ s : Segment, segsPts [s] = s.pts := by intro s; ext q; simp [segsPts]
  have e4 : ∀ p : Polygon, polysPts [p] = p.pts := by intro s; ext q; simp [polysPts]
  have single : ∀ {g : Geometry}, g.IsDiscrete ∨ g.IsLinear ∨ g.IsPolygonal →
      g.pts = {q | q ∈ g.discretePoints} ∪ segsPts g.linearSegments ∪ polysPts g.shapedPolygons := by
    intro g hg
    cases g <;> simp [Geometry.IsDiscrete, Geometry.IsLinear, Geometry.IsPolygonal, Geometry.pts, Geometry.discretePoints,
      Geometry.linearSegments, Geometry.shapedPolygons, e1, e2, e3, e4] at hg ⊢
    rfl
  cases g
  case mix d l s =>
    obtain ⟨hd, hl, hs, -⟩ := h
    obtain ⟨d1, d2⟩ := IsDiscrete.others hd
    obtain ⟨l1, l2⟩ := IsLinear.others hl
    obtain ⟨s1, s2⟩ := IsPolygonal.others hs
    have q1 := single (Or.inl hd)
    have q2 := single (Or.inr (Or.inl hl))
    have q3 := single (Or.inr (Or.inr hs))
    rw [d1, d2, e1, e2, Set.union_empty, Set.union_empty] at q1
    rw [l1, l2, e2] at q2
    rw [s1, s2, e1] at q3
    simp only [List.not_mem_nil, Set.ofPred_false, Set.empty_union, Set.union_empty] at q2 q3
    show d.pts ∪ l.pts ∪ s.pts = _
    rw [q1, q2, q3]
    rfl
  all_goals exact single h

/-- What `CompleteIntersection.compute` makes of a sweep of polygons. -/
theorem holeySweep_complete (tb : TieBreak) {xmax : Option ℚ} {P Q : List Polygon} (hP : ValidPolygons P)
    (hQ : ValidPolygons Q) (hst : StopOk (fun a b => a && b) xmax (P.flatMap polygonEdges) (Q.flatMap polygonEdges)) :
    ∃ h events ps, holeySweep intersectionRule tb xmax P Q = .ok (h, events) ∧
      eventsToPolygons h (sortEvents h events) = .ok ps ∧
      Outlines (fun a b => a && b) (P.flatMap Polygon.edges) (Q.flatMap Polygon.edges) ps ∧ (∀ p ∈ ps, p.Oriented) ∧
      (FewTouch (P.flatMap Polygon.edges ++ Q.flatMap Polygon.edges) → ValidPolygons ps) ∧
      CompleteParts (polysPts P) (polysPts Q) (touchPoints h (groupRuns h.evStart (sortEvents h events)))
        (commonEdges h (sortEvents h events)) (regionPts (ps.flatMap Polygon.edges)) := by
  obtain ⟨h, events, ps, e, e', O, R, V⟩ := holeySweep_outlines intersectionRule_ok intersectionRule_for tb hP hQ hst
  obtain ⟨h', events', e'', E⟩ := holeySweep_end intersectionRule_ok intersectionRule_for tb hP hQ hst
  rw [e] at e''
  cases e''
  have M := shapedSweep_marked (isShaped_holey intersectionRule_ok) hP.isBoundary hQ.isBoundary hst e E
  have bok := holey_belowOk intersectionRule_ok hP.isBoundary hQ.isBoundary e E
  obtain ⟨ps', e1, O'⟩ := eventsToPolygons_outline E.selected bok
  rw [e'] at e1
  cases e1
  have perm : (sortEvents h events).Perm events := Selected.sort_perm
  have C := E.complete M hst perm (sorted_events h events)
  refine ⟨h, events, ps, e, ?_, O, R, V, ?_⟩
  · rw [← e']
    unfold eventsToPolygons
    rw [E.selected.sort_eq (perm.filter _)]
  · rw [hP.pts_eq, hQ.pts_eq] at C
    refine C.congr (fun _ => Iff.rfl) ?_
    ext q
    have h1 : segsPts (resultEdges h events) = segsPts (ps.flatMap Polygon.edges) := by
      rw [O'.pts]
      ext q
      exact ⟨fun ⟨s, hs, hq⟩ => ⟨s, E.selected_perm.mem_iff.2 hs, hq⟩, fun ⟨s, hs, hq⟩ => ⟨s, E.selected_perm.mem_iff.1 hs, hq⟩⟩
    have h2 : Inside (resultEdges h events) q ↔ Inside (ps.flatMap Polygon.edges) q := by
      rw [O'.inside]
      unfold Inside; rw [E.selected_perm.countP_eq]
    show q ∈ segsPts _ ∨ Inside _ q ↔ q ∈ segsPts _ ∨ Inside _ q
    rw [h1, h2]

variable {o : Orient} (ok : OrientOk o) {a b : ShapedOperand} (ha : ShapedOk a) (hb : ShapedOk b)

include ok ha hb

/-- Polygons which have no point in the box of the other operand do not matter. -/
theorem kept_both {ba bb : Box} (h1 : polygonsBox a.polygons = .ok ba) (h2 : polygonsBox b.polygons = .ok bb) (q : Point) :
    (q ∈ polysPts (toIntersectingPolygons o bb a.polygons) ∧ q ∈ polysPts (toIntersectingPolygons o ba b.polygons)) ↔
    (q ∈ polysPts a.polygons ∧ q ∈ polysPts b.polygons) := by
  obtain ⟨i₁, n₁⟩ := polygonsBox_spec ha.valid.valid h1
  obtain ⟨i₂, n₂⟩ := polygonsBox_spec hb.valid.valid h2
  have e₁ := toIntersectingPolygons_pts ok ha.valid n₂
  have e₂ := toIntersectingPolygons_pts ok hb.valid n₁
  constructor
  · rintro ⟨⟨p, hp, g1⟩, p', hp', g2⟩
    exact ⟨⟨p, (toIntersectingPolygons_sub o bb _).subset hp, g1⟩, p', (toIntersectingPolygons_sub o ba _).subset hp', g2⟩
  · rintro ⟨g1, g2⟩
    have k1 : q ∈ polysPts a.polygons ∩ bb.pts := ⟨g1, i₂ g2⟩
    have k2 : q ∈ polysPts b.polygons ∩ ba.pts := ⟨g2, i₁ g1⟩
    rw [← e₁] at k1
    rw [← e₂] at k2
    exact ⟨k1.1, k2.1⟩

theorem holeyCompleteIntersection_parts (tb : TieBreak) : ∃ g, holeyCompleteIntersection o tb a b = .ok g ∧ g.Canonical ∧
    Outlines (fun a b => a && b) (a.polygons.flatMap Polygon.edges) (b.polygons.flatMap Polygon.edges) g.shapedPolygons ∧
    (∀ p ∈ g.shapedPolygons, p.Oriented) ∧ (FewTouchEach a.polygons b.polygons → ValidPolygons g.shapedPolygons) ∧
    CompleteParts (polysPts a.polygons) (polysPts b.polygons) g.discretePoints g.linearSegments
      (regionPts (g.shapedPolygons.flatMap Polygon.edges)) := by
  obtain ⟨ba, bb, h1, h2⟩ := boxes_ok ha hb
  unfold holeyCompleteIntersection
  rw [h1, h2]
  simp only [bind, Except.bind, pure, Except.pure]
  have key := fun q => kept_both ok ha hb h1 h2 q
  have comb : ∀ {P Q : List Polygon}, ValidPolygons P → ValidPolygons Q → ∀ q,
      q ∉ segsPts (P.flatMap Polygon.edges ++ Q.flatMap Polygon.edges) →
      (Combined (fun a b => a && b) (P.flatMap Polygon.edges) (Q.flatMap Polygon.edges) q ↔
        q ∈ polysPts P ∧ q ∈ polysPts Q) := by
    intro P Q hP hQ q hq
    obtain ⟨q1, q2⟩ := off_append hq
    rw [combined_and, hP.mem_off q1, hQ.mem_off q2]
  have none : (∀ q, ¬ (q ∈ polysPts a.polygons ∧ q ∈ polysPts b.polygons)) →
      Outlines (fun a b => a && b) (a.polygons.flatMap Polygon.edges) (b.polygons.flatMap Polygon.edges) [] ∧
      CompleteParts (polysPts a.polygons) (polysPts b.polygons) [] []
        (regionPts (([] : List Polygon).flatMap Polygon.edges)) := by
    intro hn
    refine ⟨outlines_nil fun q hq hc => hn q ((comb ha.valid hb.valid q hq).1 hc), completeParts_empty hn ?_⟩
    ext q
    show q ∈ segsPts [] ∨ Inside [] q ↔ q ∈ (∅ : Set Point)
    rw [segsPts_nil]
    simp [inside_nil]
  have nothing : (∀ q, ¬ (q ∈ polysPts a.polygons ∧ q ∈ polysPts b.polygons)) →
      ∃ g, (Except.ok Geometry.empty : Except Err Geometry) = .ok g ∧ g.Canonical ∧
      Outlines (fun a b => a && b) (a.polygons.flatMap Polygon.edges) (b.polygons.flatMap Polygon.edges) g.shapedPolygons ∧
      (∀ p ∈ g.shapedPolygons, p.Oriented) ∧ (FewTouchEach a.polygons b.polygons → ValidPolygons g.shapedPolygons) ∧
      CompleteParts (polysPts a.polygons) (polysPts b.polygons) g.discretePoints g.linearSegments
        (regionPts (g.shapedPolygons.flatMap Polygon.edges)) := by
    intro hn
    obtain ⟨n1, n2⟩ := none hn
    exact ⟨_, rfl, Or.inl trivial, n1, by simp [Geometry.shapedPolygons], fun _ => validPolygons_nil, n2⟩
  by_cases hd : disjointWith ba bb = true
  · rw [if_pos hd]
    refine nothing ?_
    rintro q ⟨g1, g2⟩
    exact (disjointWith_iff ba bb (polygonsBox_spec ha.valid.valid h1).2 (polygonsBox_spec hb.valid.valid h2).2).1.1 hd q
      ((polygonsBox_spec ha.valid.valid h1).1 g1) ((polygonsBox_spec hb.valid.valid h2).1 g2)
  rw [if_neg hd]
  by_cases e1 : (toIntersectingPolygons o bb a.polygons).isEmpty = true
  · rw [if_pos e1]
    refine nothing fun q hq => ?_
    rw [← key q, List.isEmpty_iff.1 e1] at hq
    obtain ⟨⟨p, hp, -⟩, -⟩ := hq
    cases hp
  rw [if_neg e1]
  by_cases e2 : (toIntersectingPolygons o ba b.polygons).isEmpty = true
  · rw [if_pos e2]
    refine nothing fun q hq => ?_
    rw [← key q, List.isEmpty_iff.1 e2] at hq
    obtain ⟨-, ⟨p, hp, -⟩⟩ := hq
    cases hp
  rw [if_neg e2]
  have s1 := toIntersectingPolygons_sub o bb a.polygons
  have s2 := toIntersectingPolygons_sub o ba b.polygons
  have v1 := ha.valid.sublist s1
  have v2 := hb.valid.sublist s2
  obtain ⟨n₁, x₁, g₁⟩ := polygonsMaxX_spec v1.valid (isEmpty_false e1)
  obtain ⟨n₂, x₂, g₂⟩ := polygonsMaxX_spec v2.valid (isEmpty_false e2)
  obtain ⟨h, events, ps, e, e', O, R, V, C⟩ := holeySweep_complete tb v1 v2
    (stopOk_min (v1.edges_x g₁) (v2.edges_x g₂) (by simp) (by simp))
  simp only [x₁, x₂, e, e']
  obtain ⟨p1, p2, -⟩ := unpackPoints_discrete (touchPoints h (groupRuns h.evStart (sortEvents h events)))
  obtain ⟨l1, l2, -⟩ := unpackSegments_linear (commonEdges h (sortEvents h events))
  obtain ⟨g1, g2, -⟩ := unpackPolygons_polygonal ps
  obtain ⟨u1, u2, u3, u4⟩ := unpackMix_parts p1 l1 g1
  rw [p2] at u2
  rw [l2] at u3
  rw [g2] at u4
  refine ⟨_, rfl, u1, ?_⟩
  rw [u2, u3, u4]
  refine ⟨?_, R, fun N => V (N.sublist s1 s2).fewTouch, C.congr key rfl⟩
  have hs := segsPts_append_sub (flatMap_edges_sub s1) (flatMap_edges_sub s2)
  refine O.mono hs fun q hq => ?_
  rw [comb v1 v2 q fun hh => hq (hs hh), comb ha.valid hb.valid q hq, key q]

/-- The complete intersection has exactly the common points. -/
theorem holeyCompleteIntersection_exact (tb : TieBreak) (N : FewTouchEach a.polygons b.polygons) :
    ∃ g, holeyCompleteIntersection o tb a b = .ok g ∧ g.Canonical ∧ g.pts = polysPts a.polygons ∩ polysPts b.polygons ∧
      ValidPolygons g.shapedPolygons ∧ CompleteParts (polysPts a.polygons) (polysPts b.polygons) g.discretePoints
        g.linearSegments (polysPts g.shapedPolygons) := by
  obtain ⟨g, h1, h2, -, -, V, C⟩ := holeyCompleteIntersection_parts ok ha hb tb
  have C' := C.congr (fun _ => Iff.rfl) (V N).polysPts_eq.symm
  refine ⟨g, h1, h2, ?_, V N, C'⟩
  rw [h2.pts_eq]
  ext q
  rw [Set.mem_inter_iff, ← C'.all q]
  simp only [Set.mem_union, or_assoc]
  rfl

end Clipping

import Verif.Lemmas.Shaped.TwinComplete

/-!
# Operations on polygons give the same result for swapped operands, whatever the order of simultaneous events
-/

namespace Clipping

open Sweep

/-- What `CompleteIntersection.compute` makes of two sweeps with the same edges. -/
theorem holeyComplete_twin (tb tb' : TieBreak) {xmax xmax' : Option ℚ} {P Q P' Q' : List Polygon}
    (hP : ValidPolygons P) (hQ : ValidPolygons Q) (hP' : ValidPolygons P') (hQ' : ValidPolygons Q')
    (hst : StopOk (fun a b => a && b) xmax (P.flatMap polygonEdges) (Q.flatMap polygonEdges))
    (hst' : StopOk (fun a b => a && b) xmax' (P'.flatMap polygonEdges) (Q'.flatMap polygonEdges))
    (hs : SameEdges (P.flatMap Polygon.edges ++ Q.flatMap Polygon.edges)
      (P'.flatMap Polygon.edges ++ Q'.flatMap Polygon.edges))
    (hc : ∀ q, Combined (fun a b => a && b) (P.flatMap Polygon.edges) (Q.flatMap Polygon.edges) q ↔
      Combined (fun a b => a && b) (P'.flatMap Polygon.edges) (Q'.flatMap Polygon.edges) q)
    (hx : polysPts P ∩ polysPts Q = polysPts P' ∩ polysPts Q') :
    ∃ h events h' events' ps points segments, holeySweep intersectionRule tb xmax P Q = .ok (h, events) ∧
      holeySweep intersectionRule tb' xmax' P' Q' = .ok (h', events') ∧
      eventsToPolygons h (sortEvents h events) = .ok ps ∧ eventsToPolygons h' (sortEvents h' events') = .ok ps ∧
      touchPoints h (groupRuns h.evStart (sortEvents h events)) = points ∧
      touchPoints h' (groupRuns h'.evStart (sortEvents h' events')) = points ∧
      commonEdges h (sortEvents h events) = segments ∧ commonEdges h' (sortEvents h' events') = segments := by
  obtain ⟨h, events, h', events', ps, e, e', g, g'⟩ := holeySweep_twin intersectionRule_ok intersectionRule_for
    intersectionRule_ok intersectionRule_for tb tb' hP hQ hP' hQ' hst hst' hs hc
  obtain ⟨h1, ev1, e1, E⟩ := holeySweep_end intersectionRule_ok intersectionRule_for tb hP hQ hst
  rw [e] at e1; cases e1
  obtain ⟨h1, ev1, e1, E'⟩ := holeySweep_end intersectionRule_ok intersectionRule_for tb' hP' hQ' hst'
  rw [e'] at e1; cases e1
  obtain ⟨h1, ev1, ps1, e1, g1, -, -, -, C⟩ := holeySweep_complete tb hP hQ hst
  rw [e] at e1; cases e1
  obtain ⟨h1, ev1, ps2, e1, g2, -, -, -, C'⟩ := holeySweep_complete tb' hP' hQ' hst'
  rw [e'] at e1; cases e1
  have s1 : eventsToPolygons h (sortEvents h events) = eventsToPolygons h events := by
    unfold eventsToPolygons
    rw [E.selected.sort_eq (Selected.sort_perm.filter _)]
  have s2 : eventsToPolygons h' (sortEvents h' events') = eventsToPolygons h' events' := by
    unfold eventsToPolygons
    rw [E'.selected.sort_eq (Selected.sort_perm.filter _)]
  have p1 : ps1 = ps := by rw [s1, g] at g1; cases g1; rfl
  have p2 : ps2 = ps := by rw [s2, g'] at g2; cases g2; rfl
  subst p1 p2
  have M := shapedSweep_marked (isShaped_holey intersectionRule_ok) hP.isBoundary hQ.isBoundary hst e E
  have M' := shapedSweep_marked (isShaped_holey intersectionRule_ok) hP'.isBoundary hQ'.isBoundary hst' e' E'
  obtain ⟨c1, c2⟩ := E.common_twin M E' M' hP.isBoundary.noOverlap hQ.isBoundary.noOverlap hP'.isBoundary.noOverlap
    hQ'.isBoundary.noOverlap (((hP.sameEdges.append hQ.sameEdges).trans hs).trans
      (hP'.sameEdges.append hQ'.sameEdges).symm).sameSegments C C' hx rfl
  exact ⟨h, events, h', events', ps2, _, _, e, e', g1, g2, rfl, c2.symm, rfl, c1.symm⟩

theorem boxDisjoint_comm {a b : Box} (ha : a.Nonempty) (hb : b.Nonempty) : disjointWith a b = disjointWith b a := by
  rw [Bool.eq_iff_iff, (disjointWith_iff a b ha hb).1, (disjointWith_iff b a hb ha).1]
  exact ⟨fun h q h1 h2 => h q h2 h1, fun h q h1 h2 => h q h2 h1⟩

theorem combined_comm {op : Bool → Bool → Bool} (hop : ∀ x y, op x y = op y x) (A B : List Segment) (q : Point) :
    Combined op A B q ↔ Combined op B A q := by
  unfold Combined
  rw [hop]

section sort

variable {β κ : Type} [LinearOrder κ] (key : β → κ)

theorem orderedInsert_comm {x y : β} (hxy : key x ≠ key y) (l : List β) :
    (l.orderedInsert (fun p q => key p ≤ key q) y).orderedInsert (fun p q => key p ≤ key q) x =
      (l.orderedInsert (fun p q => key p ≤ key q) x).orderedInsert (fun p q => key p ≤ key q) y := by
  induction l with
  | nil =>
    rcases lt_or_gt_of_ne hxy with h | h
    · simp [h.le, h.not_ge]
    · simp [h.le, h.not_ge]
  | cons z l ih =>
    by_cases h1 : key x ≤ key z <;> by_cases h2 : key y ≤ key z
    · rcases lt_or_gt_of_ne hxy with h | h
      · simp [h1, h2, h.le, h.not_ge]
      · simp [h1, h2, h.le, h.not_ge]
    · have : ¬ key y ≤ key x := fun h => h2 (h.trans h1)
      simp [h1, h2, this]
    · have : ¬ key x ≤ key y := fun h => h1 (h.trans h2)
      simp [h1, h2, this]
    · simp [h1, h2, ih]

theorem insertionSort_append_comm {l₁ l₂ : List β} (h : ∀ x ∈ l₁, ∀ y ∈ l₂, key x ≠ key y) :
    (l₁ ++ l₂).insertionSort (fun p q => key p ≤ key q) = (l₂ ++ l₁).insertionSort (fun p q => key p ≤ key q) := by
  induction l₂ with
  | nil => simp
  | cons y l₂ ih =>
    have ih := ih fun x hx z hz => h x hx z (by simp [hz])
    rw [List.cons_append, List.insertionSort_cons, ← ih]
    have : ∀ l₁ : List β, (∀ x ∈ l₁, key x ≠ key y) →
        (l₁ ++ y :: l₂).insertionSort (fun p q => key p ≤ key q) =
          ((l₁ ++ l₂).insertionSort (fun p q => key p ≤ key q)).orderedInsert (fun p q => key p ≤ key q) y := by
      intro l₁ hl
      induction l₁ with
      | nil => rfl
      | cons x l₁ ih' =>
        rw [List.cons_append, List.insertionSort_cons, ih' fun z hz => hl z (by simp [hz]),
          orderedInsert_comm key (hl x (by simp)), List.cons_append, List.insertionSort_cons]
    exact this l₁ fun x hx => h x hx y (by simp)

end sort

theorem first_vertex_mem {p : Polygon} (hp : ValidPolygon p) : firstBorderVertex p ∈ p.pts := by
  have h1 : firstBorderVertex p ∈ p.border.vertices := by
    unfold firstBorderVertex
    have := hp.border.ne_nil
    cases hv : p.border.vertices with
    | nil => exact absurd hv this
    | cons v vs => simp
  have h2 := hp.border.vertex_segs h1
  left
  rw [segsPts_append]
  exact Or.inl h2

variable {o : Orient} (ok : OrientOk o) {a b : ShapedOperand} (ha : ShapedOk a) (hb : ShapedOk b)

include ha hb

theorem sortPolygons_comm {ba bb : Box} (h1 : polygonsBox a.polygons = .ok ba) (h2 : polygonsBox b.polygons = .ok bb)
    (hd : disjointWith ba bb = true) :
    sortPolygons (a.polygons ++ b.polygons) = sortPolygons (b.polygons ++ a.polygons) := by
  unfold sortPolygons
  refine insertionSort_append_comm firstBorderVertex fun p hp q hq e => ?_
  obtain ⟨i₁, n₁⟩ := polygonsBox_spec ha.valid.valid h1
  obtain ⟨i₂, n₂⟩ := polygonsBox_spec hb.valid.valid h2
  have m1 := i₁ ⟨p, hp, first_vertex_mem (ha.valid.valid p hp)⟩
  have m2 := i₂ ⟨q, hq, first_vertex_mem (hb.valid.valid q hq)⟩
  rw [← e] at m2
  exact (disjointWith_iff ba bb n₁ n₂).1.1 hd _ m1 m2

theorem boxes_nonempty {ba bb : Box} (h1 : polygonsBox a.polygons = .ok ba) (h2 : polygonsBox b.polygons = .ok bb) :
    disjointWith bb ba = disjointWith ba bb :=
  boxDisjoint_comm (polygonsBox_spec hb.valid.valid h2).2 (polygonsBox_spec ha.valid.valid h1).2

theorem holeyUnion_comm (tb tb' : TieBreak) :
    holeyUnion tb a b = holeyUnion tb' b a := by
  obtain ⟨ba, bb, h1, h2⟩ := boxes_ok ha hb
  unfold holeyUnion
  rw [h1, h2]
  simp only [bind, Except.bind, pure, Except.pure, boxes_nonempty ha hb h1 h2]
  by_cases hd : disjointWith ba bb = true
  · rw [if_pos hd, if_pos hd, sortPolygons_comm ha hb h1 h2 hd]
  · rw [if_neg hd, if_neg hd]
    obtain ⟨h, events, h', events', ps, e, e', g, g'⟩ := holeySweep_twin unionRule_ok unionRule_for unionRule_ok unionRule_for
      tb tb' ha.valid hb.valid hb.valid ha.valid (stopOk_none _ _ _) (stopOk_none _ _ _) (SameEdges.of_perm List.perm_append_comm)
      (combined_comm (fun x y => Bool.or_comm x y) _ _)
    simp only [e, e', g, g']

theorem holeySymmetricDifference_comm (tb tb' : TieBreak) :
    holeySymmetricDifference tb a b = holeySymmetricDifference tb' b a := by
  obtain ⟨ba, bb, h1, h2⟩ := boxes_ok ha hb
  unfold holeySymmetricDifference
  rw [h1, h2]
  simp only [bind, Except.bind, pure, Except.pure, boxes_nonempty ha hb h1 h2]
  by_cases hd : disjointWith ba bb = true
  · rw [if_pos hd, if_pos hd, sortPolygons_comm ha hb h1 h2 hd]
  · rw [if_neg hd, if_neg hd]
    obtain ⟨h, events, h', events', ps, e, e', g, g'⟩ := holeySweep_twin symmetricDifferenceRule_ok symmetricDifferenceRule_for
      symmetricDifferenceRule_ok symmetricDifferenceRule_for
      tb tb' ha.valid hb.valid hb.valid ha.valid (stopOk_none _ _ _) (stopOk_none _ _ _) (SameEdges.of_perm List.perm_append_comm)
      (combined_comm (fun x y => Bool.xor_comm x y) _ _)
    simp only [e, e', g, g']

theorem holeyIntersection_comm (tb tb' : TieBreak) :
    holeyIntersection o tb a b = holeyIntersection o tb' b a := by
  obtain ⟨ba, bb, h1, h2⟩ := boxes_ok ha hb
  unfold holeyIntersection
  rw [h1, h2]
  simp only [bind, Except.bind, pure, Except.pure, boxes_nonempty ha hb h1 h2]
  by_cases hd : disjointWith ba bb = true
  · rw [if_pos hd, if_pos hd]
  rw [if_neg hd, if_neg hd]
  by_cases e1 : (toCoupledPolygons o bb a.polygons).isEmpty = true
  · simp only [e1, if_true, ite_self]
  by_cases e2 : (toCoupledPolygons o ba b.polygons).isEmpty = true
  · simp only [e2, if_true, ite_self]
  simp only [e1, e2, if_false, Bool.false_eq_true]
  have s1 := toCoupledPolygons_sub o bb a.polygons
  have s2 := toCoupledPolygons_sub o ba b.polygons
  have v1 := ha.valid.sublist s1
  have v2 := hb.valid.sublist s2
  obtain ⟨n₁, x₁, g₁⟩ := polygonsMaxX_spec v1.valid (isEmpty_false e1)
  obtain ⟨n₂, x₂, g₂⟩ := polygonsMaxX_spec v2.valid (isEmpty_false e2)
  obtain ⟨h, events, h', events', ps, e, e', g, g'⟩ := holeySweep_twin intersectionRule_ok intersectionRule_for
    intersectionRule_ok intersectionRule_for tb tb' v1 v2 v2 v1
    (stopOk_min (v1.edges_x g₁) (v2.edges_x g₂) (by simp) (by simp))
    (stopOk_min (v2.edges_x g₂) (v1.edges_x g₁) (by simp) (by simp)) (SameEdges.of_perm List.perm_append_comm)
    (combined_comm (fun x y => Bool.and_comm x y) _ _)
  simp only [x₁, x₂, e, e', g, g']

theorem holeyCompleteIntersection_comm (tb tb' : TieBreak) :
    holeyCompleteIntersection o tb a b = holeyCompleteIntersection o tb' b a := by
  obtain ⟨ba, bb, h1, h2⟩ := boxes_ok ha hb
  unfold holeyCompleteIntersection
  rw [h1, h2]
  simp only [bind, Except.bind, pure, Except.pure, boxes_nonempty ha hb h1 h2]
  by_cases hd : disjointWith ba bb = true
  · rw [if_pos hd, if_pos hd]
  rw [if_neg hd, if_neg hd]
  by_cases e1 : (toIntersectingPolygons o bb a.polygons).isEmpty = true
  · simp only [e1, if_true, ite_self]
  by_cases e2 : (toIntersectingPolygons o ba b.polygons).isEmpty = true
  · simp only [e2, if_true, ite_self]
  simp only [e1, e2, if_false, Bool.false_eq_true]
  have s1 : (toIntersectingPolygons o bb a.polygons).Sublist a.polygons := List.filter_sublist
  have s2 : (toIntersectingPolygons o ba b.polygons).Sublist b.polygons := List.filter_sublist
  have v1 := ha.valid.sublist s1
  have v2 := hb.valid.sublist s2
  obtain ⟨n₁, x₁, g₁⟩ := polygonsMaxX_spec v1.valid (isEmpty_false e1)
  obtain ⟨n₂, x₂, g₂⟩ := polygonsMaxX_spec v2.valid (isEmpty_false e2)
  obtain ⟨h, events, h', events', ps, points, segments, e, e', g, g', t, t', c, c'⟩ := holeyComplete_twin tb tb' v1 v2 v2 v1
    (stopOk_min (v1.edges_x g₁) (v2.edges_x g₂) (by simp) (by simp))
    (stopOk_min (v2.edges_x g₂) (v1.edges_x g₁) (by simp) (by simp)) (SameEdges.of_perm List.perm_append_comm)
    (combined_comm (fun x y => Bool.and_comm x y) _ _) (Set.inter_comm _ _)
  simp only [x₁, x₂, e, e', g, g', t, t', c, c']

theorem holeyDifference_eq (tb tb' : TieBreak) :
    holeyDifference o tb a b = holeyDifference o tb' a b := by
  obtain ⟨ba, bb, h1, h2⟩ := boxes_ok ha hb
  unfold holeyDifference
  rw [h1, h2]
  simp only [bind, Except.bind, pure, Except.pure]
  by_cases hd : disjointWith ba bb = true
  · rw [if_pos hd, if_pos hd]
  rw [if_neg hd, if_neg hd]
  by_cases e2 : (toCoupledPolygons o ba b.polygons).isEmpty = true
  · rw [if_pos e2, if_pos e2]
  rw [if_neg e2, if_neg e2]
  have s2 := toCoupledPolygons_sub o ba b.polygons
  have v2 := hb.valid.sublist s2
  obtain ⟨n₁, x₁, g₁⟩ := polygonsMaxX_spec ha.valid.valid ha.ne
  have st := stopOk_first (op := fun a b => a && !b) (B := (toCoupledPolygons o ba b.polygons).flatMap polygonEdges)
    (ha.valid.edges_x g₁) (by simp)
  obtain ⟨h, events, h', events', ps, e, e', g, g'⟩ := holeySweep_twin differenceRule_ok differenceRule_for
    differenceRule_ok differenceRule_for tb tb' ha.valid v2 ha.valid v2 st st (SameEdges.of_perm (List.Perm.refl _))
    (fun _ => Iff.rfl)
  simp only [x₁, e, e', g, g']

end Clipping

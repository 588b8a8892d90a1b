import Verif.Spec.Fold
import Verif.Properties.Chains

/-!
# C68: many operands

Putting many operands together one after the other, or in pairs, is right in any order.
-/

namespace Clipping

theorem allEdges_cons (a : List Polygon) (l : List (List Polygon)) : allEdges (a :: l) = a.flatMap Polygon.edges ++ allEdges l := rfl

theorem allEdges_append (l l' : List (List Polygon)) : allEdges (l ++ l') = allEdges l ++ allEdges l' := List.flatMap_append

theorem allEdges_proper {l : List (List Polygon)} (h : ∀ a ∈ l, ValidPolygons a) : ∀ s ∈ allEdges l, s.Proper := by
  intro s hs
  obtain ⟨a, ha, hs⟩ := List.mem_flatMap.1 hs
  exact (h a ha).noOverlap.1 s hs

theorem allEdges_perm {l l' : List (List Polygon)} (h : l.Perm l') : segsPts (allEdges l) = segsPts (allEdges l') :=
  segsPts_perm (h.flatMap_right _)

/-- Drawings with the same region have the same contour points and the same area. -/
theorem Drawn.same {ps qs : List Polygon} {X : List Segment} (dp : Drawn ps) (dq : Drawn qs) (hX : ∀ s ∈ X, s.Proper)
    (h : ∀ q, q ∉ segsPts X → (Inside (ps.flatMap Polygon.edges) q ↔ Inside (qs.flatMap Polygon.edges) q)) :
    segsPts (ps.flatMap Polygon.edges) = segsPts (qs.flatMap Polygon.edges) ∧
    regionPts (ps.flatMap Polygon.edges) = regionPts (qs.flatMap Polygon.edges) ∧ polysArea ps = polysArea qs := by
  refine ⟨Set.Subset.antisymm ?_ ?_, ?_, ?_⟩
  · exact segsPts_sub_of_inside dp.noOverlap dp.even dq.noOverlap dq.even hX h
  · exact segsPts_sub_of_inside dq.noOverlap dq.even dp.noOverlap dp.even hX fun q hq => (h q hq).symm
  · exact regionPts_eq_of_inside dp.noOverlap dp.even dq.noOverlap dq.even hX h
  · exact le_antisymm (dp.area_le dq h) (dq.area_le dp fun q hq => (h q hq).symm)

section

variable {o : Orient} (ok : OrientOk o) (tb : TieBreak)

include ok

/-- one step -/
theorem Operation.step {k : Operation} {a b : List Polygon} (da : Drawn a) (db : Drawn b) (hd : k.Demands a b) :
    ∃ g, k.call o tb a b = .ok g ∧ Drawn g.polygons ∧
      segsPts (g.polygons.flatMap Polygon.edges) ⊆ segsPts (a.flatMap Polygon.edges ++ b.flatMap Polygon.edges) ∧
      ∀ q, q ∉ segsPts (a.flatMap Polygon.edges ++ b.flatMap Polygon.edges) →
        (Inside (g.polygons.flatMap Polygon.edges) q ↔ Combined k.holds (a.flatMap Polygon.edges) (b.flatMap Polygon.edges) q) := by
  obtain ⟨g, h, O⟩ := Operation.call_drawn ok tb k da db hd
  exact ⟨g, h, O.drawn, O.within, O.inside⟩

theorem union_fold_drawn {a : List Polygon} (da : Drawn a) {l : List (List Polygon)} (hl : ∀ b ∈ l, ValidPolygons b) :
    ∃ r, Operation.union.fold o tb a l = .ok r ∧ Drawn r ∧ segsPts (r.flatMap Polygon.edges) ⊆ segsPts (allEdges (a :: l)) ∧
      ∀ q, q ∉ segsPts (allEdges (a :: l)) →
        (Inside (r.flatMap Polygon.edges) q ↔ Inside (a.flatMap Polygon.edges) q ∨ ∃ b ∈ l, q ∈ polysPts b) := by
  induction l generalizing a with
  | nil => exact ⟨a, rfl, da, by simp [allEdges], fun q _ => by simp⟩
  | cons b l ih =>
    obtain ⟨g, h1, h2, h3, h4⟩ := Operation.step ok tb (k := .union) da (hl b (by simp)).drawn trivial
    obtain ⟨r, e, d, w, i⟩ := ih h2 fun b hb => hl b (by simp [hb])
    have sub : segsPts (allEdges (g.polygons :: l)) ⊆ segsPts (allEdges (a :: b :: l)) := by
      rw [allEdges_cons, allEdges_cons, allEdges_cons, ← List.append_assoc]
      exact segsPts_append_sub h3 subset_rfl
    refine ⟨r, ?_, d, w.trans sub, fun q hq => ?_⟩
    · unfold Operation.fold
      rw [h1]; exact e
    · have hq' : q ∉ segsPts (a.flatMap Polygon.edges ++ b.flatMap Polygon.edges) := by
        rw [allEdges_cons, allEdges_cons, ← List.append_assoc] at hq
        exact (off_append hq).1
      rw [i q fun hh => hq (sub hh), h4 q hq', show Operation.union.holds = fun a b => a || b from rfl, combined_or,
        ← (hl b (by simp)).mem_off (off_append hq').2]
      simp only [List.mem_cons, exists_eq_or_imp, or_assoc]

theorem difference_fold_drawn {a : List Polygon} (da : Drawn a) {l : List (List Polygon)} (hl : ∀ b ∈ l, ValidPolygons b) :
    ∃ r, Operation.difference.fold o tb a l = .ok r ∧ Drawn r ∧ segsPts (r.flatMap Polygon.edges) ⊆ segsPts (allEdges (a :: l)) ∧
      ∀ q, q ∉ segsPts (allEdges (a :: l)) →
        (Inside (r.flatMap Polygon.edges) q ↔ Inside (a.flatMap Polygon.edges) q ∧ ∀ b ∈ l, q ∉ polysPts b) := by
  induction l generalizing a with
  | nil => exact ⟨a, rfl, da, by simp [allEdges], fun q _ => by simp⟩
  | cons b l ih =>
    obtain ⟨g, h1, h2, h3, h4⟩ := Operation.step ok tb (k := .difference) da (hl b (by simp)).drawn (hl b (by simp))
    obtain ⟨r, e, d, w, i⟩ := ih h2 fun b hb => hl b (by simp [hb])
    have sub : segsPts (allEdges (g.polygons :: l)) ⊆ segsPts (allEdges (a :: b :: l)) := by
      rw [allEdges_cons, allEdges_cons, allEdges_cons, ← List.append_assoc]
      exact segsPts_append_sub h3 subset_rfl
    refine ⟨r, ?_, d, w.trans sub, fun q hq => ?_⟩
    · unfold Operation.fold
      rw [h1]; exact e
    · have hq' : q ∉ segsPts (a.flatMap Polygon.edges ++ b.flatMap Polygon.edges) := by
        rw [allEdges_cons, allEdges_cons, ← List.append_assoc] at hq
        exact (off_append hq).1
      rw [i q fun hh => hq (sub hh), h4 q hq', show Operation.difference.holds = fun a b => a && !b from rfl, combined_diff,
        ← (hl b (by simp)).mem_off (off_append hq').2]
      simp only [List.mem_cons, forall_eq_or_imp, and_assoc]

open Classical in
theorem symmetricDifference_fold_drawn {a : List Polygon} (da : Drawn a) {l : List (List Polygon)} (hl : ∀ b ∈ l, ValidPolygons b) :
    ∃ r, Operation.symmetricDifference.fold o tb a l = .ok r ∧ Drawn r ∧ segsPts (r.flatMap Polygon.edges) ⊆ segsPts (allEdges (a :: l)) ∧
      ∀ q, q ∉ segsPts (allEdges (a :: l)) →
        (Inside (r.flatMap Polygon.edges) q ↔ (Inside (a.flatMap Polygon.edges) q ↔ Even (l.countP fun b => decide (q ∈ polysPts b)))) := by
  induction l generalizing a with
  | nil => exact ⟨a, rfl, da, by simp [allEdges], fun q _ => by simp⟩
  | cons b l ih =>
    obtain ⟨g, h1, h2, h3, h4⟩ := Operation.step ok tb (k := .symmetricDifference) da (hl b (by simp)).drawn trivial
    obtain ⟨r, e, d, w, i⟩ := ih h2 fun b hb => hl b (by simp [hb])
    have sub : segsPts (allEdges (g.polygons :: l)) ⊆ segsPts (allEdges (a :: b :: l)) := by
      rw [allEdges_cons, allEdges_cons, allEdges_cons, ← List.append_assoc]
      exact segsPts_append_sub h3 subset_rfl
    refine ⟨r, ?_, d, w.trans sub, fun q hq => ?_⟩
    · unfold Operation.fold
      rw [h1]; exact e
    · have hq' : q ∉ segsPts (a.flatMap Polygon.edges ++ b.flatMap Polygon.edges) := by
        rw [allEdges_cons, allEdges_cons, ← List.append_assoc] at hq
        exact (off_append hq).1
      rw [i q fun hh => hq (sub hh), h4 q hq', show Operation.symmetricDifference.holds = xor from rfl, combined_xor,
        ← (hl b (by simp)).mem_off (off_append hq').2]
      by_cases hb : q ∈ polysPts b
      · rw [List.countP_cons_of_pos (by simpa using hb), Nat.even_add_one]
        simp only [hb, not_true]
        tauto
      · rw [List.countP_cons_of_neg (by simpa using hb)]
        simp [hb]

/-- **C68** Uniting any number of valid operands one after the other never fails and gives the union: its contours lie on the edges of the operands, and
a point off these edges is inside exactly if it is in one of the operands. -/
theorem union_fold {a : List Polygon} (va : ValidPolygons a) {l : List (List Polygon)} (hl : ∀ b ∈ l, ValidPolygons b) :
    ∃ r, Operation.union.fold o tb a l = .ok r ∧ Drawn r ∧ segsPts (r.flatMap Polygon.edges) ⊆ segsPts (allEdges (a :: l)) ∧
      ∀ q, q ∉ segsPts (allEdges (a :: l)) → (Inside (r.flatMap Polygon.edges) q ↔ ∃ b ∈ a :: l, q ∈ polysPts b) := by
  obtain ⟨r, e, d, w, i⟩ := union_fold_drawn ok tb va.drawn hl
  refine ⟨r, e, d, w, fun q hq => ?_⟩
  rw [i q hq, ← va.mem_off (by rw [allEdges_cons] at hq; exact (off_append hq).1)]
  simp only [List.mem_cons, exists_eq_or_imp]

/-- **C68** Subtracting any number of valid operands one after the other never fails and gives the points of the first which are in none of the others. -/
theorem difference_fold {a : List Polygon} (va : ValidPolygons a) {l : List (List Polygon)} (hl : ∀ b ∈ l, ValidPolygons b) :
    ∃ r, Operation.difference.fold o tb a l = .ok r ∧ Drawn r ∧ segsPts (r.flatMap Polygon.edges) ⊆ segsPts (allEdges (a :: l)) ∧
      ∀ q, q ∉ segsPts (allEdges (a :: l)) → (Inside (r.flatMap Polygon.edges) q ↔ q ∈ polysPts a ∧ ∀ b ∈ l, q ∉ polysPts b) := by
  obtain ⟨r, e, d, w, i⟩ := difference_fold_drawn ok tb va.drawn hl
  refine ⟨r, e, d, w, fun q hq => ?_⟩
  rw [i q hq, ← va.mem_off (by rw [allEdges_cons] at hq; exact (off_append hq).1)]

open Classical in
/-- **C68** The symmetric difference of any number of valid operands, one after the other, never fails and has the points which are in an odd number of
operands. -/
theorem symmetricDifference_fold {a : List Polygon} (va : ValidPolygons a) {l : List (List Polygon)} (hl : ∀ b ∈ l, ValidPolygons b) :
    ∃ r, Operation.symmetricDifference.fold o tb a l = .ok r ∧ Drawn r ∧ segsPts (r.flatMap Polygon.edges) ⊆ segsPts (allEdges (a :: l)) ∧
      ∀ q, q ∉ segsPts (allEdges (a :: l)) →
        (Inside (r.flatMap Polygon.edges) q ↔ Odd ((a :: l).countP fun b => decide (q ∈ polysPts b))) := by
  obtain ⟨r, e, d, w, i⟩ := symmetricDifference_fold_drawn ok tb va.drawn hl
  refine ⟨r, e, d, w, fun q hq => ?_⟩
  rw [i q hq, ← va.mem_off (by rw [allEdges_cons] at hq; exact (off_append hq).1)]
  by_cases ha : q ∈ polysPts a
  · rw [List.countP_cons_of_pos (by simpa using ha), Nat.odd_add_one, Nat.not_odd_iff_even]
    simp [ha]
  · rw [List.countP_cons_of_neg (by simpa using ha), ← Nat.not_even_iff_odd]
    simp [ha]

/-- **C68** The order of the operands of a union does not matter, nor do the tie-breaking and the point location: the contours have the same points and
surround the same points, and the areas are the same. -/
theorem union_fold_perm {o' : Orient} (ok' : OrientOk o') (tb' : TieBreak) {a a' : List Polygon} {l l' : List (List Polygon)}
    (hp : (a :: l).Perm (a' :: l')) (hl : ∀ b ∈ a :: l, ValidPolygons b) {r r' : List Polygon} (h : Operation.union.fold o tb a l = .ok r)
    (h' : Operation.union.fold o' tb' a' l' = .ok r') :
    segsPts (r.flatMap Polygon.edges) = segsPts (r'.flatMap Polygon.edges) ∧
    regionPts (r.flatMap Polygon.edges) = regionPts (r'.flatMap Polygon.edges) ∧ polysArea r = polysArea r' := by
  have hl' : ∀ b ∈ a' :: l', ValidPolygons b := fun b hb => hl b (hp.mem_iff.2 hb)
  obtain ⟨r1, e1, d1, -, i1⟩ := union_fold ok tb (hl a (by simp)) fun b hb => hl b (List.mem_cons_of_mem _ hb)
  obtain ⟨r2, e2, d2, -, i2⟩ := union_fold ok' tb' (hl' a' (by simp)) fun b hb => hl' b (List.mem_cons_of_mem _ hb)
  obtain rfl := Except.ok.inj (e1.symm.trans h)
  obtain rfl := Except.ok.inj (e2.symm.trans h')
  refine d1.same d2 (allEdges_proper hl) fun q hq => ?_
  rw [i1 q hq, i2 q (by rw [← allEdges_perm hp]; exact hq)]
  simp only [hp.mem_iff]

/-- **C68** The order of the subtrahends does not matter. -/
theorem difference_fold_perm {o' : Orient} (ok' : OrientOk o') (tb' : TieBreak) {a : List Polygon} {l l' : List (List Polygon)}
    (hp : l.Perm l') (va : ValidPolygons a) (hl : ∀ b ∈ l, ValidPolygons b) {r r' : List Polygon} (h : Operation.difference.fold o tb a l = .ok r)
    (h' : Operation.difference.fold o' tb' a l' = .ok r') :
    segsPts (r.flatMap Polygon.edges) = segsPts (r'.flatMap Polygon.edges) ∧
    regionPts (r.flatMap Polygon.edges) = regionPts (r'.flatMap Polygon.edges) ∧ polysArea r = polysArea r' := by
  obtain ⟨r1, e1, d1, -, i1⟩ := difference_fold ok tb va hl
  obtain ⟨r2, e2, d2, -, i2⟩ := difference_fold ok' tb' va fun b hb => hl b (hp.mem_iff.2 hb)
  obtain rfl := Except.ok.inj (e1.symm.trans h)
  obtain rfl := Except.ok.inj (e2.symm.trans h')
  refine d1.same d2 (X := allEdges (a :: l)) (allEdges_proper fun b hb => ?_) fun q hq => ?_
  · rcases List.mem_cons.1 hb with rfl | hb
    · exact va
    · exact hl b hb
  rw [i1 q hq, i2 q (by rw [← allEdges_perm (hp.cons a)]; exact hq)]
  simp only [hp.mem_iff]

/-- **C68** The order of the operands of a symmetric difference does not matter. -/
theorem symmetricDifference_fold_perm {o' : Orient} (ok' : OrientOk o') (tb' : TieBreak) {a a' : List Polygon} {l l' : List (List Polygon)}
    (hp : (a :: l).Perm (a' :: l')) (hl : ∀ b ∈ a :: l, ValidPolygons b) {r r' : List Polygon}
    (h : Operation.symmetricDifference.fold o tb a l = .ok r) (h' : Operation.symmetricDifference.fold o' tb' a' l' = .ok r') :
    segsPts (r.flatMap Polygon.edges) = segsPts (r'.flatMap Polygon.edges) ∧
    regionPts (r.flatMap Polygon.edges) = regionPts (r'.flatMap Polygon.edges) ∧ polysArea r = polysArea r' := by
  have hl' : ∀ b ∈ a' :: l', ValidPolygons b := fun b hb => hl b (hp.mem_iff.2 hb)
  obtain ⟨r1, e1, d1, -, i1⟩ := symmetricDifference_fold ok tb (hl a (by simp)) fun b hb => hl b (List.mem_cons_of_mem _ hb)
  obtain ⟨r2, e2, d2, -, i2⟩ := symmetricDifference_fold ok' tb' (hl' a' (by simp)) fun b hb => hl' b (List.mem_cons_of_mem _ hb)
  obtain rfl := Except.ok.inj (e1.symm.trans h)
  obtain rfl := Except.ok.inj (e2.symm.trans h')
  refine d1.same d2 (allEdges_proper hl) fun q hq => ?_
  rw [i1 q hq, i2 q (by rw [← allEdges_perm hp]; exact hq), hp.countP_eq]

theorem union_tree_drawn (t : Grouping) (ht : ∀ a ∈ t.leaves, ValidPolygons a) :
    ∃ r, Operation.union.tree o tb t = .ok r ∧ Drawn r ∧ segsPts (r.flatMap Polygon.edges) ⊆ segsPts (allEdges t.leaves) ∧
      ∀ q, q ∉ segsPts (allEdges t.leaves) → (Inside (r.flatMap Polygon.edges) q ↔ ∃ a ∈ t.leaves, q ∈ polysPts a) := by
  induction t with
  | leaf a =>
    have va := ht a (by simp [Grouping.leaves])
    refine ⟨a, rfl, va.drawn, by simp [allEdges, Grouping.leaves], fun q hq => ?_⟩
    rw [← va.mem_off (by simpa [allEdges, Grouping.leaves] using hq)]
    simp [Grouping.leaves]
  | node x y ihx ihy =>
    obtain ⟨r1, e1, d1, w1, i1⟩ := ihx fun a ha => ht a (by simp [Grouping.leaves, ha])
    obtain ⟨r2, e2, d2, w2, i2⟩ := ihy fun a ha => ht a (by simp [Grouping.leaves, ha])
    obtain ⟨g, h1, h2, h3, h4⟩ := Operation.step ok tb (k := .union) d1 d2 trivial
    have sub := segsPts_append_sub w1 w2
    refine ⟨g.polygons, ?_, h2, ?_, fun q hq => ?_⟩
    · unfold Operation.tree
      simp only [e1, e2, h1, bind, Except.bind, pure, Except.pure]
    · rw [Grouping.leaves, allEdges_append]; exact h3.trans sub
    · rw [Grouping.leaves, allEdges_append] at hq
      rw [h4 q fun hh => hq (sub hh), show Operation.union.holds = fun a b => a || b from rfl, combined_or, i1 q (off_append hq).1,
        i2 q (off_append hq).2]
      simp only [Grouping.leaves, List.mem_append, or_and_right, exists_or]

/-- **C68** Uniting operands in pairs, in a tree of any shape, never fails and gives what uniting them one after the other gives. -/
theorem union_tree (t : Grouping) (ht : ∀ a ∈ t.leaves, ValidPolygons a) {a : List Polygon} {l : List (List Polygon)} (hp : t.leaves.Perm (a :: l)) :
    ∃ r r', Operation.union.tree o tb t = .ok r ∧ Operation.union.fold o tb a l = .ok r' ∧ Drawn r ∧
      segsPts (r.flatMap Polygon.edges) = segsPts (r'.flatMap Polygon.edges) ∧
      regionPts (r.flatMap Polygon.edges) = regionPts (r'.flatMap Polygon.edges) ∧ polysArea r = polysArea r' := by
  have hl' : ∀ b ∈ a :: l, ValidPolygons b := fun b hb => ht b (hp.mem_iff.2 hb)
  obtain ⟨r1, e1, d1, -, i1⟩ := union_tree_drawn ok tb t ht
  obtain ⟨r2, e2, d2, -, i2⟩ := union_fold ok tb (hl' a (by simp)) fun b hb => hl' b (List.mem_cons_of_mem _ hb)
  refine ⟨r1, r2, e1, e2, d1, d1.same d2 (allEdges_proper ht) fun q hq => ?_⟩
  rw [i1 q hq, i2 q (by rw [← allEdges_perm hp]; exact hq)]
  simp only [hp.mem_iff]

end

/-- Two triangles and one triangle, in whichever order they are united, one after the other or in pairs: never a failure and the same area. -/
example {o : Orient} (ok : OrientOk o) (tb : TieBreak) : ∃ r r' r'', Operation.union.fold o tb [exTriangle] [exTriangles, [exProbe]] = .ok r ∧
    Operation.union.fold o tb [exProbe] [[exTriangle], exTriangles] = .ok r' ∧
    Operation.union.tree o tb (.node (.leaf exTriangles) (.node (.leaf [exProbe]) (.leaf [exTriangle]))) = .ok r'' ∧ polysArea r = polysArea r' ∧
    polysArea r'' = polysArea r := by
  have h1 := exTriangle_valid.validPolygons
  have h2 := exTriangles_valid
  have h3 := exProbe_valid.validPolygons
  have hl : ∀ b ∈ [exTriangles, [exProbe]], ValidPolygons b := by simp [h2, h3]
  have hl' : ∀ b ∈ [[exTriangle], exTriangles], ValidPolygons b := by simp [h1, h2]
  obtain ⟨r, e, -⟩ := union_fold ok tb h1 hl
  obtain ⟨r', e', -⟩ := union_fold ok tb h3 hl'
  have ht : [exTriangles, [exProbe], [exTriangle]].Perm [[exTriangle], exTriangles, [exProbe]] :=
    List.perm_append_comm (l₁ := [exTriangles, [exProbe]]) (l₂ := [[exTriangle]])
  obtain ⟨r'', s, e1, e2, -, -, -, e3⟩ := union_tree ok tb (.node (.leaf exTriangles) (.node (.leaf [exProbe]) (.leaf [exTriangle])))
    (by simp [Grouping.leaves, h1, h2, h3]) ht
  obtain rfl := Except.ok.inj (e.symm.trans e2)
  refine ⟨r, r', r'', e, e', e1, ?_, e3⟩
  have hp : [[exTriangle], exTriangles, [exProbe]].Perm [[exProbe], [exTriangle], exTriangles] :=
    List.perm_append_comm (l₁ := [[exTriangle], exTriangles]) (l₂ := [[exProbe]])
  exact (union_fold_perm ok tb ok tb hp (by simp [h1, h2, h3]) e e').2.2

/-- Subtracting the two triangles and the third one, in both orders. -/
example {o : Orient} (ok : OrientOk o) (tb : TieBreak) : ∃ r r', Operation.difference.fold o tb [exTriangle] [exTriangles, [exProbe]] = .ok r ∧
    Operation.difference.fold o tb [exTriangle] [[exProbe], exTriangles] = .ok r' ∧ polysArea r = polysArea r' := by
  have h1 := exTriangle_valid.validPolygons
  have hl : ∀ b ∈ [exTriangles, [exProbe]], ValidPolygons b := by simp [exTriangles_valid, exProbe_valid.validPolygons]
  have hl' : ∀ b ∈ [[exProbe], exTriangles], ValidPolygons b := by simp [exTriangles_valid, exProbe_valid.validPolygons]
  obtain ⟨r, e, -⟩ := difference_fold ok tb h1 hl
  obtain ⟨r', e', -⟩ := difference_fold ok tb h1 hl'
  exact ⟨r, r', e, e', (difference_fold_perm ok tb ok tb (List.Perm.swap _ _ _) h1 hl e e').2.2⟩

/-- The symmetric difference of the same operands in two orders. The first intermediate result has a hole at the wrong polygon. -/
example {o : Orient} (ok : OrientOk o) : ∃ r r', Operation.symmetricDifference.fold o TieBreak.id [exTriangle] [exTriangles, [exProbe]] = .ok r ∧
    Operation.symmetricDifference.fold o TieBreak.id [exProbe] [[exTriangle], exTriangles] = .ok r' ∧ polysArea r = polysArea r' := by
  have h1 := exTriangle_valid.validPolygons
  have h2 := exTriangles_valid
  have h3 := exProbe_valid.validPolygons
  have hl : ∀ b ∈ [exTriangles, [exProbe]], ValidPolygons b := by simp [h2, h3]
  have hl' : ∀ b ∈ [[exTriangle], exTriangles], ValidPolygons b := by simp [h1, h2]
  obtain ⟨r, e, -⟩ := symmetricDifference_fold ok TieBreak.id h1 hl
  obtain ⟨r', e', -⟩ := symmetricDifference_fold ok TieBreak.id h3 hl'
  have hp : [[exTriangle], exTriangles, [exProbe]].Perm [[exProbe], [exTriangle], exTriangles] :=
    List.perm_append_comm (l₁ := [[exTriangle], exTriangles]) (l₂ := [[exProbe]])
  exact ⟨r, r', e, e', (symmetricDifference_fold_perm ok TieBreak.id ok TieBreak.id hp (by simp [h1, h2, h3]) e e').2.2⟩

end Clipping

import Verif.Lemmas.Length.Laws
import Verif.Properties.LinearLaws

/-!
# C64: lengths of results add up

Lengths are Euclidean ones, or any others which are proportional in every direction (`Spec/Length.lean`).
-/

namespace Clipping

open Classical

section

variable (N : Length) {o : Orient} (ok : OrientOk o) {tb : TieBreak} {v : ℕ → List Segment} {w : ℕ → List Polygon}
  (hv : ∀ i, ValidSegments (v i)) (hw : ∀ j, ValidPolygons (w j))

include ok hv hw

/-- **C64** Whatever holds for sums of truth values holds for lengths: if combinations of operands, with weights, never add up to something
negative in a point, then the lengths of the results do not. -/
theorem linearExpression_length {F : List (ℝ × LinearExpression × List Segment)} (hF : ∀ t ∈ F, t.2.1.Yields o tb v w t.2.2)
    (h : ∀ p q : ℕ → Bool, 0 ≤ (F.map fun t => t.1 * if t.2.1.holds p q then 1 else 0).sum) :
    0 ≤ (F.map fun t => t.1 * N.total t.2.2).sum := by
  refine linearExpression_valuation N ok hv hw hF fun p q => ?_
  convert h p q

/-- **C64** The same for equations. -/
theorem linearExpression_length_eq {F : List (ℝ × LinearExpression × List Segment)} (hF : ∀ t ∈ F, t.2.1.Yields o tb v w t.2.2)
    (h : ∀ p q : ℕ → Bool, (F.map fun t => t.1 * if t.2.1.holds p q then 1 else 0).sum = 0) :
    (F.map fun t => t.1 * N.total t.2.2).sum = 0 := by
  refine linearExpression_valuation_eq N ok hv hw hF fun p q => ?_
  convert h p q

end

section

variable (N : Length) {o : Orient} (ok : OrientOk o) {tb : TieBreak} {a b : List Segment} {P : List Polygon} (va : ValidSegments a)
  (vb : ValidSegments b) (vP : ValidPolygons P)

include va vb in
/-- **C64** The lengths of union and intersection add up to the lengths of the operands. -/
theorem length_union_intersection {g1 g2 : Geometry} (h1 : Operation.union.linearCall tb a b = .ok g1)
    (safe : Operation.intersection.Safe a b) (h2 : Operation.intersection.linearCall tb a b = .ok g2) :
    N.total g1.linearSegments + N.total g2.linearSegments = N.total a + N.total b := by
  obtain ⟨o, ok⟩ := exists_orient
  have := linearExpression_length_eq N ok (tb := tb) (w := fun _ => []) (linearOperands_valid va vb vb) (fun _ => validPolygons_nil)
    (F := [(1, .apply .union (.operand 0) (.operand 1), g1.linearSegments),
      (1, .apply .intersection (.operand 0) (.operand 1), g2.linearSegments), (-1, .operand 0, a), (-1, .operand 1, b)]) (by
        simp only [List.mem_cons, List.not_mem_nil, or_false]
        rintro t (rfl | rfl | rfl | rfl)
        · exact .apply .union (.operand 0) (.operand 1) trivial h1
        · exact .apply .intersection (.operand 0) (.operand 1) safe h2
        · exact .operand 0
        · exact .operand 1) fun w q => by
          simp only [List.map_cons, List.map_nil, List.sum_cons, List.sum_nil, LinearExpression.holds, Operation.holds]
          rcases Bool.eq_false_or_eq_true (w 0) with p | p <;> rcases Bool.eq_false_or_eq_true (w 1) with q | q <;> norm_num [p, q]
  simp only [List.map_cons, List.map_nil, List.sum_cons, List.sum_nil] at this
  linarith

include va vb in
/-- **C64** The lengths of difference and intersection add up to the length of the operand. -/
theorem length_difference_intersection {g1 g2 : Geometry} (safe : Operation.difference.Safe a b)
    (h1 : Operation.difference.linearCall tb a b = .ok g1) (safe' : Operation.intersection.Safe a b)
    (h2 : Operation.intersection.linearCall tb a b = .ok g2) :
    N.total g1.linearSegments + N.total g2.linearSegments = N.total a := by
  obtain ⟨o, ok⟩ := exists_orient
  have := linearExpression_length_eq N ok (tb := tb) (w := fun _ => []) (linearOperands_valid va vb vb) (fun _ => validPolygons_nil)
    (F := [(1, .apply .difference (.operand 0) (.operand 1), g1.linearSegments),
      (1, .apply .intersection (.operand 0) (.operand 1), g2.linearSegments), (-1, .operand 0, a)]) (by
        simp only [List.mem_cons, List.not_mem_nil, or_false]
        rintro t (rfl | rfl | rfl)
        · exact .apply .difference (.operand 0) (.operand 1) safe h1
        · exact .apply .intersection (.operand 0) (.operand 1) safe' h2
        · exact .operand 0) fun w q => by
          simp only [List.map_cons, List.map_nil, List.sum_cons, List.sum_nil, LinearExpression.holds, Operation.holds]
          rcases Bool.eq_false_or_eq_true (w 0) with p | p <;> rcases Bool.eq_false_or_eq_true (w 1) with q | q <;> norm_num [p, q]
  simp only [List.map_cons, List.map_nil, List.sum_cons, List.sum_nil] at this
  linarith

include va vb in
/-- **C64** Twice the length of the union is the length of the symmetric difference and of both operands. -/
theorem length_union_symmetricDifference {g1 g2 : Geometry} (h1 : Operation.union.linearCall tb a b = .ok g1)
    (h2 : Operation.symmetricDifference.linearCall tb a b = .ok g2) :
    2 * N.total g1.linearSegments = N.total g2.linearSegments + N.total a + N.total b := by
  obtain ⟨o, ok⟩ := exists_orient
  have := linearExpression_length_eq N ok (tb := tb) (w := fun _ => []) (linearOperands_valid va vb vb) (fun _ => validPolygons_nil)
    (F := [(2, .apply .union (.operand 0) (.operand 1), g1.linearSegments),
      (-1, .apply .symmetricDifference (.operand 0) (.operand 1), g2.linearSegments), (-1, .operand 0, a), (-1, .operand 1, b)]) (by
        simp only [List.mem_cons, List.not_mem_nil, or_false]
        rintro t (rfl | rfl | rfl | rfl)
        · exact .apply .union (.operand 0) (.operand 1) trivial h1
        · exact .apply .symmetricDifference (.operand 0) (.operand 1) trivial h2
        · exact .operand 0
        · exact .operand 1) fun w q => by
          simp only [List.map_cons, List.map_nil, List.sum_cons, List.sum_nil, LinearExpression.holds, Operation.holds]
          rcases Bool.eq_false_or_eq_true (w 0) with p | p <;> rcases Bool.eq_false_or_eq_true (w 1) with q | q <;> norm_num [p, q]
  simp only [List.map_cons, List.map_nil, List.sum_cons, List.sum_nil] at this
  linarith

include va vb in
/-- **C64** The union is not longer than both operands together, and not shorter than each of them. -/
theorem length_union {g1 : Geometry} (h1 : Operation.union.linearCall tb a b = .ok g1) :
    N.total g1.linearSegments ≤ N.total a + N.total b ∧ N.total a ≤ N.total g1.linearSegments ∧
      N.total b ≤ N.total g1.linearSegments := by
  obtain ⟨o, ok⟩ := exists_orient
  have key : ∀ c1 c2 c3 : ℝ, (0 ≤ c1 + c2 + c3) → 0 ≤ c1 + c2 → 0 ≤ c1 + c3 →
      0 ≤ c1 * N.total g1.linearSegments + c2 * N.total a + c3 * N.total b := by
    intro c1 c2 c3 k1 k2 k3
    have := linearExpression_length N ok (tb := tb) (w := fun _ => []) (linearOperands_valid va vb vb) (fun _ => validPolygons_nil)
      (F := [(c1, .apply .union (.operand 0) (.operand 1), g1.linearSegments), (c2, .operand 0, a), (c3, .operand 1, b)]) (by
        simp only [List.mem_cons, List.not_mem_nil, or_false]
        rintro t (rfl | rfl | rfl)
        · exact .apply .union (.operand 0) (.operand 1) trivial h1
        · exact .operand 0
        · exact .operand 1) fun w q => by
          simp only [List.map_cons, List.map_nil, List.sum_cons, List.sum_nil, LinearExpression.holds, Operation.holds]
          rcases Bool.eq_false_or_eq_true (w 0) with p | p <;> rcases Bool.eq_false_or_eq_true (w 1) with q | q <;> simp [p, q] <;> linarith
    simp only [List.map_cons, List.map_nil, List.sum_cons, List.sum_nil] at this
    linarith
  have k1 := key (-1) 1 1 (by norm_num) (by norm_num) (by norm_num)
  have k2 := key 1 (-1) 0 (by norm_num) (by norm_num) (by norm_num)
  have k3 := key 1 0 (-1) (by norm_num) (by norm_num) (by norm_num)
  exact ⟨by linarith, by linarith, by linarith⟩

include ok va vP in
/-- **C64** The lengths of the parts of segments in polygons and outside of them add up to the length of the segments. -/
theorem length_within_outside {g1 g2 : Geometry} (h1 : withinCall o tb a P = .ok g1)
    (safe : ∀ p ∈ P, ∀ c ∈ p.holes, (segsPts a ∩ segsPts c.edges).Finite) (h2 : outsideCall o tb a P = .ok g2) :
    N.total g1.linearSegments + N.total g2.linearSegments = N.total a := by
  have := linearExpression_length_eq N ok (tb := tb) (w := fun _ => P) (linearOperands_valid va va va) (fun _ => vP)
    (F := [(1, .within (.operand 0) 0, g1.linearSegments), (1, .outside (.operand 0) 0, g2.linearSegments), (-1, .operand 0, a)]) (by
        simp only [List.mem_cons, List.not_mem_nil, or_false]
        rintro t (rfl | rfl | rfl)
        · exact .within 0 (.operand 0) h1
        · exact .outside 0 (.operand 0) safe h2
        · exact .operand 0) fun w q => by
          simp only [List.map_cons, List.map_nil, List.sum_cons, List.sum_nil, LinearExpression.holds]
          rcases Bool.eq_false_or_eq_true (w 0) with p | p <;> rcases Bool.eq_false_or_eq_true (q 0) with q | q <;> norm_num [p, q]
  simp only [List.map_cons, List.map_nil, List.sum_cons, List.sum_nil] at this
  linarith

include ok va vP in
/-- **C64** The part of segments in polygons is not longer than the segments. -/
theorem length_within {g1 : Geometry} (h1 : withinCall o tb a P = .ok g1) : N.total g1.linearSegments ≤ N.total a := by
  have := linearExpression_length N ok (tb := tb) (w := fun _ => P) (linearOperands_valid va va va) (fun _ => vP)
    (F := [(-1, .within (.operand 0) 0, g1.linearSegments), (1, .operand 0, a)]) (by
        simp only [List.mem_cons, List.not_mem_nil, or_false]
        rintro t (rfl | rfl)
        · exact .within 0 (.operand 0) h1
        · exact .operand 0) fun w q => by
          simp only [List.map_cons, List.map_nil, List.sum_cons, List.sum_nil, LinearExpression.holds]
          rcases Bool.eq_false_or_eq_true (w 0) with p | p <;> rcases Bool.eq_false_or_eq_true (q 0) with q | q <;> norm_num [p, q]
  simp only [List.map_cons, List.map_nil, List.sum_cons, List.sum_nil] at this
  linarith

include va vb in
/-- **C64** Segments within others are not longer, even if finitely many points are outside. -/
theorem length_mono (h : (segsPts a \ segsPts b).Finite) : N.total a ≤ N.total b := by
  have := N.valuation (F := [(1, b), (-1, a)]) (by simp [va.noOverlap, vb.noOverlap]) h fun q hq => by
    simp only [List.map_cons, List.map_nil, List.sum_cons, List.sum_nil]
    by_cases k : q ∈ segsPts a
    · have k' : q ∈ segsPts b := by
        by_contra k'
        exact hq ⟨k, k'⟩
      rw [if_pos k, if_pos k']
      norm_num
    · rw [if_neg k]
      split_ifs <;> norm_num
  simp only [List.map_cons, List.map_nil, List.sum_cons, List.sum_nil] at this
  linarith

include va vb in
/-- **C64** The length does not depend on how segments are divided and written. -/
theorem length_written (h : segsPts a = segsPts b) : N.total a = N.total b :=
  le_antisymm (length_mono N va vb (by rw [h]; simp)) (length_mono N vb va (by rw [h]; simp))

/-- Proper segments have positive lengths. -/
theorem total_pos {a : List Segment} (ha : ∀ s ∈ a, s.Proper) : 0 ≤ Length.euclidean.total a ∧ (Length.euclidean.total a = 0 ↔ a = []) := by
  have pos : ∀ s ∈ a, 0 < Length.euclidean.segment s := fun s hs => by
    have ne := ha s hs
    refine Real.sqrt_pos.2 ?_
    by_contra k
    have h1 : ((s.stop.x - s.start.x : ℚ) : ℝ) = 0 := by nlinarith [sq_nonneg ((s.stop.x - s.start.x : ℚ) : ℝ), sq_nonneg ((s.stop.y - s.start.y : ℚ) : ℝ)]
    have h2 : ((s.stop.y - s.start.y : ℚ) : ℝ) = 0 := by nlinarith [sq_nonneg ((s.stop.x - s.start.x : ℚ) : ℝ), sq_nonneg ((s.stop.y - s.start.y : ℚ) : ℝ)]
    have h1' : s.stop.x - s.start.x = 0 := by exact_mod_cast h1
    have h2' : s.stop.y - s.start.y = 0 := by exact_mod_cast h2
    exact ne (pointExt (by linarith) (by linarith))
  have n : ∀ l : List Segment, (∀ s ∈ l, 0 < Length.euclidean.segment s) → 0 ≤ Length.euclidean.total l := fun l hl =>
    sum_mul_nonneg _ _ fun s hs => (hl s hs).le
  refine ⟨n a pos, ⟨fun k => ?_, fun k => by subst k; rfl⟩⟩
  match a, pos with
  | [], _ => rfl
  | s :: a, pos =>
    have h1 := pos s List.mem_cons_self
    have h2 := n a fun t ht => pos t (List.mem_cons_of_mem _ ht)
    unfold Length.total at k h2
    rw [List.map_cons, List.sum_cons] at k
    linarith

include va in
/-- **C64** Segments have positive lengths. -/
theorem length_pos : 0 ≤ Length.euclidean.total a ∧ (Length.euclidean.total a = 0 ↔ a = []) := total_pos va.1

include va vb in
/-- **C64** Segments overlap exactly if the union is shorter than both together. -/
theorem length_disjoint {g1 g2 : Geometry} (h1 : Operation.union.linearCall tb a b = .ok g1)
    (safe : Operation.intersection.Safe a b) (h2 : Operation.intersection.linearCall tb a b = .ok g2) :
    Length.euclidean.total g1.linearSegments = Length.euclidean.total a + Length.euclidean.total b ↔ g2.linearSegments = [] := by
  have e := length_union_intersection Length.euclidean va vb h1 safe h2
  obtain ⟨g, h, v2, -⟩ := (Operation.linearCall_ok tb .intersection va vb safe).result
  obtain rfl : g = g2 := Except.ok.inj (h.symm.trans h2)
  rw [← (length_pos v2).2]
  constructor <;> intro <;> linarith

include ok va vP in
/-- **C64** Segments are contained in polygons exactly if nothing of their length is lost by intersecting. -/
theorem length_contained {g1 g2 : Geometry} (h1 : withinCall o tb a P = .ok g1)
    (safe : ∀ p ∈ P, ∀ c ∈ p.holes, (segsPts a ∩ segsPts c.edges).Finite) (h2 : outsideCall o tb a P = .ok g2) :
    Length.euclidean.total g1.linearSegments = Length.euclidean.total a ↔ g2.linearSegments = [] := by
  have e := length_within_outside Length.euclidean ok va vP h1 safe h2
  obtain ⟨g, h, v2, -⟩ := (outsideCall_ok ok tb va vP safe).result
  obtain rfl : g = g2 := Except.ok.inj (h.symm.trans h2)
  rw [← (length_pos v2).2]
  constructor <;> intro <;> linarith

end

/-! ## Examples -/

/-- Overlapping multisegments. -/
example : ∃ g1 g2, Operation.union.linearCall .id exA exB = .ok g1 ∧ Operation.symmetricDifference.linearCall .id exA exB = .ok g2 ∧
    2 * Length.euclidean.total g1.linearSegments =
      Length.euclidean.total g2.linearSegments + Length.euclidean.total exA + Length.euclidean.total exB := by
  obtain ⟨g1, h1, -, -⟩ := (Operation.linearCall_ok .id .union exA_valid exB_valid trivial).result
  obtain ⟨g2, h2, -, -⟩ := (Operation.linearCall_ok .id .symmetricDifference exA_valid exB_valid trivial).result
  exact ⟨g1, g2, h1, h2, length_union_symmetricDifference _ exA_valid exB_valid h1 h2⟩

/-- Segments in a triangle. -/
example (tb : TieBreak) : ∃ g, withinCall (Classical.choose exists_orient) tb exA [exTriangle] = .ok g ∧
    Length.euclidean.total g.linearSegments ≤ Length.euclidean.total exA := by
  obtain ⟨g, h, -, -⟩ := (withinCall_ok (Classical.choose_spec exists_orient) tb exA_valid exTriangle_valid.validPolygons).result
  exact ⟨g, h, length_within _ (Classical.choose_spec exists_orient) exA_valid exTriangle_valid.validPolygons h⟩

/-- A segment and a multisegment which overlap: the condition on corners is about multisegments only. -/
example : ∃ g1 g2, Operation.union.linearCall .id [⟨⟨0, 0⟩, ⟨4, 0⟩⟩] exB = .ok g1 ∧
    Operation.intersection.linearCall .id [⟨⟨0, 0⟩, ⟨4, 0⟩⟩] exB = .ok g2 ∧
    Length.euclidean.total g1.linearSegments + Length.euclidean.total g2.linearSegments =
      Length.euclidean.total [⟨⟨0, 0⟩, ⟨4, 0⟩⟩] + Length.euclidean.total exB := by
  have v : ValidSegments [⟨⟨0, 0⟩, ⟨4, 0⟩⟩] := ⟨by simp [Segment.Proper], List.pairwise_singleton _ _⟩
  have safe : Operation.intersection.Safe [⟨⟨0, 0⟩, ⟨4, 0⟩⟩] exB := fun k => absurd k (by simp)
  obtain ⟨g1, h1, -, -⟩ := (Operation.linearCall_ok .id .union v exB_valid trivial).result
  obtain ⟨g2, h2, -, -⟩ := (Operation.linearCall_ok .id .intersection v exB_valid safe).result
  exact ⟨g1, g2, h1, h2, length_union_intersection _ v exB_valid h1 safe h2⟩

/-- A length in numbers: the diagonal of a rectangle with sides 3 and 4. -/
example : Length.euclidean.segment ⟨⟨1, 1⟩, ⟨4, 5⟩⟩ = 5 := by
  change √(_ : ℝ) = 5
  rw [show ((((4 : ℚ) - 1 : ℚ) : ℝ) ^ 2 + (((5 : ℚ) - 1 : ℚ) : ℝ) ^ 2) = 5 ^ 2 by norm_num]
  exact Real.sqrt_sq (by norm_num)

end Clipping

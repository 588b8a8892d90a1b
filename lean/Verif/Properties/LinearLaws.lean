import Verif.Lemmas.LinearLaws
import Verif.Properties.LinearWritten

/-!
# C62: nested operations on segments obey the laws of Boolean algebra
-/

namespace Clipping

section

variable {o o' : Orient} (ok : OrientOk o) (ok' : OrientOk o') {tb tb' : TieBreak} {v : ℕ → List Segment} {w : ℕ → List Polygon}
  (hv : ∀ i, ValidSegments (v i)) (hw : ∀ j, ValidPolygons (w j))

include ok hv hw in
/-- **C62** The points of nested operations are those which the Boolean formula says, up to finitely many, and the segments are valid. -/
theorem linearExpression_formula {x : LinearExpression} {l : List Segment} (h : x.Yields o tb v w l) :
    ValidSegments l ∧ AlmostEqual (segsPts l) (x.points (fun i => segsPts (v i)) fun j => polysPts (w j)) := h.spec ok hv hw

include ok ok' hv hw in
/-- **C62** Nested operations with equivalent formulas have the same points. -/
theorem linearExpression_points {x y : LinearExpression} (h : ∀ p q : ℕ → Bool, x.holds p q = y.holds p q) {l m : List Segment}
    (hx : x.Yields o tb v w l) (hy : y.Yields o' tb' v w m) : segsPts l = segsPts m := by
  obtain ⟨vl, al⟩ := hx.spec ok hv hw
  obtain ⟨vm, am⟩ := hy.spec ok' hv hw
  have e : x.points (fun i => segsPts (v i)) (fun j => polysPts (w j)) = y.points (fun i => segsPts (v i)) fun j => polysPts (w j) := by
    ext q
    rw [LinearExpression.mem_points, LinearExpression.mem_points, h]
  rw [← e] at am
  have k := al.trans am.symm
  exact segsPts_eq_of_finite vl.1 vm.1 k.left k.symm.left

include ok hv hw in
/-- **C62** Nested operations whose formula never holds give nothing. -/
theorem linearExpression_empty {x : LinearExpression} (h : ∀ p q : ℕ → Bool, x.holds p q = false) {l : List Segment}
    (hx : x.Yields o tb v w l) : l = [] := by
  obtain ⟨vl, al⟩ := hx.spec ok hv hw
  have e : x.points (fun i => segsPts (v i)) (fun j => polysPts (w j)) = ∅ := by
    ext q
    rw [LinearExpression.mem_points, h]
    simp
  rw [e] at al
  have k := segsPts_eq_of_finite (l' := []) vl.1 (by simp) (by rw [segsPts_nil]; exact al.left) (by rw [segsPts_nil]; exact al.symm.left)
  rw [segsPts_nil] at k
  match l, k with
  | [], _ => rfl
  | s :: l, k => exact (k.subset ⟨s, List.mem_cons_self, s.start_mem⟩).elim

include ok ok' hv hw in
/-- **C62** The result depends on the points of the operands only. -/
theorem linearExpression_written {v' : ℕ → List Segment} {w' : ℕ → List Polygon} (hv' : ∀ i, ValidSegments (v' i))
    (hw' : ∀ j, ValidPolygons (w' j)) (ev : ∀ i, segsPts (v i) = segsPts (v' i)) (ew : ∀ j, polysPts (w j) = polysPts (w' j))
    {x : LinearExpression} {l m : List Segment} (hx : x.Yields o tb v w l) (hy : x.Yields o' tb' v' w' m) : segsPts l = segsPts m := by
  obtain ⟨vl, al⟩ := hx.spec ok hv hw
  obtain ⟨vm, am⟩ := hy.spec ok' hv' hw'
  simp only [← ev, ← ew] at am
  have k := al.trans am.symm
  exact segsPts_eq_of_finite vl.1 vm.1 k.left k.symm.left

include ok ok' hv hw in
/-- **C62** The result on images under an affine map is the image of the result. -/
theorem linearExpression_affine (T : Affine) {x : LinearExpression} {l m : List Segment} (hx : x.Yields o tb v w l)
    (hy : x.Yields o' tb' (fun i => (v i).map T.segment) (fun j => (w j).map T.polygon) m) : segsPts m = T.point '' segsPts l := by
  obtain ⟨vl, al⟩ := hx.spec ok hv hw
  obtain ⟨vm, am⟩ := hy.spec ok' (fun i => T.validSegments (hv i)) fun j => T.valid_polygons (hw j)
  have e : x.points (fun i => segsPts ((v i).map T.segment)) (fun j => polysPts ((w j).map T.polygon)) =
      T.point '' x.points (fun i => segsPts (v i)) fun j => polysPts (w j) := by
    ext q
    obtain ⟨q, rfl⟩ := T.surjective q
    rw [T.mem_image, LinearExpression.mem_points, LinearExpression.mem_points]
    have e1 : ∀ i, T.point q ∈ segsPts ((v i).map T.segment) ↔ q ∈ segsPts (v i) := fun i => by rw [T.segsPts_map, T.mem_image]
    have e2 : ∀ j, T.point q ∈ polysPts ((w j).map T.polygon) ↔ q ∈ polysPts (w j) := fun j => by rw [T.polysPts_map (hw j), T.mem_image]
    rw [show (fun i => @decide _ (Classical.propDecidable (T.point q ∈ segsPts ((v i).map T.segment)))) =
        fun i => @decide _ (Classical.propDecidable (q ∈ segsPts (v i))) from funext fun i => decide_eq_decide.2 (e1 i),
      show (fun j => @decide _ (Classical.propDecidable (T.point q ∈ polysPts ((w j).map T.polygon)))) =
        fun j => @decide _ (Classical.propDecidable (q ∈ polysPts (w j))) from funext fun j => decide_eq_decide.2 (e2 j)]
  rw [e] at am
  rw [← T.segsPts_map]
  have al' : AlmostEqual (segsPts (l.map T.segment)) (T.point '' x.points (fun i => segsPts (v i)) fun j => polysPts (w j)) := by
    rw [T.segsPts_map]
    refine (Set.Finite.image T.point al).subset fun q hq => ?_
    obtain ⟨q, rfl⟩ := T.surjective q
    rw [T.mem_image]
    simp only [Set.mem_ofPred_eq, T.mem_image] at hq ⊢
    exact hq
  have k := am.trans al'.symm
  exact segsPts_eq_of_finite vm.1 (T.validSegments vl).1 k.left k.symm.left

include ok hv hw in
/-- **C62** Nested operations can always be carried out: no call fails. -/
theorem linearExpression_step {x y : LinearExpression} {l m : List Segment} (hx : x.Yields o tb v w l) (hy : y.Yields o tb v w m) :
    (∀ k : Operation, k.Safe l m → ∃ r, (LinearExpression.apply k x y).Yields o tb v w r) ∧
    (∀ j, ∃ r, (LinearExpression.within x j).Yields o tb v w r) ∧
    ∀ j, (∀ p ∈ w j, ∀ c ∈ p.holes, (segsPts l ∩ segsPts c.edges).Finite) → ∃ r, (LinearExpression.outside x j).Yields o tb v w r := by
  obtain ⟨vl, -⟩ := hx.spec ok hv hw
  obtain ⟨vm, -⟩ := hy.spec ok hv hw
  refine ⟨fun k safe => ?_, fun j => ?_, fun j safe => ?_⟩
  · obtain ⟨g, e, -⟩ := (Operation.linearCall_ok tb k vl vm safe).result
    exact ⟨_, .apply k hx hy safe e⟩
  · obtain ⟨g, e, -⟩ := (withinCall_ok ok tb vl (hw j)).result
    exact ⟨_, .within j hx e⟩
  · obtain ⟨g, e, -⟩ := (outsideCall_ok ok tb vl (hw j) safe).result
    exact ⟨_, .outside j hx safe e⟩

end

/-! ## Laws -/

section

variable {o : Orient} (ok : OrientOk o) {tb : TieBreak} {a b c : List Segment} {P : List Polygon} (va : ValidSegments a)
  (vb : ValidSegments b) (vc : ValidSegments c) (vP : ValidPolygons P)

/-- three multisegments -/
def linearOperands (a b c : List Segment) : ℕ → List Segment
  | 0 => a
  | 1 => b
  | _ => c

include va vb vc in
theorem linearOperands_valid (i : ℕ) : ValidSegments (linearOperands a b c i) := by
  match i with
  | 0 => exact va
  | 1 => exact vb
  | _ + 2 => exact vc

include va vb vc in
/-- **C62** unions are associative -/
theorem linear_union_assoc {g1 g2 g3 g4 : Geometry} (h1 : Operation.union.linearCall tb a b = .ok g1)
    (h2 : Operation.union.linearCall tb g1.linearSegments c = .ok g2) (h3 : Operation.union.linearCall tb b c = .ok g3)
    (h4 : Operation.union.linearCall tb a g3.linearSegments = .ok g4) : segsPts g2.linearSegments = segsPts g4.linearSegments := by
  obtain ⟨o, ok⟩ := exists_orient
  refine linearExpression_points ok ok (v := linearOperands a b c) (w := fun _ => []) (linearOperands_valid va vb vc) (fun _ => validPolygons_nil)
    (x := .apply .union (.apply .union (.operand 0) (.operand 1)) (.operand 2))
    (y := .apply .union (.operand 0) (.apply .union (.operand 1) (.operand 2))) (fun p q => ?_)
    (.apply .union (.apply .union (.operand 0) (.operand 1) trivial h1) (.operand 2) trivial h2)
    (.apply .union (.operand 0) (.apply .union (.operand 1) (.operand 2) trivial h3) trivial h4)
  simp [LinearExpression.holds, Operation.holds, Bool.or_assoc]

include va vb vc in
/-- **C62** symmetric differences are associative -/
theorem linear_symmetricDifference_assoc {g1 g2 g3 g4 : Geometry} (h1 : Operation.symmetricDifference.linearCall tb a b = .ok g1)
    (h2 : Operation.symmetricDifference.linearCall tb g1.linearSegments c = .ok g2)
    (h3 : Operation.symmetricDifference.linearCall tb b c = .ok g3)
    (h4 : Operation.symmetricDifference.linearCall tb a g3.linearSegments = .ok g4) :
    segsPts g2.linearSegments = segsPts g4.linearSegments := by
  obtain ⟨o, ok⟩ := exists_orient
  refine linearExpression_points ok ok (v := linearOperands a b c) (w := fun _ => []) (linearOperands_valid va vb vc) (fun _ => validPolygons_nil)
    (x := .apply .symmetricDifference (.apply .symmetricDifference (.operand 0) (.operand 1)) (.operand 2))
    (y := .apply .symmetricDifference (.operand 0) (.apply .symmetricDifference (.operand 1) (.operand 2))) (fun p q => ?_)
    (.apply .symmetricDifference (.apply .symmetricDifference (.operand 0) (.operand 1) trivial h1) (.operand 2) trivial h2)
    (.apply .symmetricDifference (.operand 0) (.apply .symmetricDifference (.operand 1) (.operand 2) trivial h3) trivial h4)
  simp [LinearExpression.holds, Operation.holds]

include va vb in
/-- **C62** a symmetric difference is undone by doing it again -/
theorem linear_symmetricDifference_cancel {g1 g2 : Geometry} (h1 : Operation.symmetricDifference.linearCall tb a b = .ok g1)
    (h2 : Operation.symmetricDifference.linearCall tb g1.linearSegments b = .ok g2) : segsPts g2.linearSegments = segsPts a := by
  obtain ⟨o, ok⟩ := exists_orient
  refine linearExpression_points ok ok (tb := tb) (tb' := tb) (v := linearOperands a b b) (w := fun _ => []) (linearOperands_valid va vb vb)
    (fun _ => validPolygons_nil)
    (x := .apply .symmetricDifference (.apply .symmetricDifference (.operand 0) (.operand 1)) (.operand 1))
    (y := .operand 0) (fun p q => ?_)
    (.apply .symmetricDifference (.apply .symmetricDifference (.operand 0) (.operand 1) trivial h1) (.operand 1) trivial h2)
    (.operand 0)
  simp [LinearExpression.holds, Operation.holds]

include va vb in
/-- **C62** a difference and an intersection make up the operand -/
theorem linear_partition {g1 g2 g3 : Geometry} (s1 : Operation.difference.Safe a b) (s2 : Operation.intersection.Safe a b)
    (h1 : Operation.difference.linearCall tb a b = .ok g1) (h2 : Operation.intersection.linearCall tb a b = .ok g2)
    (h3 : Operation.union.linearCall tb g1.linearSegments g2.linearSegments = .ok g3) : segsPts g3.linearSegments = segsPts a := by
  obtain ⟨o, ok⟩ := exists_orient
  refine linearExpression_points ok ok (tb := tb) (tb' := tb) (v := linearOperands a b b) (w := fun _ => []) (linearOperands_valid va vb vb)
    (fun _ => validPolygons_nil)
    (x := .apply .union (.apply .difference (.operand 0) (.operand 1)) (.apply .intersection (.operand 0) (.operand 1)))
    (y := .operand 0) (fun p q => ?_)
    (.apply .union (.apply .difference (.operand 0) (.operand 1) s1 h1) (.apply .intersection (.operand 0) (.operand 1) s2 h2) trivial h3)
    (.operand 0)
  simp only [LinearExpression.holds, Operation.holds]
  cases p 0 <;> cases p 1 <;> rfl

include va vb in
/-- **C62** a symmetric difference is the union of the differences -/
theorem linear_symmetricDifference_union {g1 g2 g3 g4 : Geometry} (s1 : Operation.difference.Safe a b) (s2 : Operation.difference.Safe b a)
    (h1 : Operation.difference.linearCall tb a b = .ok g1) (h2 : Operation.difference.linearCall tb b a = .ok g2)
    (h3 : Operation.union.linearCall tb g1.linearSegments g2.linearSegments = .ok g3)
    (h4 : Operation.symmetricDifference.linearCall tb a b = .ok g4) : segsPts g3.linearSegments = segsPts g4.linearSegments := by
  obtain ⟨o, ok⟩ := exists_orient
  refine linearExpression_points ok ok (tb := tb) (tb' := tb) (v := linearOperands a b b) (w := fun _ => []) (linearOperands_valid va vb vb)
    (fun _ => validPolygons_nil)
    (x := .apply .union (.apply .difference (.operand 0) (.operand 1)) (.apply .difference (.operand 1) (.operand 0)))
    (y := .apply .symmetricDifference (.operand 0) (.operand 1)) (fun p q => ?_)
    (.apply .union (.apply .difference (.operand 0) (.operand 1) s1 h1) (.apply .difference (.operand 1) (.operand 0) s2 h2) trivial h3)
    (.apply .symmetricDifference (.operand 0) (.operand 1) trivial h4)
  simp only [LinearExpression.holds, Operation.holds]
  cases p 0 <;> cases p 1 <;> rfl

include ok va vb vP in
/-- **C62** the restriction of a union to polygons is the union of the restrictions -/
theorem within_union {g1 g2 g3 g4 g5 : Geometry} (h1 : Operation.union.linearCall tb a b = .ok g1)
    (h2 : withinCall o tb g1.linearSegments P = .ok g2) (h3 : withinCall o tb a P = .ok g3) (h4 : withinCall o tb b P = .ok g4)
    (h5 : Operation.union.linearCall tb g3.linearSegments g4.linearSegments = .ok g5) :
    segsPts g2.linearSegments = segsPts g5.linearSegments := by
  refine linearExpression_points ok ok (v := linearOperands a b b) (w := fun _ => P) (linearOperands_valid va vb vb) (fun _ => vP)
    (x := .within (.apply .union (.operand 0) (.operand 1)) 0)
    (y := .apply .union (.within (.operand 0) 0) (.within (.operand 1) 0)) (fun p q => ?_)
    (.within 0 (.apply .union (.operand 0) (.operand 1) trivial h1) h2)
    (.apply .union (.within 0 (.operand 0) h3) (.within 0 (.operand 1) h4) trivial h5)
  simp only [LinearExpression.holds, Operation.holds]
  cases p 0 <;> cases p 1 <;> cases q 0 <;> rfl

include ok va vb vP in
/-- **C62** the restriction of a symmetric difference to polygons is the symmetric difference of the restrictions -/
theorem within_symmetricDifference {g1 g2 g3 g4 g5 : Geometry} (h1 : Operation.symmetricDifference.linearCall tb a b = .ok g1)
    (h2 : withinCall o tb g1.linearSegments P = .ok g2) (h3 : withinCall o tb a P = .ok g3) (h4 : withinCall o tb b P = .ok g4)
    (h5 : Operation.symmetricDifference.linearCall tb g3.linearSegments g4.linearSegments = .ok g5) :
    segsPts g2.linearSegments = segsPts g5.linearSegments := by
  refine linearExpression_points ok ok (v := linearOperands a b b) (w := fun _ => P) (linearOperands_valid va vb vb) (fun _ => vP)
    (x := .within (.apply .symmetricDifference (.operand 0) (.operand 1)) 0)
    (y := .apply .symmetricDifference (.within (.operand 0) 0) (.within (.operand 1) 0)) (fun p q => ?_)
    (.within 0 (.apply .symmetricDifference (.operand 0) (.operand 1) trivial h1) h2)
    (.apply .symmetricDifference (.within 0 (.operand 0) h3) (.within 0 (.operand 1) h4) trivial h5)
  simp only [LinearExpression.holds, Operation.holds]
  cases p 0 <;> cases p 1 <;> cases q 0 <;> rfl

include ok va vP in
/-- **C62** the parts of segments in polygons and outside of them make up the segments -/
theorem within_outside_partition {g1 g2 g3 : Geometry} (safe : ∀ p ∈ P, ∀ c ∈ p.holes, (segsPts a ∩ segsPts c.edges).Finite)
    (h1 : withinCall o tb a P = .ok g1) (h2 : outsideCall o tb a P = .ok g2)
    (h3 : Operation.union.linearCall tb g1.linearSegments g2.linearSegments = .ok g3) : segsPts g3.linearSegments = segsPts a := by
  refine linearExpression_points ok ok (tb := tb) (tb' := tb) (v := linearOperands a a a) (w := fun _ => P) (linearOperands_valid va va va)
    (fun _ => vP) (x := .apply .union (.within (.operand 0) 0) (.outside (.operand 0) 0)) (y := .operand 0) (fun p q => ?_)
    (.apply .union (.within 0 (.operand 0) h1) (.outside 0 (.operand 0) safe h2) trivial h3) (.operand 0)
  simp only [LinearExpression.holds, Operation.holds]
  cases p 0 <;> cases q 0 <;> rfl

end

/-! ## Examples -/

/-- The hypotheses are met: nested operations on multisegments which cross, overlap and touch, and on a triangle. -/
example (tb : TieBreak) : ∃ l m, (LinearExpression.within (.apply .symmetricDifference (.operand 0) (.operand 1)) 0).Yields
      (Classical.choose exists_orient) tb (linearOperands exA exB exDivided) (fun _ => [exTriangle]) l ∧
    (LinearExpression.within (.apply .symmetricDifference (.operand 1) (.operand 0)) 0).Yields
      (Classical.choose exists_orient) tb (linearOperands exA exB exDivided) (fun _ => [exTriangle]) m ∧ segsPts l = segsPts m := by
  have hv := linearOperands_valid exA_valid exB_valid exDivided_valid
  have hw : ∀ j : ℕ, ValidPolygons ((fun _ => [exTriangle]) j) := fun _ => exTriangle_valid.validPolygons
  have ok := Classical.choose_spec exists_orient
  obtain ⟨r, hr⟩ := (linearExpression_step ok (tb := tb) hv hw (.operand 0) (.operand 1)).1 .symmetricDifference trivial
  obtain ⟨r', hr'⟩ := (linearExpression_step ok (tb := tb) hv hw (.operand 1) (.operand 0)).1 .symmetricDifference trivial
  obtain ⟨l, hl⟩ := (linearExpression_step ok hv hw hr hr).2.1 0
  obtain ⟨m, hm⟩ := (linearExpression_step ok hv hw hr' hr').2.1 0
  refine ⟨l, m, hl, hm, linearExpression_points ok ok hv hw (fun p q => ?_) hl hm⟩
  simp [LinearExpression.holds, Operation.holds, Bool.xor_comm]

example : ∃ g1 g2, Operation.symmetricDifference.linearCall .id exA exB = .ok g1 ∧
    Operation.symmetricDifference.linearCall .id g1.linearSegments exB = .ok g2 ∧ segsPts g2.linearSegments = segsPts exA := by
  obtain ⟨g1, h1, v1, -⟩ := (Operation.linearCall_ok .id .symmetricDifference exA_valid exB_valid trivial).result
  obtain ⟨g2, h2, -, -⟩ := (Operation.linearCall_ok .id .symmetricDifference v1 exB_valid trivial).result
  exact ⟨g1, g2, h1, h2, linear_symmetricDifference_cancel exA_valid exB_valid h1 h2⟩

end Clipping

import Verif.Lemmas.AffineLinear
import Verif.Spec.LinearExpression
import Verif.Properties.Segments
import Verif.Properties.Linear
import Verif.Properties.Mixed
import Verif.Properties.Unique

/-!
# Nested operations on segments
-/

namespace Clipping

/-- The sets differ in finitely many points. -/
def AlmostEqual (A B : Set Point) : Prop := {q | ¬ (q ∈ A ↔ q ∈ B)}.Finite

theorem AlmostEqual.of_subsets {A B : Set Point} (h : (A \ B).Finite) (h' : (B \ A).Finite) : AlmostEqual A B := by
  refine (h.union h').subset fun q hq => ?_
  simp only [Set.mem_ofPred_eq, Set.mem_union, Set.mem_sdiff] at hq ⊢
  tauto

theorem AlmostEqual.left {A B : Set Point} (h : AlmostEqual A B) : (A \ B).Finite :=
  h.subset fun q hq => by
    simp only [Set.mem_ofPred_eq, Set.mem_sdiff] at hq ⊢
    tauto

theorem AlmostEqual.symm {A B : Set Point} (h : AlmostEqual A B) : AlmostEqual B A :=
  h.subset fun q hq => by
    simp only [Set.mem_ofPred_eq] at hq ⊢
    tauto

theorem AlmostEqual.trans {A B C : Set Point} (h : AlmostEqual A B) (h' : AlmostEqual B C) : AlmostEqual A C :=
  (Set.Finite.union h h').subset fun q hq => by
    simp only [Set.mem_ofPred_eq, Set.mem_union] at hq ⊢
    tauto

theorem AlmostEqual.refl (A : Set Point) : AlmostEqual A A := by
  unfold AlmostEqual
  simp

open Classical in
/-- the set an operation stands for -/
def Operation.points (k : Operation) (A B : Set Point) : Set Point := {q | k.holds (decide (q ∈ A)) (decide (q ∈ B)) = true}

theorem Operation.points_congr (k : Operation) {A B A' B' : Set Point} (h : AlmostEqual A A') (h' : AlmostEqual B B') :
    AlmostEqual (k.points A B) (k.points A' B') := by
  refine (Set.Finite.union h h').subset fun q hq => ?_
  simp only [Set.mem_ofPred_eq, Set.mem_union, Operation.points] at hq ⊢
  by_contra hn
  push Not at hn
  apply hq
  rw [decide_eq_decide.2 hn.1, decide_eq_decide.2 hn.2]

theorem points_intersection (A B : Set Point) : Operation.intersection.points A B = A ∩ B := by
  ext q
  simp [Operation.points, Operation.holds]

theorem points_difference (A B : Set Point) : Operation.difference.points A B = A \ B := by
  ext q
  simp [Operation.points, Operation.holds]

theorem points_symmetricDifference (A B : Set Point) : Operation.symmetricDifference.points A B = (A \ B) ∪ (B \ A) := by
  ext q
  by_cases h : q ∈ A <;> by_cases h' : q ∈ B <;> simp [Operation.points, Operation.holds, h, h']

theorem points_union (A B : Set Point) : Operation.union.points A B = A ∪ B := by
  ext q
  simp [Operation.points, Operation.holds]

section

variable {A B R : Set Point}

theorem IsIntersection.almost (h : IsIntersection A B R) : AlmostEqual R (A ∩ B) :=
  .of_subsets (by rw [Set.sdiff_eq_empty.2 h.within]; exact Set.finite_empty) h.finite

theorem IsDifference.almost (h : IsDifference A B R) : AlmostEqual R (A \ B) :=
  .of_subsets (h.finite.subset fun q hq => ⟨hq.1, by
      by_contra hb
      exact hq.2 ⟨h.within hq.1, hb⟩⟩)
    (by rw [Set.sdiff_eq_empty.2 h.covers]; exact Set.finite_empty)

theorem IsSymmetricDifference.almost (h : IsSymmetricDifference A B R) : AlmostEqual R ((A \ B) ∪ (B \ A)) :=
  .of_subsets (h.finite.subset fun q hq => ⟨hq.1, by
      by_contra hb
      refine hq.2 ?_
      rcases h.within hq.1 with g | g
      · exact Or.inl ⟨g, fun k => hb ⟨g, k⟩⟩
      · exact Or.inr ⟨g, fun k => hb ⟨k, g⟩⟩⟩)
    (by rw [Set.sdiff_eq_empty.2 h.covers]; exact Set.finite_empty)

theorem almost_union (h : R = A ∪ B) : AlmostEqual R (A ∪ B) := h ▸ .refl _

end

theorem Geometry.LinearOk.valid {g : Geometry} (h : g.LinearOk) : ValidSegments g.linearSegments := by
  have single : ∀ {t : Segment}, t.Proper → ValidSegments [t] := fun ht => ⟨by simpa using ht, by simp⟩
  have none : ValidSegments [] := ⟨by simp, .nil⟩
  cases g with
  | segment s => exact single h
  | multisegment l => exact h.2
  | mix d l s =>
    obtain ⟨-, ⟨t, rfl, ht⟩ | ⟨t, rfl, -, ht⟩, -⟩ := h
    · exact single ht
    · exact ht
  | _ => exact none

/-- Points of a linear geometry, up to isolated ones. -/
theorem Geometry.LinearOk.almost {g : Geometry} (h : g.LinearOk) : AlmostEqual (segsPts g.linearSegments) g.pts := by
  refine (List.finite_toSet g.discretePoints).subset fun q hq => ?_
  simp only [Set.mem_ofPred_eq] at hq ⊢
  rw [h.pts_iff] at hq
  tauto

theorem polysPts_nil : polysPts [] = ∅ := by
  ext q
  simp [polysPts]

/-- What a call has to give: valid segments with the points of the operation up to finitely many. -/
structure CallOk (r : Except Err Geometry) (X : Set Point) : Prop where
  result : ∃ g, r = .ok g ∧ ValidSegments g.linearSegments ∧ AlmostEqual (segsPts g.linearSegments) X

theorem CallOk.of_ok {r : Except Err Geometry} {g : Geometry} {X : Set Point} (e : r = .ok g) (h : g.LinearOk) (ha : AlmostEqual g.pts X) :
    CallOk r X := ⟨g, e, h.valid, h.almost.trans ha⟩

theorem CallOk.of_segments {m : List Segment} {X : Set Point} (hm : ValidSegments m) (e : segsPts m = X) :
    CallOk (.ok (.multisegment m)) X := ⟨_, rfl, hm, by rw [← e]; exact .refl _⟩

theorem CallOk.of_empty {X : Set Point} (e : X = ∅) : CallOk (.ok .empty) X :=
  ⟨_, rfl, ⟨by simp [Geometry.linearSegments], .nil⟩, by rw [e]; simp only [Geometry.linearSegments, segsPts_nil]; exact .refl _⟩

theorem symmetric_comm (A B : Set Point) : (A \ B) ∪ (B \ A) = (B \ A) ∪ (A \ B) := Set.union_comm _ _

/-- Every call on valid segments gives what the operation stands for. -/
theorem Operation.linearCall_ok (tb : TieBreak) (k : Operation) {l m : List Segment} (hl : ValidSegments l) (hm : ValidSegments m)
    (safe : k.Safe l m) : CallOk (k.linearCall tb l m) (k.points (segsPts l) (segsPts m)) := by
  have P : ∀ {s : Segment} {m : List Segment}, ValidSegments (s :: m) → s.Proper := fun h => h.1 _ List.mem_cons_self
  have wf := fun {a b : List Segment} {s : Segment} (ha : 2 ≤ a.length) (hb : 2 ≤ b.length) (na : ValidSegments a) (nb : ValidSegments b)
    (hs : s.Proper) => multisegment_operations_wellFormed tb ha hb na nb hs
  cases k with
  | intersection =>
    rw [points_intersection]
    match l, m, hl, hm, safe with
    | [], _, _, _, _ => exact .of_empty (by rw [segsPts_nil, Set.empty_inter])
    | _ :: _, [], _, _, _ => exact .of_empty (by rw [segsPts_nil, Set.inter_empty])
    | [s], [t], hl, hm, _ =>
      refine .of_ok (g := intersectSegments s t) rfl (segments_results_ok s t (P hl) (P hm)).1 ?_
      rw [intersectSegments_exact s t (P hl) (P hm), segsPts_singleton, segsPts_singleton]
      exact .refl _
    | [s], t :: t' :: m, hl, hm, _ =>
      refine .of_ok rfl (multisegment_results_ok s _ (P hl) hm).1 ?_
      rw [segsPts_singleton]
      exact (intersectSegmentWithMultisegment_intersection s _ (P hl) hm.1).1.almost
    | t :: t' :: m, [s], hm, hl, _ =>
      refine .of_ok (g := intersectSegmentWithMultisegment s (t :: t' :: m)) rfl (multisegment_results_ok s _ (P hl) hm).1 ?_
      rw [segsPts_singleton, Set.inter_comm]
      exact (intersectSegmentWithMultisegment_intersection s _ (P hl) hm.1).1.almost
    | s :: s' :: l, t :: t' :: m, hl, hm, safe =>
      obtain ⟨g, e, -, -, h⟩ := intersectMultisegments_intersection_partial tb (by simp) (by simp) hl.noOverlap hm.noOverlap
      obtain ⟨c1, c2⟩ := safe (by simp) (by simp)
      exact .of_ok e (wf (by simp) (by simp) hl hm (P hl) g (Or.inr (Or.inl e))) (h c1 c2).almost
  | difference =>
    rw [points_difference]
    match l, m, hl, hm, safe with
    | [], _, _, _, _ => exact .of_empty (by rw [segsPts_nil, Set.empty_sdiff])
    | s :: l, [], hl, _, _ => exact .of_segments hl (by rw [segsPts_nil, Set.sdiff_empty])
    | [s], [t], hl, hm, _ =>
      refine .of_ok (g := subtractSegments s t) rfl (segments_results_ok s t (P hl) (P hm)).2.1 ?_
      rw [segsPts_singleton, segsPts_singleton]
      exact (subtractSegments_difference s t (P hl) (P hm)).1.almost
    | [s], t :: t' :: m, hl, hm, safe =>
      obtain ⟨g, e, -, -, -, h⟩ := subtractMultisegmentFromSegment_difference_partial tb (P hl) (b := t :: t' :: m) (by simp) hm.noOverlap
      rw [segsPts_singleton]
      exact .of_ok e (wf (by simp) (by simp) hm hm (P hl) g (by tauto)) (h (safe (by simp) _ rfl)).almost
    | t :: t' :: m, [s], hm, hl, _ =>
      refine .of_ok (g := subtractSegmentFromMultisegment (t :: t' :: m) s) rfl (multisegment_results_ok s _ (P hl) hm).2.1 ?_
      rw [segsPts_singleton]
      exact (subtractSegmentFromMultisegment_difference _ s (P hl) hm).1.almost
    | s :: s' :: l, t :: t' :: m, hl, hm, safe =>
      obtain ⟨g, e, -, -, -, h⟩ := subtractMultisegments_difference_partial tb (by simp) (by simp) hl.noOverlap hm.noOverlap
      exact .of_ok e (wf (by simp) (by simp) hl hm (P hl) g (Or.inr (Or.inr (Or.inl e)))) (h (safe (by simp))).almost
  | symmetricDifference =>
    rw [points_symmetricDifference]
    match l, m, hl, hm with
    | [], m, _, hm => exact .of_segments hm (by rw [segsPts_nil, Set.empty_sdiff, Set.sdiff_empty, Set.empty_union])
    | s :: l, [], hl, _ => exact .of_segments hl (by rw [segsPts_nil, Set.empty_sdiff, Set.sdiff_empty, Set.union_empty])
    | [s], [t], hl, hm =>
      refine .of_ok (g := symmetricSubtractSegments s t) rfl (segments_results_ok s t (P hl) (P hm)).2.2.1 ?_
      rw [segsPts_singleton, segsPts_singleton]
      exact (symmetricSubtractSegments_symmetricDifference s t (P hl) (P hm)).1.almost
    | [s], t :: t' :: m, hl, hm =>
      obtain ⟨g, e, -, h⟩ := symmetricSubtractMultisegmentFromSegment_difference tb (P hl) (b := t :: t' :: m) (by simp) hm.noOverlap
      rw [segsPts_singleton]
      exact .of_ok e (wf (by simp) (by simp) hm hm (P hl) g (by tauto)) h.almost
    | t :: t' :: m, [s], hm, hl =>
      obtain ⟨g, e, -, h⟩ := symmetricSubtractMultisegmentFromSegment_difference tb (P hl) (b := t :: t' :: m) (by simp) hm.noOverlap
      rw [segsPts_singleton, symmetric_comm]
      exact .of_ok (g := g) e (wf (by simp) (by simp) hm hm (P hl) g (by tauto)) h.almost
    | s :: s' :: l, t :: t' :: m, hl, hm =>
      obtain ⟨g, e, -, h⟩ := symmetricSubtractMultisegments_difference tb (by simp) (by simp) hl.noOverlap hm.noOverlap
      exact .of_ok e (wf (by simp) (by simp) hl hm (P hl) g (by tauto)) h.almost
  | union =>
    rw [points_union]
    match l, m, hl, hm with
    | [], m, _, hm => exact .of_segments hm (by rw [segsPts_nil, Set.empty_union])
    | s :: l, [], hl, _ => exact .of_segments hl (by rw [segsPts_nil, Set.union_empty])
    | [s], [t], hl, hm =>
      refine .of_ok (g := uniteSegments s t) rfl (segments_results_ok s t (P hl) (P hm)).2.2.2 ?_
      rw [segsPts_singleton, segsPts_singleton]
      exact almost_union (uniteSegments_exact s t (P hl) (P hm))
    | [s], t :: t' :: m, hl, hm =>
      refine .of_ok rfl (multisegment_results_ok s _ (P hl) hm).2.2 ?_
      rw [segsPts_singleton]
      exact almost_union (uniteSegmentWithMultisegment_exact s _ (P hl) hm)
    | t :: t' :: m, [s], hm, hl =>
      refine .of_ok (g := uniteSegmentWithMultisegment s (t :: t' :: m)) rfl (multisegment_results_ok s _ (P hl) hm).2.2 ?_
      rw [segsPts_singleton, Set.union_comm]
      exact almost_union (uniteSegmentWithMultisegment_exact s _ (P hl) hm)
    | s :: s' :: l, t :: t' :: m, hl, hm =>
      obtain ⟨g, e, h⟩ := uniteMultisegments_union tb (by simp) (by simp) hl.noOverlap hm.noOverlap
      exact .of_ok e (wf (by simp) (by simp) hl hm (P hl) g (by tauto)) (almost_union h)

section

variable {o : Orient} (ok : OrientOk o) (tb : TieBreak)
include ok

theorem withinCall_ok {l : List Segment} {ps : List Polygon} (hl : ValidSegments l) (hp : ValidPolygons ps) :
    CallOk (withinCall o tb l ps) (segsPts l ∩ polysPts ps) := by
  have P : ∀ {s : Segment} {m : List Segment}, ValidSegments (s :: m) → s.Proper := fun h => h.1 _ List.mem_cons_self
  match l, ps, hl, hp with
  | [], _, _, _ => exact .of_empty (by rw [segsPts_nil, Set.empty_inter])
  | _ :: _, [], _, _ => exact .of_empty (by rw [polysPts_nil, Set.inter_empty])
  | [s], [p], hl, hp =>
    obtain ⟨g, e, -, k, h⟩ := intersectSegmentWithPolygon_intersection ok tb (P hl) (hp.valid p (by simp))
    rw [segsPts_singleton, polysPts_singleton]
    exact .of_ok e k h.almost
  | [s], p :: p' :: ps, hl, hp =>
    obtain ⟨g, e, -, k, h⟩ := intersectSegmentWithMultipolygon_intersection ok tb (P hl) (by simp) hp
    rw [segsPts_singleton]
    exact .of_ok e k h.almost
  | s :: s' :: l, [p], hl, hp =>
    obtain ⟨g, e, -, k, h⟩ := intersectMultisegmentWithPolygon_intersection ok tb (by simp) hl.noOverlap (hp.valid p (by simp))
    rw [polysPts_singleton]
    exact .of_ok e k h.almost
  | s :: s' :: l, p :: p' :: ps, hl, hp =>
    obtain ⟨g, e, -, k, h⟩ := intersectMultisegmentWithMultipolygon_intersection ok tb (by simp) hl.noOverlap (by simp) hp
    exact .of_ok e k h.almost

theorem outsideCall_ok {l : List Segment} {ps : List Polygon} (hl : ValidSegments l) (hp : ValidPolygons ps)
    (safe : ∀ p ∈ ps, ∀ c ∈ p.holes, (segsPts l ∩ segsPts c.edges).Finite) : CallOk (outsideCall o tb l ps) (segsPts l \ polysPts ps) := by
  have P : ∀ {s : Segment} {m : List Segment}, ValidSegments (s :: m) → s.Proper := fun h => h.1 _ List.mem_cons_self
  match l, ps, hl, hp, safe with
  | [], _, _, _, _ => exact .of_empty (by rw [segsPts_nil, Set.empty_sdiff])
  | s :: l, [], hl, _, _ => exact .of_segments hl (by rw [polysPts_nil, Set.sdiff_empty])
  | [s], [p], hl, hp, safe =>
    obtain ⟨g, e, -, -, -, h⟩ := subtractPolygonFromSegment_difference_partial ok tb (P hl) (hp.valid p (by simp))
    rw [segsPts_singleton] at safe ⊢
    rw [polysPts_singleton]
    exact .of_ok e ((mixed_operations_wellFormed ok tb (a := exA) (by decide) exA_valid (P hl) (hp.valid p (by simp)) (by simp) hp).1 g
      (Or.inl e)) (h (safe p (by simp))).almost
  | [s], p :: p' :: ps, hl, hp, safe =>
    obtain ⟨g, e, -, -, -, h⟩ := subtractMultipolygonFromSegment_difference_partial ok tb (P hl) (by simp) hp
    rw [segsPts_singleton] at safe ⊢
    exact .of_ok e ((mixed_operations_wellFormed ok tb (a := exA) (by decide) exA_valid (P hl) (hp.valid p (by simp)) (by simp) hp).1 g
      (Or.inr (Or.inl e))) (h safe).almost
  | s :: s' :: l, [p], hl, hp, safe =>
    obtain ⟨g, e, -, -, -, h⟩ := subtractPolygonFromMultisegment_difference_partial ok tb (by simp) hl.noOverlap (hp.valid p (by simp))
    rw [polysPts_singleton]
    exact .of_ok e ((mixed_operations_wellFormed ok tb (by simp) hl (P hl) (hp.valid p (by simp)) (by simp) hp).1 g
      (Or.inr (Or.inr (Or.inl e)))) (h (safe p (by simp))).almost
  | s :: s' :: l, p :: p' :: ps, hl, hp, safe =>
    obtain ⟨g, e, -, -, -, h⟩ := subtractMultipolygonFromMultisegment_difference_partial ok tb (by simp) hl.noOverlap (by simp) hp
    exact .of_ok e ((mixed_operations_wellFormed ok tb (by simp) hl (P hl) (hp.valid p (by simp)) (by simp) hp).1 g
      (Or.inr (Or.inr (Or.inr e)))) (h safe).almost

end

open Classical in
/-- the set an expression stands for -/
def LinearExpression.points (x : LinearExpression) (A B : ℕ → Set Point) : Set Point :=
  {q | x.holds (fun i => decide (q ∈ A i)) (fun j => decide (q ∈ B j)) = true}

open Classical in
theorem LinearExpression.mem_points (x : LinearExpression) (A B : ℕ → Set Point) (q : Point) :
    q ∈ x.points A B ↔ x.holds (fun i => decide (q ∈ A i)) (fun j => decide (q ∈ B j)) = true := by
  simp only [LinearExpression.points, Set.mem_ofPred_eq]

theorem LinearExpression.points_apply (k : Operation) (x y : LinearExpression) (A B : ℕ → Set Point) :
    (LinearExpression.apply k x y).points A B = k.points (x.points A B) (y.points A B) := by
  have d : ∀ (P : Prop) (i : Decidable P) (b : Bool), (P ↔ b = true) → @decide P i = b := by
    intro P i b h
    cases b <;> simp [h]
  ext q
  unfold Operation.points
  rw [LinearExpression.mem_points, Set.mem_ofPred_eq, d _ _ _ (x.mem_points A B q), d _ _ _ (y.mem_points A B q)]
  rfl

theorem LinearExpression.points_within (x : LinearExpression) (j : ℕ) (A B : ℕ → Set Point) :
    (LinearExpression.within x j).points A B = x.points A B ∩ B j := by
  ext q
  simp [LinearExpression.points, LinearExpression.holds]

theorem LinearExpression.points_outside (x : LinearExpression) (j : ℕ) (A B : ℕ → Set Point) :
    (LinearExpression.outside x j).points A B = x.points A B \ B j := by
  ext q
  simp [LinearExpression.points, LinearExpression.holds]

theorem LinearExpression.Yields.spec {o : Orient} (ok : OrientOk o) {tb : TieBreak} {v : ℕ → List Segment} {w : ℕ → List Polygon}
    (hv : ∀ i, ValidSegments (v i)) (hw : ∀ j, ValidPolygons (w j)) {x : LinearExpression} {l : List Segment} (h : x.Yields o tb v w l) :
    ValidSegments l ∧ AlmostEqual (segsPts l) (x.points (fun i => segsPts (v i)) fun j => polysPts (w j)) := by
  induction h with
  | operand i =>
    refine ⟨hv i, ?_⟩
    have : (LinearExpression.operand i).points (fun i => segsPts (v i)) (fun j => polysPts (w j)) = segsPts (v i) := by
      ext q
      simp [LinearExpression.points, LinearExpression.holds]
    rw [this]
    exact .refl _
  | apply k _ _ safe h iha ihb =>
    obtain ⟨g, e, vg, ag⟩ := (Operation.linearCall_ok tb k iha.1 ihb.1 safe).result
    rw [h] at e
    cases e
    refine ⟨vg, ?_⟩
    rw [LinearExpression.points_apply]
    exact ag.trans (k.points_congr iha.2 ihb.2)
  | within j _ h iha =>
    obtain ⟨g, e, vg, ag⟩ := (withinCall_ok ok tb iha.1 (hw j)).result
    rw [h] at e
    cases e
    refine ⟨vg, ?_⟩
    rw [LinearExpression.points_within, ← points_intersection]
    rw [← points_intersection] at ag
    exact ag.trans (Operation.points_congr _ iha.2 (.refl _))
  | outside j _ safe h iha =>
    obtain ⟨g, e, vg, ag⟩ := (outsideCall_ok ok tb iha.1 (hw j) safe).result
    rw [h] at e
    cases e
    refine ⟨vg, ?_⟩
    rw [LinearExpression.points_outside, ← points_difference]
    rw [← points_difference] at ag
    exact ag.trans (Operation.points_congr _ iha.2 (.refl _))

end Clipping

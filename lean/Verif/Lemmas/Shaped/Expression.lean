import Verif.Spec.Expression
import Verif.Lemmas.Region.Unique
import Verif.Lemmas.Shaped.Empty
import Verif.Properties.Polygons

/-!
# Results of nested operations
-/

namespace Clipping

theorem Outlines.swap {op : Bool → Bool → Bool} {A B : List Segment} {ps : List Polygon} (O : Outlines op A B ps)
    (h : ∀ a b, op a b = op b a) : Outlines op B A ps := by
  have e : segsPts (B ++ A) = segsPts (A ++ B) := by
    rw [segsPts_append, segsPts_append, Set.union_comm]
  refine ⟨O.border, O.hole, O.noOverlap, e ▸ O.within, fun q hq => ?_, O.sides, O.held⟩
  rw [O.inside q (e ▸ hq)]
  unfold Combined
  rw [h]

theorem ValidPolygons.single {p : Polygon} (h : ValidPolygons [p]) : ValidPolygon p := h.valid p (by simp)

/-- What an operation gives outlines the combination. -/
theorem Operation.call_outlines {o : Orient} (ok : OrientOk o) (tb : TieBreak) (k : Operation) {ps qs : List Polygon}
    (hp : ValidPolygons ps) (hq : ValidPolygons qs) : ∃ g, k.call o tb ps qs = .ok g ∧
      Outlines k.holds (ps.flatMap Polygon.edges) (qs.flatMap Polygon.edges) g.polygons := by
  rcases ps with _ | ⟨p, _ | ⟨p', ps⟩⟩
  · rcases qs with _ | ⟨q, _ | ⟨q', qs⟩⟩
    all_goals
      cases k
      all_goals
        refine ⟨_, rfl, ?_⟩
        first
          | refine ValidPolygons.outlines validPolygons_nil ?_ fun z => ?_
          | refine ValidPolygons.outlines hq ?_ fun z => ?_
        · simp [segsPts]
        · simp [Combined, Operation.holds, inside_nil]
  · rcases qs with _ | ⟨q, _ | ⟨q', qs⟩⟩
    · cases k
      all_goals
        refine ⟨_, rfl, ?_⟩
        first
          | refine ValidPolygons.outlines validPolygons_nil ?_ fun z => ?_
          | refine ValidPolygons.outlines hp ?_ fun z => ?_
        · simp [segsPts]
        · simp [Combined, Operation.holds, inside_nil]
    · have vp := hp.single
      have vq := hq.single
      simp only [List.flatMap_cons, List.flatMap_nil, List.append_nil]
      cases k
      · obtain ⟨g, e, -, O, -⟩ := intersectPolygons_outlines ok tb vp vq
        exact ⟨g, e, O⟩
      · obtain ⟨g, e, -, O, -⟩ := subtractPolygons_outlines ok tb vp vq
        exact ⟨g, e, O⟩
      · obtain ⟨g, e, -, O, -⟩ := symmetricSubtractPolygons_outlines tb vp vq
        exact ⟨g, e, O⟩
      · obtain ⟨g, e, -, O, -⟩ := unitePolygons_outlines tb vp vq
        exact ⟨g, e, O⟩
    · have vp := hp.single
      have nq : q :: q' :: qs ≠ [] := by simp
      rw [show [p].flatMap Polygon.edges = p.edges by simp]
      cases k
      · obtain ⟨g, e, -, O, -⟩ := intersectPolygonWithMultipolygon_outlines ok tb vp nq hq
        exact ⟨g, e, O⟩
      · obtain ⟨g, e, -, O, -⟩ := subtractMultipolygonFromPolygon_outlines ok tb vp nq hq
        exact ⟨g, e, O⟩
      · obtain ⟨g, e, -, O, -⟩ := symmetricSubtractMultipolygonFromPolygon_outlines tb vp nq hq
        exact ⟨g, e, O⟩
      · obtain ⟨g, e, -, O, -⟩ := unitePolygonWithMultipolygon_outlines tb vp nq hq
        exact ⟨g, e, O⟩
  · have np : p :: p' :: ps ≠ [] := by simp
    rcases qs with _ | ⟨q, _ | ⟨q', qs⟩⟩
    · cases k
      all_goals
        refine ⟨_, rfl, ?_⟩
        first
          | refine ValidPolygons.outlines validPolygons_nil ?_ fun z => ?_
          | refine ValidPolygons.outlines hp ?_ fun z => ?_
        · simp [segsPts]
        · simp [Combined, Operation.holds, inside_nil]
    · have vq := hq.single
      rw [show [q].flatMap Polygon.edges = q.edges by simp]
      cases k
      · obtain ⟨g, e, -, O, -⟩ := intersectPolygonWithMultipolygon_outlines ok tb vq np hp
        exact ⟨g, e, O.swap fun a b => Bool.and_comm a b⟩
      · obtain ⟨g, e, -, O, -⟩ := subtractPolygonFromMultipolygon_outlines ok tb np hp vq
        exact ⟨g, e, O⟩
      · obtain ⟨g, e, -, O, -⟩ := symmetricSubtractMultipolygonFromPolygon_outlines tb vq np hp
        exact ⟨g, e, O.swap fun a b => Bool.xor_comm a b⟩
      · obtain ⟨g, e, -, O, -⟩ := unitePolygonWithMultipolygon_outlines tb vq np hp
        exact ⟨g, e, O.swap fun a b => Bool.or_comm a b⟩
    · have nq : q :: q' :: qs ≠ [] := by simp
      cases k
      · obtain ⟨g, e, -, O, -⟩ := intersectMultipolygons_outlines ok tb np hp nq hq
        exact ⟨g, e, O⟩
      · obtain ⟨g, e, -, O, -⟩ := subtractMultipolygons_outlines ok tb np hp nq hq
        exact ⟨g, e, O⟩
      · obtain ⟨g, e, -, O, -⟩ := symmetricSubtractMultipolygons_outlines tb np hp nq hq
        exact ⟨g, e, O⟩
      · obtain ⟨g, e, -, O, -⟩ := uniteMultipolygons_outlines tb np hp nq hq
        exact ⟨g, e, O⟩

open Classical in
/-- Off finitely many segments, a point is inside of what an expression gives exactly if its formula says so. -/
theorem Expression.Yields.inside {o : Orient} (ok : OrientOk o) {tb : TieBreak} {v : ℕ → List Polygon} (hv : ∀ i, ValidPolygons (v i))
    {x : Expression} {ps : List Polygon} (h : x.Yields o tb v ps) : (∀ p ∈ ps, SimpleContour p.border) ∧ NoOverlap (ps.flatMap Polygon.edges) ∧
      (∀ q, Even (degree (ps.flatMap Polygon.edges) q)) ∧ ∃ X : List Segment, (∀ s ∈ X, s.Proper) ∧
        ∀ q, q ∉ segsPts X → (Inside (ps.flatMap Polygon.edges) q ↔
          x.holds (fun i => decide (Inside ((v i).flatMap Polygon.edges) q)) = true) := by
  induction h with
  | operand i => exact ⟨fun p hp => ((hv i).valid p hp).border, (hv i).noOverlap, (hv i).even, [], by simp, fun q _ => by simp [Expression.holds]⟩
  | @apply k a b ps qs g ha hb hp hq e iha ihb =>
    obtain ⟨g', e', O⟩ := Operation.call_outlines ok tb k hp hq
    rw [e] at e'
    obtain rfl := Except.ok.inj e'
    obtain ⟨-, noA, -, XA, prA, hA⟩ := iha
    obtain ⟨-, noB, -, XB, prB, hB⟩ := ihb
    refine ⟨O.border, O.noOverlap, O.even, (XA ++ XB) ++ (ps.flatMap Polygon.edges ++ qs.flatMap Polygon.edges), ?_, fun q hq => ?_⟩
    · intro s hs
      simp only [List.mem_append] at hs
      rcases hs with (h | h) | h | h
      · exact prA s h
      · exact prB s h
      · exact noA.1 s h
      · exact noB.1 s h
    · simp only [segsPts_append, Set.mem_union, not_or] at hq
      rw [O.inside q (by simp only [segsPts_append, Set.mem_union, not_or]; exact hq.2)]
      unfold Combined
      simp only [Expression.holds, hA q hq.1.1, hB q hq.1.2]
      simp

end Clipping

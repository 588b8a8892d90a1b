import Verif.Spec.Drawn
import Verif.Lemmas.Shaped.Expression

/-!
# Operations on polygons with holes which may be attached to wrong polygons
-/

namespace Clipping

open Sweep

theorem Outlines.drawn {op : Bool → Bool → Bool} {A B : List Segment} {ps : List Polygon} (O : Outlines op A B ps) : Drawn ps :=
  ⟨O.border, O.hole, O.noOverlap, O.sides, O.held⟩

theorem ValidPolygons.drawn {ps : List Polygon} (h : ValidPolygons ps) : Drawn ps :=
  ⟨fun p hp => (h.valid p hp).border, fun p hp => (h.valid p hp).holes, h.noOverlap, h.sided,
    fun p hp c hc => ⟨p, hp, (h.valid p hp).inside c hc⟩⟩

/-- the polygons without their holes -/
def bare (ps : List Polygon) : List Polygon := ps.map fun p => ⟨p.border, []⟩

theorem bare_box (ps : List Polygon) : polygonsBox (bare ps) = polygonsBox ps := by
  cases ps with
  | nil => rfl
  | cons p l => simp [bare, polygonsBox, List.foldl_map]

theorem bare_maxX (ps : List Polygon) : polygonsMaxX (bare ps) = polygonsMaxX ps := by
  simp [bare, polygonsMaxX, List.flatMap_map]

theorem bare_ne {ps : List Polygon} (h : ps ≠ []) : bare ps ≠ [] := by simpa [bare] using h

namespace Drawn

variable {ps qs : List Polygon}

theorem sameEdges (h : Drawn ps) : SameEdges (ps.flatMap polygonEdges) (ps.flatMap Polygon.edges) :=
  simple_sameEdges h.border h.hole

theorem isBoundary (h : Drawn ps) : IsBoundary (ps.flatMap polygonEdges) := h.sides.isBoundary h.border h.hole h.noOverlap

theorem even (h : Drawn ps) (q : Point) : Even (degree (ps.flatMap Polygon.edges) q) := by
  rw [← degree_sameEdges h.sameEdges]; exact h.isBoundary.even q

theorem valid_bare (h : Drawn ps) : ∀ p ∈ bare ps, ValidPolygon p := by
  intro p hp
  obtain ⟨p', hp', rfl⟩ := List.mem_map.1 hp
  exact (h.border p' hp').validPolygon

theorem mem_bare {p : Polygon} (hp : p ∈ ps) {q : Point} (hq : q ∈ regionPts p.border.edges) : q ∈ polysPts (bare ps) :=
  ⟨_, List.mem_map.2 ⟨p, hp, rfl⟩, by simpa [polygon_pts_eq, Polygon.edges] using hq⟩

theorem inside_some {ι : Type} {l : List ι} {f : ι → List Segment} {q : Point} (h : Inside (l.flatMap f) q) :
    ∃ i ∈ l, Inside (f i) q := by
  induction l with
  | nil => exact absurd h (inside_nil q)
  | cons i l ih =>
    rw [List.flatMap_cons, inside_append] at h
    by_cases hi : Inside (f i) q
    · exact ⟨i, by simp, hi⟩
    · by_contra hcon
      refine hi (h.2 fun hl => ?_)
      obtain ⟨j, hj, hh⟩ := ih hl
      exact hcon ⟨j, by simp [hj], hh⟩

/-- The region is within the borders. -/
theorem covered (h : Drawn ps) : regionPts (ps.flatMap Polygon.edges) ⊆ polysPts (bare ps) := by
  have key : ∀ q, ∀ p ∈ ps, q ∈ segsPts p.edges ∨ Inside p.edges q → q ∈ polysPts (bare ps) := by
    intro q p hp hq
    have : q ∈ regionPts p.border.edges ∨ ∃ c ∈ p.holes, q ∈ regionPts c.edges := by
      unfold Polygon.edges at hq
      rcases hq with hq | hq
      · rw [segsPts_append] at hq
        rcases hq with hq | hq
        · exact Or.inl (Or.inl hq)
        · obtain ⟨c, hc, hq⟩ := segsPts_flatMap.1 hq
          exact Or.inr ⟨c, hc, Or.inl hq⟩
      · rw [inside_append] at hq
        by_cases hb : Inside p.border.edges q
        · exact Or.inl (Or.inr hb)
        · have : Inside (p.holes.flatMap Contour.edges) q := by
            by_contra hn; exact hb (hq.2 hn)
          obtain ⟨c, hc, hq⟩ := inside_some this
          exact Or.inr ⟨c, hc, Or.inr hq⟩
    rcases this with hb | ⟨c, hc, hq⟩
    · exact mem_bare hp hb
    · obtain ⟨p', hp', hs⟩ := h.held p hp c hc
      exact mem_bare hp' (hs hq)
  rintro q (hq | hq)
  · obtain ⟨p, hp, hq⟩ := segsPts_flatMap.1 hq
    exact key q p hp (Or.inl hq)
  · obtain ⟨p, hp, hq⟩ := inside_some hq
    exact key q p hp (Or.inr hq)

theorem box (h : Drawn ps) {b : Box} (hb : polygonsBox ps = .ok b) : regionPts (ps.flatMap Polygon.edges) ⊆ b.pts ∧ b.Nonempty := by
  rw [← bare_box] at hb
  obtain ⟨h1, h2⟩ := polygonsBox_spec h.valid_bare hb
  exact ⟨h.covered.trans h1, h2⟩

theorem two_points (h : Drawn ps) {b : Box} (hb : polygonsBox ps = .ok b) (q : Point) : ∃ z ∈ b.pts, q ≠ z := by
  rw [← bare_box] at hb
  exact Clipping.two_points h.valid_bare hb q

theorem maxX (h : Drawn ps) (hne : ps ≠ []) : ∃ m, polygonsMaxX ps = .ok m ∧ ∀ q ∈ segsPts (ps.flatMap polygonEdges), q.x ≤ m := by
  obtain ⟨m, h1, h2⟩ := polygonsMaxX_spec h.valid_bare (bare_ne hne)
  rw [bare_maxX] at h1
  refine ⟨m, h1, fun q hq => h2 q (h.covered (Or.inl ?_))⟩
  rw [← h.sameEdges.segsPts_eq]; exact hq

theorem perm (p : ps.Perm qs) (h : Drawn ps) : Drawn qs := by
  have hb : ∀ x ∈ qs, SimpleContour x.border := fun x hx => h.border x (p.mem_iff.2 hx)
  have hh : ∀ x ∈ qs, ∀ c ∈ x.holes, SimpleContour c := fun x hx => h.hole x (p.mem_iff.2 hx)
  refine ⟨hb, hh, h.noOverlap.perm (flatMap_edges_perm p), (h.isBoundary.perm (p.flatMap_right _)).sided hb hh, ?_⟩
  intro x hx c hc
  obtain ⟨y, hy, hs⟩ := h.held x (p.mem_iff.2 hx) c hc
  exact ⟨y, p.mem_iff.1 hy, hs⟩

/-- Two operands whose boxes are disjoint, side by side. -/
theorem append (hP : Drawn ps) (hQ : Drawn qs) {bP bQ : Box} (eP : polygonsBox ps = .ok bP) (eQ : polygonsBox qs = .ok bQ)
    (hd : disjointWith bP bQ = true) : Drawn (ps ++ qs) := by
  obtain ⟨sP, nP⟩ := hP.box eP
  obtain ⟨sQ, nQ⟩ := hQ.box eQ
  have dis := (disjointWith_iff bP bQ nP nQ).1.1 hd
  have hb : ∀ x ∈ ps ++ qs, SimpleContour x.border := by
    intro x hx
    rcases List.mem_append.1 hx with h | h
    · exact hP.border x h
    · exact hQ.border x h
  have hh : ∀ x ∈ ps ++ qs, ∀ c ∈ x.holes, SimpleContour c := by
    intro x hx
    rcases List.mem_append.1 hx with h | h
    · exact hP.hole x h
    · exact hQ.hole x h
  have no : NoOverlap ((ps ++ qs).flatMap Polygon.edges) := by
    rw [List.flatMap_append]
    refine ⟨?_, List.pairwise_append.2 ⟨hP.noOverlap.2, hQ.noOverlap.2, ?_⟩⟩
    · intro e he
      rcases List.mem_append.1 he with h | h
      · exact hP.noOverlap.1 e h
      · exact hQ.noOverlap.1 e h
    · intro s hs t ht ho
      obtain ⟨m, -, -, m1, -, m2, -⟩ := ho
      exact dis m (sP (Or.inl ⟨s, hs, m1⟩)) (sQ (Or.inl ⟨t, ht, m2⟩))
  have bd : IsBoundary ((ps ++ qs).flatMap polygonEdges) := by
    have no' := (simple_sameEdges hb hh).symm.noOverlap no
    rw [List.flatMap_append] at no' ⊢
    refine hP.isBoundary.append hQ.isBoundary no' ?_ ?_
    · intro m hm _ hi
      rw [hP.sameEdges.regionPts_eq] at hm
      rw [hQ.sameEdges.inside_iff] at hi
      exact dis m (sP hm) (sQ (Or.inr hi))
    · intro m hm _ hi
      rw [hQ.sameEdges.regionPts_eq] at hm
      rw [hP.sameEdges.inside_iff] at hi
      exact dis m (sP (Or.inr hi)) (sQ hm)
  refine ⟨hb, hh, no, bd.sided hb hh, ?_⟩
  intro x hx c hc
  rcases List.mem_append.1 hx with h | h
  · obtain ⟨y, hy, hs⟩ := hP.held x h c hc
    exact ⟨y, List.mem_append_left _ hy, hs⟩
  · obtain ⟨y, hy, hs⟩ := hQ.held x h c hc
    exact ⟨y, List.mem_append_right _ hy, hs⟩

/-- the operand itself -/
theorem outlines (h : Drawn ps) {op : Bool → Bool → Bool} {A B : List Segment}
    (hs : segsPts (ps.flatMap Polygon.edges) ⊆ segsPts (A ++ B))
    (hc : ∀ q, q ∉ segsPts (A ++ B) → (Inside (ps.flatMap Polygon.edges) q ↔ Combined op A B q)) : Outlines op A B ps :=
  ⟨h.border, h.hole, h.noOverlap, hs, hc, h.sides, h.held⟩

/-- the sweep -/
theorem sweep {rule : ShapedRule} {op : Bool → Bool → Bool} (hr : RuleOk rule) (hop : RuleFor rule op) (tb : TieBreak)
    {xmax : Option ℚ} (hP : Drawn ps) (hQ : Drawn qs) (hst : StopOk op xmax (ps.flatMap polygonEdges) (qs.flatMap polygonEdges)) :
    ∃ h events rs, holeySweep rule tb xmax ps qs = .ok (h, events) ∧ eventsToPolygons h events = .ok rs ∧
      Outlines op (ps.flatMap Polygon.edges) (qs.flatMap Polygon.edges) rs := by
  obtain ⟨h, events, rs, e, e', O, -⟩ := boundarySweep_outlines hr hop tb hP.isBoundary hQ.isBoundary hP.sameEdges hQ.sameEdges hst
  exact ⟨h, events, rs, e, e', O⟩

theorem boxes_disjoint (hP : Drawn ps) (hQ : Drawn qs) {bP bQ : Box} (eP : polygonsBox ps = .ok bP) (eQ : polygonsBox qs = .ok bQ)
    (hd : disjointWith bP bQ = true) {q : Point} (h : Inside (ps.flatMap Polygon.edges) q) : ¬ Inside (qs.flatMap Polygon.edges) q :=
  fun h' => (disjointWith_iff bP bQ (hP.box eP).2 (hQ.box eQ).2).1.1 hd q ((hP.box eP).1 (Or.inr h)) ((hQ.box eQ).1 (Or.inr h'))

theorem beside (hP : Drawn ps) (hQ : Drawn qs) {bP bQ : Box} (eP : polygonsBox ps = .ok bP) (eQ : polygonsBox qs = .ok bQ)
    (hd : disjointWith bP bQ = true) {op : Bool → Bool → Bool}
    (hc : ∀ A B q, (Inside A q → ¬ Inside B q) → (Combined op A B q ↔ Inside A q ∨ Inside B q)) :
    Outlines op (ps.flatMap Polygon.edges) (qs.flatMap Polygon.edges) (sortPolygons (ps ++ qs)) := by
  have pm := sortPolygons_perm (ps ++ qs)
  refine ((hP.append hQ eP eQ hd).perm pm.symm).outlines ?_ ?_
  · rw [segsPts_perm (flatMap_edges_perm pm), List.flatMap_append]
  · intro q hq
    have dis := hP.boxes_disjoint hQ eP eQ hd (q := q)
    rw [inside_perm (flatMap_edges_perm pm), List.flatMap_append, inside_append, hc _ _ _ dis]
    tauto

end Drawn

section

variable {a b : ShapedOperand} (na : a.polygons ≠ []) (ha : Drawn a.polygons) (nb : b.polygons ≠ [])

include na ha nb

theorem holeySymmetricDifference_drawn (hb : Drawn b.polygons) (tb : TieBreak) : ∃ g, holeySymmetricDifference tb a b = .ok g ∧
    Outlines xor (a.polygons.flatMap Polygon.edges) (b.polygons.flatMap Polygon.edges) g.polygons := by
  obtain ⟨ba, h1⟩ := polygonsBox_ok na
  obtain ⟨bb, h2⟩ := polygonsBox_ok nb
  unfold holeySymmetricDifference
  rw [h1, h2]
  simp only [bind, Except.bind, pure, Except.pure]
  by_cases hd : disjointWith ba bb = true
  · rw [if_pos hd]
    refine ⟨_, rfl, ha.beside hb h1 h2 hd fun A B q h => ?_⟩
    rw [combined_xor]; tauto
  · rw [if_neg hd]
    obtain ⟨h, events, ps, e, e', O⟩ := ha.sweep symmetricDifferenceRule_ok symmetricDifferenceRule_for tb hb (stopOk_none _ _ _)
    simp only [e, e']
    exact ⟨_, rfl, by rw [unpackPolygons_polygons]; exact O⟩

theorem holeyUnion_drawn (hb : Drawn b.polygons) (tb : TieBreak) : ∃ g, holeyUnion tb a b = .ok g ∧
    Outlines (fun a b => a || b) (a.polygons.flatMap Polygon.edges) (b.polygons.flatMap Polygon.edges) g.polygons := by
  obtain ⟨ba, h1⟩ := polygonsBox_ok na
  obtain ⟨bb, h2⟩ := polygonsBox_ok nb
  unfold holeyUnion
  rw [h1, h2]
  simp only [bind, Except.bind, pure, Except.pure]
  by_cases hd : disjointWith ba bb = true
  · rw [if_pos hd]
    refine ⟨_, rfl, ha.beside hb h1 h2 hd fun A B q h => ?_⟩
    rw [combined_or]
  · rw [if_neg hd]
    obtain ⟨h, events, ps, e, e', O⟩ := ha.sweep unionRule_ok unionRule_for tb hb (stopOk_none _ _ _)
    simp only [e, e']
    exact ⟨_, rfl, by rw [unpackPolygons_polygons]; exact O⟩

theorem holeyDifference_drawn {o : Orient} (ok : OrientOk o) (hb : ValidPolygons b.polygons) (tb : TieBreak)
    (va : a.value.polygons = a.polygons) : ∃ g, holeyDifference o tb a b = .ok g ∧
    Outlines (fun a b => a && !b) (a.polygons.flatMap Polygon.edges) (b.polygons.flatMap Polygon.edges) g.polygons := by
  obtain ⟨ba, h1⟩ := polygonsBox_ok na
  obtain ⟨bb, h2⟩ := polygonsBox_ok nb
  unfold holeyDifference
  rw [h1, h2]
  simp only [bind, Except.bind, pure, Except.pure]
  have value : (∀ q, q ∉ segsPts (a.polygons.flatMap Polygon.edges ++ b.polygons.flatMap Polygon.edges) →
      Inside (a.polygons.flatMap Polygon.edges) q → ¬ Inside (b.polygons.flatMap Polygon.edges) q) →
      Outlines (fun a b => a && !b) (a.polygons.flatMap Polygon.edges) (b.polygons.flatMap Polygon.edges) a.value.polygons := by
    intro hk
    rw [va]
    refine ha.outlines ?_ ?_
    · rw [segsPts_append]; exact Set.subset_union_left
    · intro q hq
      rw [combined_diff]
      exact ⟨fun h => ⟨h, hk q hq h⟩, fun h => h.1⟩
  by_cases hd : disjointWith ba bb = true
  · rw [if_pos hd]
    exact ⟨_, rfl, value fun q _ h => ha.boxes_disjoint hb.drawn h1 h2 hd h⟩
  · rw [if_neg hd]
    have key : ∀ q, q ∉ segsPts (a.polygons.flatMap Polygon.edges ++ b.polygons.flatMap Polygon.edges) →
        Inside (a.polygons.flatMap Polygon.edges) q → (Inside ((toCoupledPolygons o ba b.polygons).flatMap Polygon.edges) q ↔
          Inside (b.polygons.flatMap Polygon.edges) q) := by
      intro q hq hi
      have inb := (ha.box h1).1 (Or.inr hi)
      obtain ⟨z, hz, hne⟩ := ha.two_points h1 q
      refine inside_filter fun p hp hf => ?_
      exact coupledWithPolygon_interior ok (hb.valid p hp) (ha.box h1).2 hf inb hz hne
        fun h => (off_append hq).2 (segsPts_flatMap.2 ⟨p, hp, h⟩)
    by_cases e2 : (toCoupledPolygons o ba b.polygons).isEmpty = true
    · rw [if_pos e2]
      refine ⟨_, rfl, value fun q hq h => ?_⟩
      rw [← key q hq h, List.isEmpty_iff.1 e2]
      exact inside_nil q
    · rw [if_neg e2]
      have s2 := toCoupledPolygons_sub o ba b.polygons
      have v2 := hb.sublist s2
      obtain ⟨n₁, x₁, g₁⟩ := ha.maxX na
      obtain ⟨h, events, ps, e, e', O⟩ := ha.sweep differenceRule_ok differenceRule_for tb v2.drawn (stopOk_first g₁ (by simp))
      simp only [x₁, e, e']
      refine ⟨_, rfl, ?_⟩
      rw [unpackPolygons_polygons]
      refine O.mono (segsPts_append_sub subset_rfl (flatMap_edges_sub s2)) fun q hq => ?_
      rw [combined_diff, combined_diff]
      exact ⟨fun h => ⟨h.1, fun h' => h.2 ((key q hq h.1).2 h')⟩, fun h => ⟨h.1, fun h' => h.2 ((key q hq h.1).1 h')⟩⟩

end

/-- What an operation gives outlines the combination. -/
theorem Operation.call_drawn {o : Orient} (ok : OrientOk o) (tb : TieBreak) (k : Operation) {ps qs : List Polygon}
    (hp : Drawn ps) (hq : Drawn qs) (hd : k.Demands ps qs) : ∃ g, k.call o tb ps qs = .ok g ∧
      Outlines k.holds (ps.flatMap Polygon.edges) (qs.flatMap Polygon.edges) g.polygons := by
  by_cases ep : ps = []
  · subst ep
    have nil := validPolygons_nil.drawn
    cases k
    all_goals
      refine ⟨_, rfl, ?_⟩
      first
        | refine nil.outlines ?_ fun z => ?_
        | refine hq.outlines ?_ fun z => ?_
      · simp [segsPts]
      · simp [Combined, Operation.holds, inside_nil]
  by_cases eq : qs = []
  · subst eq
    have nil := validPolygons_nil.drawn
    have : ∀ g, (k = .intersection ∧ g = .empty ∨ k ≠ .intersection ∧ g = .multipolygon ps) → k.call o tb ps [] = .ok g := by
      intro g hg
      rcases ps with _ | ⟨p, _ | ⟨p', ps⟩⟩
      · exact absurd rfl ep
      · rcases hg with ⟨rfl, rfl⟩ | ⟨h, rfl⟩
        · rfl
        · cases k
          · exact absurd rfl h
          all_goals rfl
      · rcases hg with ⟨rfl, rfl⟩ | ⟨h, rfl⟩
        · rfl
        · cases k
          · exact absurd rfl h
          all_goals rfl
    by_cases hk : k = .intersection
    · subst hk
      refine ⟨_, this _ (Or.inl ⟨rfl, rfl⟩), nil.outlines ?_ fun z => ?_⟩
      · simp [segsPts]
      · simp [Combined, Operation.holds, inside_nil]
    · refine ⟨_, this _ (Or.inr ⟨hk, rfl⟩), hp.outlines ?_ fun z => ?_⟩
      · simp [segsPts, Geometry.polygons]
      · cases k
        · exact absurd rfl hk
        all_goals simp [Combined, Operation.holds, inside_nil, Geometry.polygons]
  cases k
  · exact Operation.call_outlines ok tb .intersection hd.1 hd.2
  · rcases ps with _ | ⟨p, _ | ⟨p', ps⟩⟩
    · exact absurd rfl ep
    all_goals
      rcases qs with _ | ⟨q, _ | ⟨q', qs⟩⟩
      · exact absurd rfl eq
      · exact holeyDifference_drawn (a := _) (b := polygonOperand q) ep hp eq ok hd tb rfl
      · exact holeyDifference_drawn (a := _) (b := multipolygonOperand (q :: q' :: qs)) ep hp eq ok hd tb rfl
  · rcases ps with _ | ⟨p, _ | ⟨p', ps⟩⟩
    · exact absurd rfl ep
    · rcases qs with _ | ⟨q, _ | ⟨q', qs⟩⟩
      · exact absurd rfl eq
      · exact holeySymmetricDifference_drawn (a := polygonOperand p) (b := polygonOperand q) ep hp eq hq tb
      · exact holeySymmetricDifference_drawn (a := polygonOperand p) (b := multipolygonOperand (q :: q' :: qs)) ep hp eq hq tb
    · rcases qs with _ | ⟨q, _ | ⟨q', qs⟩⟩
      · exact absurd rfl eq
      · obtain ⟨g, e, O⟩ := holeySymmetricDifference_drawn (b := multipolygonOperand (p :: p' :: ps)) (a := polygonOperand q) eq hq ep hp tb
        exact ⟨g, e, O.swap fun a b => Bool.xor_comm a b⟩
      · exact holeySymmetricDifference_drawn (a := multipolygonOperand (p :: p' :: ps)) (b := multipolygonOperand (q :: q' :: qs)) ep hp eq hq tb
  · rcases ps with _ | ⟨p, _ | ⟨p', ps⟩⟩
    · exact absurd rfl ep
    · rcases qs with _ | ⟨q, _ | ⟨q', qs⟩⟩
      · exact absurd rfl eq
      · exact holeyUnion_drawn (a := polygonOperand p) (b := polygonOperand q) ep hp eq hq tb
      · exact holeyUnion_drawn (a := polygonOperand p) (b := multipolygonOperand (q :: q' :: qs)) ep hp eq hq tb
    · rcases qs with _ | ⟨q, _ | ⟨q', qs⟩⟩
      · exact absurd rfl eq
      · obtain ⟨g, e, O⟩ := holeyUnion_drawn (b := multipolygonOperand (p :: p' :: ps)) (a := polygonOperand q) eq hq ep hp tb
        exact ⟨g, e, O.swap fun a b => Bool.or_comm a b⟩
      · exact holeyUnion_drawn (a := multipolygonOperand (p :: p' :: ps)) (b := multipolygonOperand (q :: q' :: qs)) ep hp eq hq tb

/-- Everything an expression gives is drawn. -/
theorem Expression.Evaluates.drawn {o : Orient} (ok : OrientOk o) {tb : TieBreak} {v : ℕ → List Polygon} (hv : ∀ i, Drawn (v i))
    {x : Expression} {ps : List Polygon} (h : x.Evaluates o tb v ps) : Drawn ps := by
  induction h with
  | operand i => exact hv i
  | @apply k a b ps qs g ha hb hd e iha ihb =>
    obtain ⟨g', e', O⟩ := Operation.call_drawn ok tb k iha ihb hd
    rw [e] at e'
    obtain rfl := Except.ok.inj e'
    exact O.drawn

theorem Expression.edges_apply (v : ℕ → List Polygon) (k : Operation) (a b : Expression) :
    (Expression.apply k a b).edges v = a.edges v ++ b.edges v := by
  simp [Expression.edges, Expression.leaves]

/-- The contours of what an expression gives are on the edges of the operands. -/
theorem Expression.Evaluates.within {o : Orient} (ok : OrientOk o) {tb : TieBreak} {v : ℕ → List Polygon} (hv : ∀ i, Drawn (v i))
    {x : Expression} {ps : List Polygon} (h : x.Evaluates o tb v ps) : segsPts (ps.flatMap Polygon.edges) ⊆ segsPts (x.edges v) := by
  induction h with
  | operand i => simp [Expression.edges, Expression.leaves]
  | @apply k a b ps qs g ha hb hd e iha ihb =>
    obtain ⟨g', e', O⟩ := Operation.call_drawn ok tb k (ha.drawn ok hv) (hb.drawn ok hv) hd
    rw [e] at e'
    obtain rfl := Except.ok.inj e'
    rw [Expression.edges_apply]
    exact O.within.trans (segsPts_append_sub iha ihb)

open Classical in
/-- Off the edges of the operands, a point is inside of what an expression gives exactly if its formula says so. -/
theorem Expression.Evaluates.inside {o : Orient} (ok : OrientOk o) {tb : TieBreak} {v : ℕ → List Polygon} (hv : ∀ i, Drawn (v i))
    {x : Expression} {ps : List Polygon} (h : x.Evaluates o tb v ps) {q : Point} (hq : q ∉ segsPts (x.edges v)) :
    Inside (ps.flatMap Polygon.edges) q ↔ x.holds (fun i => decide (Inside ((v i).flatMap Polygon.edges) q)) = true := by
  induction h with
  | operand i => simp [Expression.holds]
  | @apply k a b ps qs g ha hb hd e iha ihb =>
    obtain ⟨g', e', O⟩ := Operation.call_drawn ok tb k (ha.drawn ok hv) (hb.drawn ok hv) hd
    rw [e] at e'
    obtain rfl := Except.ok.inj e'
    rw [Expression.edges_apply] at hq
    obtain ⟨h1, h2⟩ := off_append hq
    rw [O.inside q fun hh => hq (segsPts_append_sub (ha.within ok hv) (hb.within ok hv) hh)]
    unfold Combined
    simp only [Expression.holds, iha h1, ihb h2]
    simp

theorem segsPts_sub_of_inside {E F X : List Segment} (hE : NoOverlap E) (dE : ∀ q, Even (degree E q)) (hF : NoOverlap F)
    (dF : ∀ q, Even (degree F q)) (hX : ∀ s ∈ X, s.Proper) (h : ∀ q, q ∉ segsPts X → (Inside E q ↔ Inside F q)) :
    segsPts E ⊆ segsPts F := by
  intro q hq
  by_contra hn
  obtain ⟨δ, h0, h1⟩ := inside_near hF.1 dF hn
  obtain ⟨⟨z, z1, z2, -, z3⟩, w, w1, w2, -, w3⟩ := near_both hE dE hq hX h0
  rw [h z z2, (h1 z z1).2] at z3
  rw [h w w2, (h1 w w1).2] at w3
  exact w3 z3

end Clipping

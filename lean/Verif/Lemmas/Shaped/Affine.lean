import Verif.Lemmas.Region.AffineParts
import Verif.Lemmas.Shaped.Standard

/-!
# Operations on affine images
-/

namespace Clipping

theorem cornered_results {ps qs rs : List Polygon} (hp : ∀ c ∈ contoursOf ps, c.Cornered) (hq : ∀ c ∈ contoursOf qs, c.Cornered)
    (h : rs.Perm (ps ++ qs) ∨ NormalPolygons rs) : ∀ c ∈ contoursOf rs, c.Cornered := by
  rcases h with h | h
  · intro c hc
    obtain ⟨r, hr, hc⟩ := List.mem_flatMap.1 hc
    rcases List.mem_append.1 (h.mem_iff.1 hr) with g | g
    · exact hp c (List.mem_flatMap.2 ⟨r, g, hc⟩)
    · exact hq c (List.mem_flatMap.2 ⟨r, g, hc⟩)
  · exact h.cornered

theorem cornered_difference {ps : List Polygon} {g g' : Geometry} (e : g'.polygons = ps) (hp : ∀ c ∈ contoursOf ps, c.Cornered)
    (h : g = g' ∨ NormalPolygons g.polygons) : ∀ c ∈ contoursOf g.polygons, c.Cornered := by
  rcases h with rfl | h
  · rwa [e]
  · exact h.cornered

/-- Results on polygons without superfluous vertices have no superfluous vertices. -/
theorem Operation.call_cornered {o : Orient} (ok : OrientOk o) (tb : TieBreak) (k : Operation) {ps qs : List Polygon}
    (hp : ValidPolygons ps) (hq : ValidPolygons qs) (sp : ∀ c ∈ contoursOf ps, c.Cornered) (sq : ∀ c ∈ contoursOf qs, c.Cornered) {g : Geometry} (h : k.call o tb ps qs = .ok g) :
    ∀ c ∈ contoursOf g.polygons, c.Cornered := by
  have trivial : k.call o tb ps qs = .ok .empty ∨ k.call o tb ps qs = .ok (.multipolygon ps) ∨ k.call o tb ps qs = .ok (.multipolygon qs) →
      ∀ c ∈ contoursOf g.polygons, c.Cornered := by
    rintro (e | e | e) <;> rw [h] at e <;> obtain rfl := Except.ok.inj e
    · exact (by simp [contoursOf, Geometry.polygons])
    · exact sp
    · exact sq
  rcases ps with _ | ⟨p, _ | ⟨p', ps⟩⟩
  · rcases qs with _ | ⟨q, _ | ⟨q', qs⟩⟩
    all_goals cases k
    all_goals exact trivial (by first | exact Or.inl rfl | exact Or.inr (Or.inl rfl) | exact Or.inr (Or.inr rfl))
  · have vp := hp.single
    rcases qs with _ | ⟨q, _ | ⟨q', qs⟩⟩
    · cases k
      all_goals exact trivial (by first | exact Or.inl rfl | exact Or.inr (Or.inl rfl) | exact Or.inr (Or.inr rfl))
    · have vq := hq.single
      cases k
      · obtain ⟨g'', e'', n⟩ := intersectPolygons_normal ok tb vp vq
        have e : .ok g = Except.ok g'' := h.symm.trans e''
        obtain rfl := Except.ok.inj e
        exact n.cornered
      · obtain ⟨g'', e'', n⟩ := subtractPolygons_normal ok tb vp vq
        have e : .ok g = Except.ok g'' := h.symm.trans e''
        obtain rfl := Except.ok.inj e
        exact cornered_difference (g' := (.polygon p)) rfl sp n
      · obtain ⟨g'', e'', n⟩ := symmetricSubtractPolygons_normal tb vp vq
        have e : .ok g = Except.ok g'' := h.symm.trans e''
        obtain rfl := Except.ok.inj e
        exact cornered_results sp sq n.2
      · obtain ⟨g'', e'', n⟩ := unitePolygons_normal tb vp vq
        have e : .ok g = Except.ok g'' := h.symm.trans e''
        obtain rfl := Except.ok.inj e
        exact cornered_results sp sq n.2
    · have nq : q :: q' :: qs ≠ [] := by simp
      cases k
      · obtain ⟨g'', e'', n⟩ := intersectPolygonWithMultipolygon_normal ok tb vp nq hq
        have e : .ok g = Except.ok g'' := h.symm.trans e''
        obtain rfl := Except.ok.inj e
        exact n.cornered
      · obtain ⟨g'', e'', n⟩ := subtractMultipolygonFromPolygon_normal ok tb vp nq hq
        have e : .ok g = Except.ok g'' := h.symm.trans e''
        obtain rfl := Except.ok.inj e
        exact cornered_difference (g' := (.polygon p)) rfl sp n
      · obtain ⟨g'', e'', n⟩ := symmetricSubtractMultipolygonFromPolygon_normal tb vp nq hq
        have e : .ok g = Except.ok g'' := h.symm.trans e''
        obtain rfl := Except.ok.inj e
        exact cornered_results sp sq n.2
      · obtain ⟨g'', e'', n⟩ := unitePolygonWithMultipolygon_normal tb vp nq hq
        have e : .ok g = Except.ok g'' := h.symm.trans e''
        obtain rfl := Except.ok.inj e
        exact cornered_results sp sq n.2
  · have np : p :: p' :: ps ≠ [] := by simp
    rcases qs with _ | ⟨q, _ | ⟨q', qs⟩⟩
    · cases k
      all_goals exact trivial (by first | exact Or.inl rfl | exact Or.inr (Or.inl rfl) | exact Or.inr (Or.inr rfl))
    · have vq := hq.single
      cases k
      · obtain ⟨g'', e'', n⟩ := intersectPolygonWithMultipolygon_normal ok tb vq np hp
        have e : .ok g = Except.ok g'' := h.symm.trans e''
        obtain rfl := Except.ok.inj e
        exact n.cornered
      · obtain ⟨g'', e'', n⟩ := subtractPolygonFromMultipolygon_normal ok tb np hp vq
        have e : .ok g = Except.ok g'' := h.symm.trans e''
        obtain rfl := Except.ok.inj e
        exact cornered_difference (g' := (.multipolygon (p :: p' :: ps))) rfl sp n
      · obtain ⟨g'', e'', n⟩ := symmetricSubtractMultipolygonFromPolygon_normal tb vq np hp
        have e : .ok g = Except.ok g'' := h.symm.trans e''
        obtain rfl := Except.ok.inj e
        exact cornered_results sq sp n.2
      · obtain ⟨g'', e'', n⟩ := unitePolygonWithMultipolygon_normal tb vq np hp
        have e : .ok g = Except.ok g'' := h.symm.trans e''
        obtain rfl := Except.ok.inj e
        exact cornered_results sq sp n.2
    · have nq : q :: q' :: qs ≠ [] := by simp
      cases k
      · obtain ⟨g'', e'', n⟩ := intersectMultipolygons_normal ok tb np hp nq hq
        have e : .ok g = Except.ok g'' := h.symm.trans e''
        obtain rfl := Except.ok.inj e
        exact n.cornered
      · obtain ⟨g'', e'', n⟩ := subtractMultipolygons_normal ok tb np hp nq hq
        have e : .ok g = Except.ok g'' := h.symm.trans e''
        obtain rfl := Except.ok.inj e
        exact cornered_difference (g' := (.multipolygon (p :: p' :: ps))) rfl sp n
      · obtain ⟨g'', e'', n⟩ := symmetricSubtractMultipolygons_normal tb np hp nq hq
        have e : .ok g = Except.ok g'' := h.symm.trans e''
        obtain rfl := Except.ok.inj e
        exact cornered_results sp sq n.2
      · obtain ⟨g'', e'', n⟩ := uniteMultipolygons_normal tb np hp nq hq
        have e : .ok g = Except.ok g'' := h.symm.trans e''
        obtain rfl := Except.ok.inj e
        exact cornered_results sp sq n.2

namespace Affine

variable (T : Affine)

theorem contoursOf_map (ps : List Polygon) : contoursOf (ps.map T.polygon) = (contoursOf ps).map T.contour := by
  unfold contoursOf
  rw [List.map_flatMap, List.flatMap_map]
  rfl

theorem inside_polygons {ps : List Polygon} (h : ∀ c ∈ contoursOf ps, SimpleContour c) {z : Point}
    (hz : z ∉ segsPts (ps.flatMap Polygon.edges)) :
    Inside ((ps.map T.polygon).flatMap Polygon.edges) (T.point z) ↔ Inside (ps.flatMap Polygon.edges) z := by
  rw [polygons_edges]
  rw [← contoursOf_edges] at hz ⊢
  exact T.inside_contours h hz

theorem region_polygons {ps : List Polygon} (h : ∀ c ∈ contoursOf ps, SimpleContour c) :
    regionPts ((ps.map T.polygon).flatMap Polygon.edges) = T.point '' regionPts (ps.flatMap Polygon.edges) := by
  rw [polygons_edges, ← contoursOf_edges]
  exact T.region_contours h

theorem polysPts_map {ps : List Polygon} (h : ValidPolygons ps) : polysPts (ps.map T.polygon) = T.point '' polysPts ps := by
  rw [(T.valid_polygons h).polysPts_eq, h.polysPts_eq]
  refine T.region_polygons fun c hc => ?_
  obtain ⟨p, hp, hc⟩ := List.mem_flatMap.1 hc
  rcases List.mem_cons.1 hc with rfl | hc
  · exact (h.valid p hp).border
  · exact (h.valid p hp).holes c hc

theorem cornered {c : Contour} (h : c.Cornered) : (T.contour c).Cornered := by
  intro u v w rest hr e
  have g : c.vertices ~r (T.inv.point u :: T.inv.point v :: T.inv.point w :: rest.map T.inv.point) := by
    have := hr.map T.inv.point
    rw [contour, List.map_map] at this
    have i : c.vertices.map (T.inv.point ∘ T.point) = c.vertices := by
      conv_rhs => rw [← List.map_id c.vertices]
      exact List.map_congr_left fun s _ => T.inv_point s
    rw [i] at this
    simpa using this
  refine h _ _ _ _ g ?_
  have : cross (T.inv.point u) (T.inv.point v) (T.inv.point w) = (T.inv.a * T.inv.d - T.inv.b * T.inv.c) * cross u v w := by
    simp only [cross, point]; ring
  rw [this, e, mul_zero]

theorem separate {ps : List Polygon} (h : Separate ps) : Separate (ps.map T.polygon) := by
  refine ⟨T.valid_polygons h.valid, T.detached h.detached, fun c hc => ?_⟩
  rw [contoursOf_map] at hc
  obtain ⟨d, hd, rfl⟩ := List.mem_map.1 hc
  exact T.cornered (h.cornered d hd)

end Affine

theorem Expression.Yields.contours {o : Orient} (ok : OrientOk o) {tb : TieBreak} {v : ℕ → List Polygon} (hv : ∀ i, ValidPolygons (v i))
    {x : Expression} {ps : List Polygon} (h : x.Yields o tb v ps) : ∀ c ∈ contoursOf ps, SimpleContour c := by
  have key : ∀ {ps : List Polygon}, (∀ p ∈ ps, SimpleContour p.border) → (∀ p ∈ ps, ∀ c ∈ p.holes, SimpleContour c) →
      ∀ c ∈ contoursOf ps, SimpleContour c := by
    intro ps h1 h2 c hc
    obtain ⟨p, hp, hc⟩ := List.mem_flatMap.1 hc
    rcases List.mem_cons.1 hc with rfl | hc
    · exact h1 p hp
    · exact h2 p hp c hc
  cases h with
  | operand i => exact key (fun p hp => ((hv i).valid p hp).border) fun p hp => ((hv i).valid p hp).holes
  | @apply k a b ps qs g ha hb hp hq e =>
    obtain ⟨g', e', O⟩ := Operation.call_outlines ok tb k hp hq
    rw [e] at e'
    obtain rfl := Except.ok.inj e'
    exact key O.border O.hole

theorem Expression.Yields.cornered {o : Orient} (ok : OrientOk o) {tb : TieBreak} {v : ℕ → List Polygon}
    (cv : ∀ i, ∀ c ∈ contoursOf (v i), c.Cornered) {x : Expression} {ps : List Polygon} (h : x.Yields o tb v ps) :
    ∀ c ∈ contoursOf ps, c.Cornered := by
  induction h with
  | operand i => exact cv i
  | @apply k a b ps qs g ha hb hp hq e iha ihb => exact Operation.call_cornered ok tb k hp hq iha ihb e

/-- Off finitely many segments, a point is inside of what an expression gives exactly if its image is inside of what the expression gives
on the images of the operands. -/
theorem Expression.Yields.affine {o o' : Orient} (ok : OrientOk o) (ok' : OrientOk o') {tb tb' : TieBreak} {v : ℕ → List Polygon}
    (hv : ∀ i, ValidPolygons (v i)) (T : Affine) {x : Expression} {ps qs : List Polygon} (h : x.Yields o tb v ps)
    (h' : x.Yields o' tb' (fun i => (v i).map T.polygon) qs) : ∃ X : List Segment, (∀ s ∈ X, s.Proper) ∧
      ∀ q, q ∉ segsPts X → (Inside (qs.flatMap Polygon.edges) (T.point q) ↔ Inside (ps.flatMap Polygon.edges) q) := by
  induction h generalizing qs with
  | operand i =>
    cases h'
    refine ⟨(v i).flatMap Polygon.edges, (hv i).noOverlap.1, fun q hq => ?_⟩
    refine T.inside_polygons (Expression.Yields.contours ok hv (.operand (o := o) (tb := tb) i)) hq
  | @apply k a b ps₁ ps₂ g ha hb hp hq e iha ihb =>
    cases h' with
    | @apply _ _ _ qs₁ qs₂ g' ha' hb' hp' hq' e' =>
      obtain ⟨X, prX, hX⟩ := iha ha'
      obtain ⟨Y, prY, hY⟩ := ihb hb'
      obtain ⟨_, i, O⟩ := Operation.call_outlines ok tb k hp hq
      rw [e] at i
      obtain rfl := Except.ok.inj i
      obtain ⟨_, i, O'⟩ := Operation.call_outlines ok' tb' k hp' hq'
      rw [e'] at i
      obtain rfl := Except.ok.inj i
      refine ⟨(X ++ Y) ++ ((ps₁.flatMap Polygon.edges ++ ps₂.flatMap Polygon.edges) ++
        (qs₁.flatMap Polygon.edges ++ qs₂.flatMap Polygon.edges).map T.inv.segment), ?_, fun q hn => ?_⟩
      · intro s hs
        simp only [List.mem_append, List.mem_map] at hs
        rcases hs with (h | h) | (h | h) | ⟨t, h | h, rfl⟩
        · exact prX s h
        · exact prY s h
        · exact hp.noOverlap.1 s h
        · exact hq.noOverlap.1 s h
        · exact T.inv.proper.2 (hp'.noOverlap.1 t h)
        · exact T.inv.proper.2 (hq'.noOverlap.1 t h)
      · rw [segsPts_append, segsPts_append, segsPts_append, Affine.segsPts_map] at hn
        simp only [Set.mem_union, not_or] at hn
        obtain ⟨⟨n1, n2⟩, n3, n4⟩ := hn
        have n4' : T.point q ∉ segsPts (qs₁.flatMap Polygon.edges ++ qs₂.flatMap Polygon.edges) := fun g =>
          n4 ⟨T.point q, g, T.inv_point q⟩
        rw [O.inside q n3, O'.inside (T.point q) n4']
        unfold Combined
        simp only [hX q n1, hY q n2]

/-- Affine images of what an expression gives. -/
theorem Expression.Yields.affine_region {o o' : Orient} (ok : OrientOk o) (ok' : OrientOk o') {tb tb' : TieBreak} {v : ℕ → List Polygon}
    (hv : ∀ i, ValidPolygons (v i)) (T : Affine) {x : Expression} {ps qs : List Polygon} (h : x.Yields o tb v ps)
    (h' : x.Yields o' tb' (fun i => (v i).map T.polygon) qs) :
    regionPts (qs.flatMap Polygon.edges) = T.point '' regionPts (ps.flatMap Polygon.edges) := by
  obtain ⟨X, prX, hX⟩ := h.affine ok ok' hv T h'
  have C := h.contours ok hv
  obtain ⟨-, no, -, -⟩ := h.inside ok hv
  obtain ⟨-, no', dQ, -⟩ := h'.inside ok' fun i => T.valid_polygons (hv i)
  rw [← T.region_polygons C]
  refine regionPts_eq_of_inside no' dQ ?_ ?_ (X := X.map T.segment ++ (ps.flatMap Polygon.edges).map T.segment) ?_ ?_
  · rw [Affine.polygons_edges]
    exact T.noOverlap no
  · rw [← contoursOf_edges, T.contoursOf_map]
    have : ∀ c ∈ (contoursOf ps).map T.contour, SimpleContour c := by
      intro c hc
      obtain ⟨d, hd, rfl⟩ := List.mem_map.1 hc
      exact T.simple (C d hd)
    generalize (contoursOf ps).map T.contour = l at this
    intro q
    induction l with
    | nil => simp [degree]
    | cons c l ih =>
      rw [List.flatMap_cons, degree_append]
      exact ((this c (by simp)).even q).add (ih fun c hc => this c (by simp [hc]))
  · intro s hs
    rw [← List.map_append] at hs
    obtain ⟨t, ht, rfl⟩ := List.mem_map.1 hs
    refine T.proper.2 ?_
    rcases List.mem_append.1 ht with g | g
    · exact prX t g
    · exact no.1 t g
  · intro q hq
    obtain ⟨q, rfl⟩ := T.surjective q
    rw [segsPts_append, Set.mem_union, not_or, Affine.segsPts_map, Affine.segsPts_map, Affine.mem_image, Affine.mem_image] at hq
    rw [hX q hq.1, T.inside_polygons C hq.2]

/-! ## Maps which preserve the order of points -/

namespace Affine

variable {T : Affine}

theorem Upright.lt (h : T.Upright) {p q : Point} (g : p < q) : T.point p < T.point q := by
  have hb := h.vertical
  have ha := h.right
  have hd := h.up
  rw [Point.lt_def] at g ⊢
  simp only [point, hb]
  rcases g with g | ⟨g, g'⟩
  · exact Or.inl (by linarith [mul_lt_mul_of_pos_left g ha])
  · exact Or.inr ⟨by rw [g]; ring, by rw [g]; linarith [mul_lt_mul_of_pos_left g' hd]⟩

theorem Upright.le (h : T.Upright) {p q : Point} (g : p ≤ q) : T.point p ≤ T.point q := by
  rcases g.lt_or_eq with g | rfl
  · exact (h.lt g).le
  · exact le_rfl

theorem Upright.normal (h : T.Upright) {c : Contour} (n : c.Normal) : (T.contour c).Normal := by
  obtain ⟨v, vs, e, l⟩ := n.least
  refine ⟨⟨T.point v, vs.map T.point, by rw [contour, e]; rfl, fun w hw => ?_⟩, T.cornered n.corners⟩
  obtain ⟨w, hw', rfl⟩ := List.mem_map.1 hw
  exact h.lt (l w hw')

theorem Upright.startsBefore (h : T.Upright) {c d : Contour} (n : c.StartsBefore d) : (T.contour c).StartsBefore (T.contour d) := by
  intro v hv w hw
  simp only [contour, List.head?_map, Option.mem_def, Option.map_eq_some_iff] at hv hw
  obtain ⟨v, hv, rfl⟩ := hv
  obtain ⟨w, hw, rfl⟩ := hw
  exact h.le (n v hv w hw)

theorem cross_point (T : Affine) (u v w : Point) : cross (T.point u) (T.point v) (T.point w) = (T.a * T.d - T.b * T.c) * cross u v w := by
  simp only [cross, point]; ring

theorem Upright.det_pos (h : T.Upright) : 0 < T.a * T.d - T.b * T.c := by
  have := mul_pos h.right h.up
  rw [h.vertical]
  linarith

theorem interiorOnLeft (T : Affine) (hT : 0 < T.a * T.d - T.b * T.c) {c : Contour} (hc : SimpleContour c) {e : Segment}
    (h : InteriorOnLeft c.edges e) : InteriorOnLeft (T.contour c).edges (T.segment e) := by
  intro m hm hn ha
  obtain ⟨m, rfl⟩ := T.surjective m
  rw [segment_pts, mem_image] at hm
  rw [isEnd] at hn
  obtain ⟨δ, hδ, H⟩ := h m hm hn fun e' he' hm' => by
    have := ha (T.segment e') (by rw [contour_edges]; exact List.mem_map_of_mem he') (by rw [segment_pts, mem_image]; exact hm')
    rw [segment_pts, segment_pts] at this
    exact T.injective.image_injective this
  obtain ⟨ε, hε, E⟩ := T.near_inv hδ
  refine ⟨ε, hε, fun q hq => ?_⟩
  obtain ⟨q, rfl⟩ := T.surjective q
  have hq := H q (E m q hq)
  have hx : cross (T.segment e).start (T.segment e).stop (T.point q) = (T.a * T.d - T.b * T.c) * cross e.start e.stop q := T.cross_point _ _ _
  have hs : T.point q ∈ segsPts (T.contour c).edges ↔ q ∈ segsPts c.edges := by rw [contour_edges, segsPts_map, mem_image]
  rw [hx, hs]
  constructor
  · intro g
    obtain ⟨h1, h2⟩ := hq.1 (pos_of_mul_pos_right g hT.le)
    exact ⟨(T.inside_contour hc h2).2 h1, h2⟩
  · intro g
    obtain ⟨h1, h2⟩ := hq.2 (neg_of_mul_neg_right g hT.le)
    exact ⟨fun k => h1 ((T.inside_contour hc h2).1 k), h2⟩

theorem Upright.standard (h : T.Upright) {ps : List Polygon} (v : ∀ c ∈ contoursOf ps, SimpleContour c) (s : Standard ps) :
    Standard (ps.map T.polygon) := by
  refine ⟨⟨?_, ?_, ?_, ?_⟩, ?_⟩
  · intro p hp
    obtain ⟨q, hq, rfl⟩ := List.mem_map.1 hp
    exact h.normal (s.normal.border q hq)
  · intro p hp c hc
    obtain ⟨q, hq, rfl⟩ := List.mem_map.1 hp
    obtain ⟨d, hd, rfl⟩ := List.mem_map.1 hc
    exact h.normal (s.normal.hole q hq d hd)
  · unfold SortedBorders
    rw [List.pairwise_map]
    exact s.normal.sorted.imp fun g => h.startsBefore g
  · intro p hp
    obtain ⟨q, hq, rfl⟩ := List.mem_map.1 hp
    show ((q.border :: q.holes).map T.contour).Pairwise _
    rw [List.pairwise_map]
    exact (s.normal.holes q hq).imp fun g => h.startsBefore g
  · intro p hp
    obtain ⟨q, hq, rfl⟩ := List.mem_map.1 hp
    obtain ⟨o1, o2⟩ := s.oriented q hq
    constructor
    · intro e he
      change e ∈ (T.contour q.border).edges at he
      rw [contour_edges] at he
      obtain ⟨e, he', rfl⟩ := List.mem_map.1 he
      exact T.interiorOnLeft h.det_pos (v _ (List.mem_flatMap.2 ⟨q, hq, by simp⟩)) (o1 e he')
    · intro c hc e he
      obtain ⟨d, hd, rfl⟩ := List.mem_map.1 hc
      rw [contour_edges] at he
      obtain ⟨e, he', rfl⟩ := List.mem_map.1 he
      exact T.interiorOnLeft h.det_pos (v _ (List.mem_flatMap.2 ⟨q, hq, by simp [hd]⟩)) (o2 d hd e he')

end Affine

end Clipping

import Verif.Lemmas.Shaped.Corners
import Verif.Lemmas.Shaped.Crossless
import Verif.Lemmas.Shaped.CompleteResult
import Verif.Lemmas.Shaped.TwinRegions
import Verif.Lemmas.Shaped.Empty
import Verif.Spec.Corner

/-!
# Vertices of results are corners of the operands
-/

namespace Clipping

open Sweep

/-- Vertices of the arrangement of two valid operands. -/
theorem Vertex.corner {P Q : List Polygon} (hP : ValidPolygons P) (hQ : ValidPolygons Q) {v : Point}
    (h : Vertex (P.flatMap Polygon.edges ++ Q.flatMap Polygon.edges) v) :
    IsCorner (P.flatMap Polygon.edges) (Q.flatMap Polygon.edges) v := by
  rcases h with h | ⟨s, hs, t, ht, h⟩
  · exact Or.inl h
  rcases List.mem_append.1 hs with hs | hs <;> rcases List.mem_append.1 ht with ht | ht
  · obtain ⟨e, he, g⟩ := hP.crossless (Or.inr ⟨s, hs, t, ht, h⟩)
    exact Or.inl ⟨e, List.mem_append_left _ he, g⟩
  · exact Or.inr ⟨s, hs, t, ht, h⟩
  · exact Or.inr ⟨t, ht, s, hs, by rw [Set.inter_comm]; exact h⟩
  · obtain ⟨e, he, g⟩ := hQ.crossless (Or.inr ⟨s, hs, t, ht, h⟩)
    exact Or.inl ⟨e, List.mem_append_right _ he, g⟩

theorem Outlines.corners {op : Bool → Bool → Bool} {P Q ps : List Polygon} (hP : ValidPolygons P) (hQ : ValidPolygons Q)
    (O : Outlines op (P.flatMap Polygon.edges) (Q.flatMap Polygon.edges) ps) (N : NormalPolygons ps) :
    CornersOnly (P.flatMap Polygon.edges) (Q.flatMap Polygon.edges) ps := by
  intro p hp c hc v hv
  have pr : ∀ s ∈ P.flatMap Polygon.edges ++ Q.flatMap Polygon.edges, s.Proper := by
    intro s hs
    rcases List.mem_append.1 hs with h | h
    · exact hP.noOverlap.1 s h
    · exact hQ.noOverlap.1 s h
  have sub : ∀ e ∈ c.edges, e ∈ ps.flatMap Polygon.edges := by
    intro e he
    refine List.mem_flatMap.2 ⟨p, hp, ?_⟩
    unfold Polygon.edges
    rcases List.mem_cons.1 hc with rfl | hc
    · exact List.mem_append_left _ he
    · exact List.mem_append_right _ (List.mem_flatMap.2 ⟨c, hc, he⟩)
  have hw : segsPts c.edges ⊆ segsPts (P.flatMap Polygon.edges ++ Q.flatMap Polygon.edges) := by
    rintro q ⟨e, he, hq⟩
    exact O.within ⟨e, sub e he, hq⟩
  refine Vertex.corner hP hQ ?_
  rcases List.mem_cons.1 hc with rfl | hc
  · exact (N.border p hp).vertex pr (O.border p hp) hw hv
  · exact (N.hole p hp c hc).vertex pr (O.hole p hp c hc) hw hv

theorem contour_vertex_end {c : Contour} {v : Point} (hv : v ∈ c.vertices) : ∃ s ∈ c.edges, s.IsEnd v := by
  obtain ⟨vs⟩ := c
  match vs, hv with
  | u :: us, hv =>
    rw [edges_closed]
    have key : ∀ (us : List Point) (u w : Point), v ∈ u :: us → ∃ s ∈ pathEdges (u :: us ++ [w]), s.IsEnd v := by
      intro us
      induction us with
      | nil =>
        intro u w h
        simp only [List.mem_singleton] at h
        subst h
        exact ⟨⟨v, w⟩, by simp [pathEdges], Or.inl rfl⟩
      | cons x us ih =>
        intro u w h
        rcases List.mem_cons.1 h with rfl | h
        · exact ⟨⟨v, x⟩, by simp [pathEdges], Or.inl rfl⟩
        · obtain ⟨s, hs, e⟩ := ih x w h
          exact ⟨s, by simpa [pathEdges] using Or.inr hs, e⟩
    exact key us u u hv

/-- The polygons as they are given. -/
theorem cornersOnly_of_subset {P Q ps : List Polygon} (h : ∀ p ∈ ps, p ∈ P ++ Q) :
    CornersOnly (P.flatMap Polygon.edges) (Q.flatMap Polygon.edges) ps := by
  intro p hp c hc v hv
  obtain ⟨s, hs, e⟩ := contour_vertex_end hv
  have hs' : s ∈ p.edges := by
    unfold Polygon.edges
    rcases List.mem_cons.1 hc with rfl | hc
    · exact List.mem_append_left _ hs
    · exact List.mem_append_right _ (List.mem_flatMap.2 ⟨c, hc, hs⟩)
  refine Or.inl ⟨s, ?_, e⟩
  rw [← List.flatMap_append]
  exact List.mem_flatMap.2 ⟨p, h p hp, hs'⟩

/-- From each point of a polygon there is a way within it. -/
theorem ValidPolygons.way_near {P : List Polygon} (hP : ValidPolygons P) {q : Point} (hq : q ∈ polysPts P) {δ : ℚ} (hδ : 0 < δ) :
    ∃ w, q ≠ w ∧ Near δ q w ∧ (Segment.mk q w).pts ⊆ polysPts P := by
  have mem : ∀ z ∈ segsPts (P.flatMap Polygon.edges), z ∈ polysPts P := by
    rintro z ⟨e, he, hz⟩
    obtain ⟨p, hp, he⟩ := List.mem_flatMap.1 he
    exact ⟨p, hp, Or.inl ⟨e, he, hz⟩⟩
  by_cases hs : q ∈ segsPts (P.flatMap Polygon.edges)
  · obtain ⟨e, he, hqe⟩ := hs
    have pr := hP.noOverlap.1 e he
    obtain ⟨z, hz, hne⟩ : ∃ z ∈ e.pts, q ≠ z := by
      by_contra hc
      push Not at hc
      exact pr ((hc e.start (Segment.start_mem _)).symm.trans (hc e.stop (Segment.stop_mem _)))
    obtain ⟨w, hw, hn, hwq⟩ := exists_toward hδ hne
    exact ⟨w, hwq.symm, hn, fun r hr => mem r ⟨e, he, pts_convex hqe (pts_convex hqe hz hw) hr⟩⟩
  · obtain ⟨ε, ε0, hε⟩ := inside_near hP.noOverlap.1 (flatMap_even fun p hp => (hP.valid p hp).even) hs
    have hi := (hP.mem_off hs).1 hq
    obtain ⟨w, hw, hn, hwq⟩ := exists_toward (lt_min hδ ε0) (q := q) (m := ⟨q.x + 1, q.y⟩) (by
      intro h; have := congrArg Point.x h; simp at this)
    refine ⟨w, hwq.symm, hn.mono (min_le_left _ _), fun r hr => ?_⟩
    obtain ⟨g1, g2⟩ := hε r ((hn.mono (min_le_right _ _)).path r hr)
    exact (hP.mem_off g1).2 (g2.2 hi)

/-- Single points of complete intersections. -/
theorem CompleteParts.corner {P Q : List Polygon} (hP : ValidPolygons P) (hQ : ValidPolygons Q) {ps : List Point} {ts E : List Segment}
    (hE : ∀ e ∈ E, e.Proper) (hd : ∀ q, Even (degree E q))
    (C : CompleteParts (polysPts P) (polysPts Q) ps ts (regionPts E)) {q : Point} (hq : q ∈ ps) :
    IsCorner (P.flatMap Polygon.edges) (Q.flatMap Polygon.edges) q := by
  obtain ⟨o1, o2⟩ := C.alone q hq
  obtain ⟨qP, qQ⟩ := (C.all q).1 (Or.inl hq)
  obtain ⟨δ₁, p1, h1⟩ := exists_near_off_all (fun e he => (C.directed e he).ne) o1
  have o3 : q ∉ segsPts E := fun h => o2 (Or.inl h)
  have o4 : ¬ Inside E q := fun h => o2 (Or.inr h)
  obtain ⟨δ₂, p2, h2⟩ := inside_near hE hd o3
  have iso : ∀ z, Near (min δ₁ δ₂) q z → z ∈ polysPts P → z ∈ polysPts Q → z ∈ ps := by
    intro z hz zP zQ
    rcases (C.all z).2 ⟨zP, zQ⟩ with g | g | g | g
    · exact g
    · exact absurd g (h1 z (hz.mono (min_le_left _ _)))
    · exact absurd g (h2 z (hz.mono (min_le_right _ _))).1
    · exact absurd ((h2 z (hz.mono (min_le_right _ _))).2.1 g) o4
  have δ0 := lt_min p1 p2
  -- there is no way along common points
  have stuck : ∀ w, q ≠ w → Near (min δ₁ δ₂) q w → (Segment.mk q w).pts ⊆ polysPts P → (Segment.mk q w).pts ⊆ polysPts Q → False := by
    intro w hne hn s1 s2
    refine overlapping_of_finite_false (s := ⟨q, w⟩) hne (ps.finite_toSet.subset ?_)
    intro r hr
    exact iso r (hn.path r hr) (s1 hr) (s2 hr)
  have onEdge : ∀ {P Q : List Polygon}, ValidPolygons P → ValidPolygons Q → q ∈ polysPts P → q ∈ polysPts Q →
      (∀ w, q ≠ w → Near (min δ₁ δ₂) q w → (Segment.mk q w).pts ⊆ polysPts P → (Segment.mk q w).pts ⊆ polysPts Q → False) →
      q ∈ segsPts (P.flatMap Polygon.edges) := by
    intro P Q hP hQ qP qQ st
    by_contra hs
    obtain ⟨ε, ε0, hε⟩ := inside_near hP.noOverlap.1 (flatMap_even fun p hp => (hP.valid p hp).even) hs
    have hi := (hP.mem_off hs).1 qP
    obtain ⟨w, hne, hn, hw⟩ := hQ.way_near qQ (lt_min δ0 ε0)
    refine st w hne (hn.mono (min_le_left _ _)) (fun r hr => ?_) hw
    obtain ⟨g1, g2⟩ := hε r ((hn.mono (min_le_right _ _)).path r hr)
    exact (hP.mem_off g1).2 (g2.2 hi)
  obtain ⟨s, hs, qs⟩ := onEdge hP hQ qP qQ stuck
  obtain ⟨t, ht, qt⟩ := onEdge hQ hP qQ qP fun w a b c d => stuck w a b d c
  refine Or.inr ⟨s, hs, t, ht, not_overlapping_inter ?_ qs qt⟩
  rintro ⟨a, b, hab, a1, b1, a2, b2⟩
  obtain ⟨z, z1, z2, hz⟩ : ∃ z, z ∈ s.pts ∧ z ∈ t.pts ∧ q ≠ z := by
    by_cases h : q = a
    · exact ⟨b, b1, b2, by rw [h]; exact hab⟩
    · exact ⟨a, a1, a2, h⟩
  obtain ⟨w, hw, hn, hwq⟩ := exists_toward δ0 hz
  have mem : ∀ {P : List Polygon} {s : Segment}, ValidPolygons P → s ∈ P.flatMap Polygon.edges → ∀ z ∈ s.pts, z ∈ polysPts P := by
    intro P s hP hs z hz
    obtain ⟨p, hp, he⟩ := List.mem_flatMap.1 hs
    exact ⟨p, hp, Or.inl ⟨s, he, hz⟩⟩
  exact stuck w hwq.symm hn (fun r hr => mem hP hs r (pts_convex qs (pts_convex qs z1 hw) hr))
    fun r hr => mem hQ ht r (pts_convex qt (pts_convex qt z2 hw) hr)

theorem IsCorner.mono {A B A' B' : List Segment} (hA : A ⊆ A') (hB : B ⊆ B') {v : Point} : IsCorner A B v → IsCorner A' B' v
  | .inl ⟨s, hs, e⟩ => .inl ⟨s, by
      rcases List.mem_append.1 hs with h | h
      · exact List.mem_append_left _ (hA h)
      · exact List.mem_append_right _ (hB h), e⟩
  | .inr ⟨s, hs, t, ht, e⟩ => .inr ⟨s, hA hs, t, hB ht, e⟩

theorem flatMap_edges_subset {P P' : List Polygon} (h : P.Sublist P') : P.flatMap Polygon.edges ⊆ P'.flatMap Polygon.edges := by
  intro e he
  obtain ⟨p, hp, he⟩ := List.mem_flatMap.1 he
  exact List.mem_flatMap.2 ⟨p, h.subset hp, he⟩

/-- Ends of the common edges. -/
theorem ShapedEnd.common_corner {rule : ShapedRule} {op : Bool → Bool → Bool} {h : Heap ShapedData} {events : List Ev}
    {stop : Point → Bool} {P Q : List Polygon} (hP : ValidPolygons P) (hQ : ValidPolygons Q)
    (E : ShapedEnd op h events stop (P.flatMap polygonEdges) (Q.flatMap polygonEdges)) (M : MarkedEnd rule h events)
    {X Y R : Set Point} {ps : List Point} (C : CompleteParts X Y ps (commonEdges h (sortEvents h events)) R) {t : Segment}
    (ht : t ∈ commonEdges h (sortEvents h events)) {v : Point} (hv : t.IsEnd v) :
    IsCorner (P.flatMap Polygon.edges) (Q.flatMap Polygon.edges) v := by
  have I := ((E.mem_common M hP.isBoundary.noOverlap hQ.isBoundary.noOverlap C t).1 ht).1
  rw [(hP.sameEdges.append hQ.sameEdges).sameSegments.isEdge] at I
  rcases hv with rfl | rfl
  · exact Vertex.corner hP hQ I.start
  · exact Vertex.corner hP hQ I.stop

theorem holeyComplete_corners {o : Orient} {a b : ShapedOperand} (ha : ShapedOk a) (hb : ShapedOk b) (tb : TieBreak)
    {g : Geometry} (e : holeyCompleteIntersection o tb a b = .ok g) :
    ∀ t ∈ g.linearSegments, ∀ v, t.IsEnd v → IsCorner (a.polygons.flatMap Polygon.edges) (b.polygons.flatMap Polygon.edges) v := by
  obtain ⟨ba, bb, h1, h2⟩ := boxes_ok ha hb
  unfold holeyCompleteIntersection at e
  rw [h1, h2] at e
  simp only [bind, Except.bind, pure, Except.pure] at e
  split_ifs at e with hd e1 e2
  · cases e; simp [Geometry.linearSegments]
  · cases e; simp [Geometry.linearSegments]
  · cases e; simp [Geometry.linearSegments]
  have s1 := toIntersectingPolygons_sub o bb a.polygons
  have s2 := toIntersectingPolygons_sub o ba b.polygons
  have v1 := ha.valid.sublist s1
  have v2 := hb.valid.sublist s2
  obtain ⟨n₁, x₁, g₁⟩ := polygonsMaxX_spec v1.valid (isEmpty_false e1)
  obtain ⟨n₂, x₂, g₂⟩ := polygonsMaxX_spec v2.valid (isEmpty_false e2)
  have hst := stopOk_min (v1.edges_x g₁) (v2.edges_x g₂) (op := fun a b => a && b) (by simp) (by simp)
  obtain ⟨h, events, ps, e', e'', -, -, -, C⟩ := holeySweep_complete tb v1 v2 hst
  obtain ⟨h3, ev3, f, E⟩ := holeySweep_end intersectionRule_ok intersectionRule_for tb v1 v2 hst
  rw [e'] at f; cases f
  have M := shapedSweep_marked (isShaped_holey intersectionRule_ok) v1.isBoundary v2.isBoundary hst e' E
  simp only [x₁, x₂, e', e''] at e
  cases e
  obtain ⟨p1, -, -⟩ := unpackPoints_discrete (touchPoints h (groupRuns h.evStart (sortEvents h events)))
  obtain ⟨l1, l2, -⟩ := unpackSegments_linear (commonEdges h (sortEvents h events))
  obtain ⟨g1, -, -⟩ := unpackPolygons_polygonal ps
  rw [(unpackMix_parts p1 l1 g1).2.2.1, l2]
  intro t ht v hv
  exact (E.common_corner v1 v2 M C ht hv).mono (flatMap_edges_subset s1) (flatMap_edges_subset s2)

theorem holelessComplete_corners {o : Orient} (ok : OrientOk o) {P Q : List Contour} (hP : ValidPolygons (regionPolygons P))
    (hQ : ValidPolygons (regionPolygons Q)) (nP : P ≠ []) (nQ : Q ≠ []) (tb : TieBreak) {g : Geometry}
    (e : holelessCompleteIntersection o tb P Q = .ok g) : ∀ t ∈ g.linearSegments, ∀ v, t.IsEnd v →
      IsCorner ((regionPolygons P).flatMap Polygon.edges) ((regionPolygons Q).flatMap Polygon.edges) v := by
  have ha := regionsOperand_ok (regionPolygons_ne nP) hP
  have hb := regionsOperand_ok (regionPolygons_ne nQ) hQ
  obtain ⟨ba, bb, h1, h2⟩ := boxes_ok ha hb
  have h1' : contoursBox P = .ok ba := (contoursBox_eq P).trans h1
  have h2' : contoursBox Q = .ok bb := (contoursBox_eq Q).trans h2
  obtain ⟨b1, b2⟩ := polygonsBox_spec ha.valid.valid h1
  obtain ⟨b3, b4⟩ := polygonsBox_spec hb.valid.valid h2
  unfold holelessCompleteIntersection at e
  rw [h1', h2'] at e
  simp only [bind, Except.bind, pure, Except.pure] at e
  split_ifs at e with hd e1 e2
  · cases e; simp [Geometry.linearSegments]
  · cases e; simp [Geometry.linearSegments]
  · cases e; simp [Geometry.linearSegments]
  have s1 := toIntersectingPolygons_sub o bb (regionPolygons P)
  have s2 := toIntersectingPolygons_sub o ba (regionPolygons Q)
  rw [← toIntersectingRegions_eq ok b4 hP.valid] at s1
  rw [← toIntersectingRegions_eq ok b2 hQ.valid] at s2
  have v1 := hP.sublist s1
  have v2 := hQ.sublist s2
  have n1 : toIntersectingRegions o bb P ≠ [] := fun h => e1 (by rw [h]; rfl)
  have n2 : toIntersectingRegions o ba Q ≠ [] := fun h => e2 (by rw [h]; rfl)
  obtain ⟨h, events, cs, e', -, e'', -, -, -, C⟩ := holelessSweep_complete tb v1 v2 n1 n2
  obtain ⟨m₁, e₁, h₁⟩ := polygonsMaxX_spec v1.valid (regionPolygons_ne n1)
  obtain ⟨m₂, e₂, h₂⟩ := polygonsMaxX_spec v2.valid (regionPolygons_ne n2)
  have hst := stopOk_min (op := fun a b => a && b) (v1.edges_x h₁) (v2.edges_x h₂) (by simp) (by simp)
  rw [regionPolygons_maxX] at e₁ e₂
  obtain ⟨h3, ev3, f, E⟩ := shapedSweep_end (isShaped_holeless intersectionRule_ok) intersectionRule_for tb
    (some (min m₁ m₂)) v1.isBoundary v2.isBoundary hst
  have M := shapedSweep_marked (isShaped_holeless intersectionRule_ok) v1.isBoundary v2.isBoundary hst f E
  have u : holelessSweep tb (toIntersectingRegions o bb P) (toIntersectingRegions o ba Q) = .ok (h3, ev3) := by
    unfold holelessSweep
    rw [e₁, e₂]
    rw [regionPolygons_edges, regionPolygons_edges] at f
    exact f
  rw [e'] at u; cases u
  simp only [e', e''] at e
  cases e
  obtain ⟨p1, -, -⟩ := unpackPoints_discrete (touchPoints h (groupRuns h.evStart (sortEvents h events)))
  obtain ⟨l1, l2, -⟩ := unpackSegments_linear (commonEdges h (sortEvents h events))
  obtain ⟨g1, -, -⟩ := unpackPolygons_polygonal (regionPolygons cs)
  rw [unpackRegions_eq, (unpackMix_parts p1 l1 g1).2.2.1, l2]
  intro t ht v hv
  exact (E.common_corner v1 v2 M C ht hv).mono (flatMap_edges_subset s1) (flatMap_edges_subset s2)

end Clipping

import Verif.Lemmas.Shaped.Filling
import Verif.Lemmas.Shaped.CompleteResult

/-!
# Results of intersections of regions without holes
-/

namespace Clipping

open Sweep Darts

theorem IsBoundaryOf.perm {op : Bool → Bool → Bool} {A B T T' : List Segment} (h : IsBoundaryOf op A B T) (p : T.Perm T') :
    IsBoundaryOf op A B T' where
  proper t ht := h.proper t (p.mem_iff.2 ht)
  parts t ht := h.parts t (p.mem_iff.2 ht)
  endsOnly := h.endsOnly.perm p
  even q := by rw [← degree_perm p]; exact h.even q
  inside q hq := by
    rw [← h.inside q hq]
    unfold Inside
    rw [p.countP_eq]
  separates m hm := by
    rw [← h.separates m hm]
    exact ⟨fun ⟨s, hs, hq⟩ => ⟨s, p.mem_iff.2 hs, hq⟩, fun ⟨s, hs, hq⟩ => ⟨s, p.mem_iff.1 hs, hq⟩⟩

/-- The common interior of regions without holes is solid. -/
theorem solid_regions {D : Darts} {F : Finset ℕ} (start : D.Start F) {P Q : List Contour}
    (hP : ValidPolygons (regionPolygons P)) (hQ : ValidPolygons (regionPolygons Q))
    (hE : IsBoundaryOf (fun a b => a && b) ((regionPolygons P).flatMap Polygon.edges)
      ((regionPolygons Q).flatMap Polygon.edges) (D.edges F)) : D.Solid F := by
  intro L hL sub face left z hz hi
  obtain ⟨b, hb⟩ := List.exists_mem_of_ne_nil L hL.ne
  obtain ⟨x, hx⟩ := start.closed.exists_left (hL.lt b hb)
  have ix := left b hb x hx
  obtain ⟨x1, x2⟩ := hE.inside_off hP hQ hx.off ix
  have cx := combined_and.1 ((hE.inside x (by
    rw [segsPts_append]; rintro (h | h)
    · exact x1 h
    · exact x2 h)).1 ix)
  -- a loop on the boundary of the face is in the contour
  have main : ∀ R : List Contour, ValidPolygons (regionPolygons R) → (∀ p ∈ regionPolygons R, p ∈ regionPolygons P ∨
      p ∈ regionPolygons Q) → Inside ((regionPolygons R).flatMap Polygon.edges) x → ∀ w,
      w ∉ segsPts ((regionPolygons R).flatMap Polygon.edges) → Inside (L.map D.seg) w →
      Inside ((regionPolygons R).flatMap Polygon.edges) w := by
    intro R hR hm hx' w hw hiw
    obtain ⟨p, hp, hpx⟩ := exists_inside_of hx'
    have V := hR.valid p hp
    refine hR.inside_of hp hw ?_
    have hpw : w ∉ segsPts p.edges := fun ⟨e, he, hq⟩ => hw ⟨e, List.mem_flatMap.2 ⟨p, hp, he⟩, hq⟩
    have cl : segsPts (L.map D.seg) ⊆ regionPts p.edges := by
      rintro m ⟨e, he, hme⟩
      obtain ⟨j, hj, rfl⟩ := List.mem_map.1 he
      refine left_closure start.closed.proper (Darts.proper (hL.lt j hj)) (start.closed.alone (hL.lt j hj)) V.noOverlap.1
        V.even ?_ hme
      intro q hq
      exact (hE.linked_same hP hQ ix (face b hb j hj x q hx hq) (hm p hp)).1 hpx
    unfold regionPolygons at hp
    obtain ⟨c, -, rfl⟩ := List.mem_map.1 hp
    rw [Selected.RegionsInv.region_edges] at hpw cl ⊢
    exact V.border.filling hL.proper hL.even cl hpw hiw
  have offL : z ∉ segsPts (L.map D.seg) := by
    rintro ⟨e, he, hq⟩
    obtain ⟨j, hj, rfl⟩ := List.mem_map.1 he
    exact hz (start.closed.mem_pts.2 ⟨j, sub j hj, hq⟩)
  obtain ⟨δ₁, p1, h1⟩ := inside_near hL.proper hL.even offL
  obtain ⟨δ₂, p2, h2⟩ := inside_near hE.proper hE.even hz
  obtain ⟨w, hw, off⟩ := exists_off (X := (regionPolygons P).flatMap Polygon.edges ++ (regionPolygons Q).flatMap Polygon.edges)
    (by
      intro s hs
      rcases List.mem_append.1 hs with h | h
      · exact hP.noOverlap.1 s h
      · exact hQ.noOverlap.1 s h) z (lt_min p1 p2)
  obtain ⟨o1, o2⟩ := off_append off
  have iw := (h1 w (hw.mono (min_le_left _ _))).2.2 hi
  refine (h2 w (hw.mono (min_le_right _ _))).2.1 ((hE.inside w off).2 (combined_and.2 ⟨?_, ?_⟩))
  · exact main P hP (fun _ h => Or.inl h) cx.1 w o1 iw
  · exact main Q hQ (fun _ h => Or.inr h) cx.2 w o2 iw

theorem regionPolygons_ne {cs : List Contour} (h : cs ≠ []) : regionPolygons cs ≠ [] := by
  simpa [regionPolygons] using h

theorem regionsOperand_ok {ps : List Polygon} (hp : ps ≠ []) (h : ValidPolygons ps) : ShapedOk (multipolygonOperand ps) :=
  ⟨hp, h, rfl⟩

theorem sortEvents_regions {h : Heap ShapedData} {events es : List Ev} (S : Selected h (events.filter (fromResult h)))
    (perm : es.Perm events) : eventsToRegions h es = eventsToRegions h events := by
  unfold eventsToRegions
  rw [S.sort_eq (perm.filter _)]

/-- What the sweep of regions yields. -/
theorem holelessSweep_complete (tb : TieBreak) {P Q : List Contour} (hP : ValidPolygons (regionPolygons P))
    (hQ : ValidPolygons (regionPolygons Q)) (nP : P ≠ []) (nQ : Q ≠ []) :
    ∃ h events cs, holelessSweep tb P Q = .ok (h, events) ∧ eventsToRegions h events = .ok cs ∧
      eventsToRegions h (sortEvents h events) = .ok cs ∧
      Outlines (fun a b => a && b) ((regionPolygons P).flatMap Polygon.edges) ((regionPolygons Q).flatMap Polygon.edges)
        (regionPolygons cs) ∧ (∀ p ∈ regionPolygons cs, p.Oriented) ∧ ValidPolygons (regionPolygons cs) ∧
      CompleteParts (polysPts (regionPolygons P)) (polysPts (regionPolygons Q))
        (touchPoints h (groupRuns h.evStart (sortEvents h events)))
        (commonEdges h (sortEvents h events)) (polysPts (regionPolygons cs)) := by
  obtain ⟨m₁, e₁, h₁⟩ := polygonsMaxX_spec hP.valid (regionPolygons_ne nP)
  obtain ⟨m₂, e₂, h₂⟩ := polygonsMaxX_spec hQ.valid (regionPolygons_ne nQ)
  have bP := hP.isBoundary
  have bQ := hQ.isBoundary
  have hst := stopOk_min (op := fun a b => a && b) (hP.edges_x h₁) (hQ.edges_x h₂) (by simp) (by simp)
  rw [regionPolygons_maxX] at e₁ e₂
  obtain ⟨h, events, e, E⟩ := shapedSweep_end (isShaped_holeless intersectionRule_ok) intersectionRule_for tb
    (some (min m₁ m₂)) bP bQ hst
  have M := shapedSweep_marked (isShaped_holeless intersectionRule_ok) bP bQ hst e E
  have B := E.isBoundaryOf.congr hP.sameEdges hQ.sameEdges
  obtain ⟨processed, Rs, e', I⟩ := E.selected.eventsToRegions_ok
    (solid_regions E.selected.darts_start hP hQ (B.perm E.selected.edges_perm.symm))
  have O := I.outline
  have V := I.valid
  have perm : (sortEvents h events).Perm events := Selected.sort_perm
  have C := E.complete M hst perm (sorted_events h events)
  refine ⟨h, events, _, ?_, e', ?_, ⟨fun p hp => (O.border p hp).1, fun p hp c hc => (O.hole p hp c hc).1, O.noOverlap, ?_, ?_, V.sided,
    fun p hp c hc => ⟨p, hp, (V.valid p hp).inside c hc⟩⟩,
    ?_, V, ?_⟩
  · unfold holelessSweep
    rw [e₁, e₂]
    rw [regionPolygons_edges, regionPolygons_edges] at e
    exact e
  · rw [sortEvents_regions E.selected perm, e']
  · rw [O.pts]
    rintro q ⟨t, ht, hq⟩
    obtain ⟨s, hs, hts⟩ := B.parts t ht
    exact ⟨s, hs, hts hq⟩
  · intro q hq
    rw [O.inside, B.inside q hq]
  · intro p hp
    obtain ⟨b1, b2⟩ := O.border p hp
    refine ⟨(contourOrientation_spec _ b1).1.1 b2, fun c hc => ?_⟩
    obtain ⟨c1, c2⟩ := O.hole p hp c hc
    exact (contourOrientation_spec _ c1).2.1 c2
  · rw [hP.pts_eq, hQ.pts_eq] at C
    refine C.congr (fun _ => Iff.rfl) ?_
    rw [V.polysPts_eq]
    ext q
    have h1 : segsPts (resultEdges h events) =
        segsPts ((regionPolygons (Rs.map fun R => ⟨E.selected.traced R⟩)).flatMap Polygon.edges) := by
      rw [O.pts]
      ext q
      exact ⟨fun ⟨s, hs, hq⟩ => ⟨s, E.selected_perm.mem_iff.2 hs, hq⟩, fun ⟨s, hs, hq⟩ => ⟨s, E.selected_perm.mem_iff.1 hs, hq⟩⟩
    have h2 : Inside (resultEdges h events) q ↔
        Inside ((regionPolygons (Rs.map fun R => ⟨E.selected.traced R⟩)).flatMap Polygon.edges) q := by
      rw [O.inside]
      unfold Inside; rw [E.selected_perm.countP_eq]
    show q ∈ segsPts _ ∨ Inside _ q ↔ q ∈ segsPts _ ∨ Inside _ q
    rw [h1, h2]

theorem contoursBox_eq (cs : List Contour) : contoursBox cs = polygonsBox (regionPolygons cs) := by
  unfold regionPolygons
  cases cs with
  | nil => rfl
  | cons c cs =>
    simp only [contoursBox, polygonsBox, List.map_cons, List.foldl_map]

theorem unpackRegions_eq (cs : List Contour) : unpackRegions cs = unpackPolygons (regionPolygons cs) := by
  unfold regionPolygons
  match cs with
  | [] => rfl
  | [_] => rfl
  | _ :: _ :: _ => rfl

theorem coupledWithRegion_eq (o : Orient) (b : Box) (c : Contour) : coupledWithRegion o b c = coupledWithPolygon o b ⟨c, []⟩ := by
  unfold coupledWithRegion coupledWithPolygon isSubsetOfMultiregion
  simp only [List.any_map, List.any_nil, Bool.not_false, Bool.or_true]
  split
  · rfl
  · split
    · rfl
    · simp only [Function.comp_def]
      by_cases h1 : ((toVertices b).any fun v => decide (o.pointInRegion v c = Location.interior)) = true
      · simp [h1]
      · rw [if_neg h1]
        rw [Bool.not_eq_true] at h1
        rw [h1, Bool.false_or]
        split
        · rename_i h2; rw [h2]; rfl
        · rename_i h2
          rw [Bool.not_eq_true] at h2
          rw [h2, Bool.false_or]

theorem toCoupledRegions_eq (o : Orient) (b : Box) (cs : List Contour) :
    regionPolygons (toCoupledRegions o b cs) = toCoupledPolygons o b (regionPolygons cs) := by
  unfold regionPolygons toCoupledRegions toCoupledPolygons
  rw [List.filter_map]
  congr 1
  refine List.filter_congr fun c _ => ?_
  exact coupledWithRegion_eq o b c

variable {o : Orient} (ok : OrientOk o)

include ok

theorem toIntersectingRegions_eq {b : Box} (hb : b.Nonempty) {cs : List Contour} (hv : ∀ p ∈ regionPolygons cs, ValidPolygon p) :
    regionPolygons (toIntersectingRegions o b cs) = toIntersectingPolygons o b (regionPolygons cs) := by
  unfold toIntersectingRegions toIntersectingPolygons
  unfold regionPolygons at hv ⊢
  rw [List.filter_map]
  congr 1
  refine List.filter_congr fun c hc => ?_
  have V := hv _ (List.mem_map.2 ⟨c, hc, rfl⟩)
  rw [Bool.eq_iff_iff, intersectsWithRegion_spec ok V.border hb, Function.comp_apply, intersectsWithPolygon_spec ok V hb,
    Selected.RegionsInv.region_edges]

variable {P Q : List Contour} (hP : ValidPolygons (regionPolygons P)) (hQ : ValidPolygons (regionPolygons Q)) (nP : P ≠ [])
  (nQ : Q ≠ [])

omit ok in
theorem regionPolygons_isEmpty (cs : List Contour) : (regionPolygons cs).isEmpty = cs.isEmpty := by
  cases cs <;> rfl

include hP hQ nP nQ

theorem holelessIntersection_outlines (tb : TieBreak) : ∃ cs, holelessIntersection o tb P Q = .ok (unpackRegions cs) ∧
    Outlines (fun a b => a && b) ((regionPolygons P).flatMap Polygon.edges) ((regionPolygons Q).flatMap Polygon.edges)
      (regionPolygons cs) ∧ (∀ p ∈ regionPolygons cs, p.Oriented) ∧ ValidPolygons (regionPolygons cs) := by
  have ha := regionsOperand_ok (regionPolygons_ne nP) hP
  have hb := regionsOperand_ok (regionPolygons_ne nQ) hQ
  obtain ⟨ba, bb, h1, h2⟩ := boxes_ok ha hb
  have h1' : contoursBox P = .ok ba := (contoursBox_eq P).trans h1
  have h2' : contoursBox Q = .ok bb := (contoursBox_eq Q).trans h2
  unfold holelessIntersection
  rw [h1', h2']
  simp only [bind, Except.bind, pure, Except.pure]
  have nothing : (∀ q, q ∉ segsPts ((regionPolygons P).flatMap Polygon.edges ++ (regionPolygons Q).flatMap Polygon.edges) →
      ¬ (Inside ((regionPolygons P).flatMap Polygon.edges) q ∧ Inside ((regionPolygons Q).flatMap Polygon.edges) q)) →
      ∃ cs, (Except.ok Geometry.empty : Except Err Geometry) = .ok (unpackRegions cs) ∧
    Outlines (fun a b => a && b) ((regionPolygons P).flatMap Polygon.edges) ((regionPolygons Q).flatMap Polygon.edges)
      (regionPolygons cs) ∧ (∀ p ∈ regionPolygons cs, p.Oriented) ∧ ValidPolygons (regionPolygons cs) := by
    intro hn
    refine ⟨[], rfl, outlines_nil fun q hq => ?_, by simp [regionPolygons], validPolygons_nil⟩
    rw [combined_and]
    exact hn q hq
  by_cases hd : disjointWith ba bb = true
  · rw [if_pos hd]
    refine nothing ?_
    rintro q _ ⟨g1, g2⟩
    exact boxes_disjoint ha hb h1 h2 hd g1 g2
  rw [if_neg hd]
  have key := fun q hq => coupled_both ok ha hb h1 h2 (q := q) hq
  simp only [multipolygonOperand, ← toCoupledRegions_eq] at key
  by_cases e1 : (toCoupledRegions o bb P).isEmpty = true
  · rw [if_pos e1]
    refine nothing fun q hq => ?_
    rw [← key q hq, List.isEmpty_iff.1 e1]
    exact fun h => inside_nil q h.1
  rw [if_neg e1]
  by_cases e2 : (toCoupledRegions o ba Q).isEmpty = true
  · rw [if_pos e2]
    refine nothing fun q hq => ?_
    rw [← key q hq, List.isEmpty_iff.1 e2]
    exact fun h => inside_nil q h.2
  rw [if_neg e2]
  have s1 := toCoupledPolygons_sub o bb (regionPolygons P)
  have s2 := toCoupledPolygons_sub o ba (regionPolygons Q)
  rw [← toCoupledRegions_eq] at s1 s2
  obtain ⟨h, events, cs, e, e', -, O, R, V, -⟩ := holelessSweep_complete tb (hP.sublist s1) (hQ.sublist s2)
    (fun h => e1 (by rw [h]; rfl)) (fun h => e2 (by rw [h]; rfl))
  simp only [e, e']
  refine ⟨cs, rfl, ?_, R, V⟩
  refine O.mono (segsPts_append_sub (flatMap_edges_sub s1) (flatMap_edges_sub s2)) fun q hq => ?_
  rw [combined_and, combined_and, key q hq]

theorem holelessCompleteIntersection_parts (tb : TieBreak) : ∃ g, holelessCompleteIntersection o tb P Q = .ok g ∧ g.Canonical ∧
    Outlines (fun a b => a && b) ((regionPolygons P).flatMap Polygon.edges) ((regionPolygons Q).flatMap Polygon.edges)
      g.shapedPolygons ∧ (∀ p ∈ g.shapedPolygons, p.Oriented) ∧ (∀ p ∈ g.shapedPolygons, p.holes = []) ∧
    ValidPolygons g.shapedPolygons ∧
    CompleteParts (polysPts (regionPolygons P)) (polysPts (regionPolygons Q)) g.discretePoints g.linearSegments
      (polysPts g.shapedPolygons) := by
  have ha := regionsOperand_ok (regionPolygons_ne nP) hP
  have hb := regionsOperand_ok (regionPolygons_ne nQ) hQ
  obtain ⟨ba, bb, h1, h2⟩ := boxes_ok ha hb
  have h1' : contoursBox P = .ok ba := (contoursBox_eq P).trans h1
  have h2' : contoursBox Q = .ok bb := (contoursBox_eq Q).trans h2
  obtain ⟨b1, b2⟩ := polygonsBox_spec ha.valid.valid h1
  obtain ⟨b3, b4⟩ := polygonsBox_spec hb.valid.valid h2
  unfold holelessCompleteIntersection
  rw [h1', h2']
  simp only [bind, Except.bind, pure, Except.pure]
  have comb : ∀ {P Q : List Polygon}, ValidPolygons P → ValidPolygons Q → ∀ q,
      q ∉ segsPts (P.flatMap Polygon.edges ++ Q.flatMap Polygon.edges) →
      (Combined (fun a b => a && b) (P.flatMap Polygon.edges) (Q.flatMap Polygon.edges) q ↔
        q ∈ polysPts P ∧ q ∈ polysPts Q) := by
    intro P Q hP hQ q hq
    obtain ⟨q1, q2⟩ := off_append hq
    rw [combined_and, hP.mem_off q1, hQ.mem_off q2]
  have nothing : (∀ q, ¬ (q ∈ polysPts (regionPolygons P) ∧ q ∈ polysPts (regionPolygons Q))) →
      ∃ g, (Except.ok Geometry.empty : Except Err Geometry) = .ok g ∧ g.Canonical ∧
      Outlines (fun a b => a && b) ((regionPolygons P).flatMap Polygon.edges) ((regionPolygons Q).flatMap Polygon.edges)
        g.shapedPolygons ∧ (∀ p ∈ g.shapedPolygons, p.Oriented) ∧ (∀ p ∈ g.shapedPolygons, p.holes = []) ∧
      ValidPolygons g.shapedPolygons ∧
      CompleteParts (polysPts (regionPolygons P)) (polysPts (regionPolygons Q)) g.discretePoints g.linearSegments
        (polysPts g.shapedPolygons) := by
    intro hn
    refine ⟨_, rfl, Or.inl trivial, outlines_nil fun q hq hc => hn q ((comb hP hQ q hq).1 hc),
      by simp [Geometry.shapedPolygons], by simp [Geometry.shapedPolygons], validPolygons_nil,
      completeParts_empty hn ?_⟩
    ext q
    simp [polysPts, Geometry.shapedPolygons]
  by_cases hd : disjointWith ba bb = true
  · rw [if_pos hd]
    refine nothing ?_
    rintro q ⟨g1, g2⟩
    exact (disjointWith_iff ba bb b2 b4).1.1 hd q (b1 g1) (b3 g2)
  rw [if_neg hd]
  have key := fun q => kept_both ok ha hb h1 h2 q
  simp only [multipolygonOperand, ← toIntersectingRegions_eq ok b4 hP.valid, ← toIntersectingRegions_eq ok b2 hQ.valid] at key
  by_cases e1 : (toIntersectingRegions o bb P).isEmpty = true
  · rw [if_pos e1]
    refine nothing fun q hq => ?_
    rw [← key q, List.isEmpty_iff.1 e1] at hq
    obtain ⟨⟨p, hp, -⟩, -⟩ := hq
    cases hp
  rw [if_neg e1]
  by_cases e2 : (toIntersectingRegions o ba Q).isEmpty = true
  · rw [if_pos e2]
    refine nothing fun q hq => ?_
    rw [← key q, List.isEmpty_iff.1 e2] at hq
    obtain ⟨-, ⟨p, hp, -⟩⟩ := hq
    cases hp
  rw [if_neg e2]
  have s1 := toIntersectingPolygons_sub o bb (regionPolygons P)
  have s2 := toIntersectingPolygons_sub o ba (regionPolygons Q)
  rw [← toIntersectingRegions_eq ok b4 hP.valid] at s1
  rw [← toIntersectingRegions_eq ok b2 hQ.valid] at s2
  have v1 := hP.sublist s1
  have v2 := hQ.sublist s2
  obtain ⟨h, events, cs, e, -, e', O, R, V, C⟩ := holelessSweep_complete tb v1 v2
    (fun h => e1 (by rw [h]; rfl)) (fun h => e2 (by rw [h]; rfl))
  simp only [e, e', unpackRegions_eq]
  obtain ⟨p1, p2, -⟩ := unpackPoints_discrete (touchPoints h (groupRuns h.evStart (sortEvents h events)))
  obtain ⟨l1, l2, -⟩ := unpackSegments_linear (commonEdges h (sortEvents h events))
  obtain ⟨g1, g2, -⟩ := unpackPolygons_polygonal (regionPolygons cs)
  obtain ⟨u1, u2, u3, u4⟩ := unpackMix_parts p1 l1 g1
  rw [p2] at u2
  rw [l2] at u3
  rw [g2] at u4
  refine ⟨_, rfl, u1, ?_⟩
  rw [u2, u3, u4]
  refine ⟨?_, R, ?_, V, C.congr key rfl⟩
  · have hs := segsPts_append_sub (flatMap_edges_sub s1) (flatMap_edges_sub s2)
    refine O.mono hs fun q hq => ?_
    rw [comb v1 v2 q fun hh => hq (hs hh), comb hP hQ q hq, key q]
  · intro p hp
    unfold regionPolygons at hp
    obtain ⟨c, -, rfl⟩ := List.mem_map.1 hp
    rfl

end Clipping

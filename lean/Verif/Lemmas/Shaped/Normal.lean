import Verif.Spec.Normal
import Verif.Properties.Shrink
import Verif.Lemmas.Shaped.TwinForm
import Verif.Lemmas.Shaped.RegionsResult

/-!
# Traced contours are in normal form
-/

namespace Clipping

open Sweep Darts

theorem edge_vertices {c : Contour} {e : Segment} (he : e ∈ c.edges) : e.start ∈ c.vertices ∧ e.stop ∈ c.vertices := by
  unfold Contour.edges at he
  split at he
  · simp at he
  · rename_i v vs hv
    rw [hv]
    obtain ⟨i, hi, rfl⟩ := List.getElem_of_mem he
    rw [List.getElem_zipWith]
    refine ⟨List.getElem_mem _, ?_⟩
    have : (vs ++ [v])[i]'(by simp at hi ⊢; omega) ∈ vs ++ [v] := List.getElem_mem _
    simp only [List.mem_append, List.mem_singleton] at this
    exact List.mem_cons.2 this.symm

/-- Dropping vertices keeps the least one. -/
theorem shrink_head {v : Point} {vs : List Point} (hs : SimpleContour ⟨v :: vs⟩) (hl : ∀ w ∈ vs, v < w) :
    ∃ ws, shrinkCollinearVertices (v :: vs) = v :: ws ∧ ∀ w ∈ ws, v < w := by
  obtain ⟨h1, h2, -⟩ := shrink_keeps_contour hs
  have sub := (shrink_drops_collinear (v :: vs)).2
  have hv : v ∈ segsPts (Contour.mk (shrinkCollinearVertices (v :: vs))).edges := by
    rw [h2]
    exact hs.vertex_segs (List.mem_cons_self ..)
  have mem : v ∈ shrinkCollinearVertices (v :: vs) := by
    obtain ⟨e, he, hve⟩ := hv
    obtain ⟨e1, e2⟩ := edge_vertices he
    by_contra hcon
    have big : ∀ w ∈ shrinkCollinearVertices (v :: vs), v < w := by
      intro w hw
      rcases List.mem_cons.1 (sub.subset hw) with rfl | h
      · exact absurd hw hcon
      · exact hl w h
    have h3 := Segment.lo_le_of_mem hve
    have h4 : v < e.lo := by
      unfold Segment.lo
      exact lt_min (big _ e1) (big _ e2)
    exact absurd (lt_of_lt_of_le h4 h3) (lt_irrefl _)
  clear h1 h2 hv
  generalize shrinkCollinearVertices (v :: vs) = us at sub mem
  cases sub with
  | cons _ h => exact absurd (hl v (h.subset mem)) (lt_irrefl _)
  | cons_cons _ h => exact ⟨_, rfl, fun w hw => hl w (h.subset hw)⟩

theorem Contour.Normal.reversed {vs : List Point} (h : Contour.Normal ⟨vs⟩) : Contour.Normal ⟨reverseVertices vs⟩ where
  least := by
    obtain ⟨v, ws, e, hl⟩ := h.least
    dsimp only at e
    subst e
    exact ⟨v, ws.reverse, rfl, fun w hw => hl w (List.mem_reverse.1 hw)⟩
  corners u v w rest hr := by
    obtain ⟨x, ws, e, -⟩ := h.least
    dsimp only at e hr
    subst e
    have h1 : (reverseVertices (x :: ws)) ~r (x :: ws).reverse := by
      rw [show reverseVertices (x :: ws) = x :: ws.reverse from rfl, List.reverse_cons]
      exact ⟨1, by simp⟩
    have h2 : (x :: ws) ~r (u :: v :: w :: rest).reverse := by
      have := (h1.symm.trans hr).reverse
      rwa [List.reverse_reverse] at this
    have h3 : (u :: v :: w :: rest).reverse ~r (w :: v :: u :: rest.reverse) := by
      refine ⟨rest.length, ?_⟩
      have : (u :: v :: w :: rest).reverse = rest.reverse ++ [w, v, u] := by simp
      rw [this]
      have := List.rotate_append_length_eq rest.reverse [w, v, u]
      rw [List.length_reverse] at this
      rw [this]
      simp
    have h4 := h.corners w v u _ (h2.trans h3)
    intro h5
    apply h4
    clear * - h5
    unfold cross at *
    linarith

theorem Darts.Stage.key_le {D : Darts} {F₀ Fe : Finset ℕ} {Rs : List (List ℕ)} {j d : ℕ} {F : Finset ℕ}
    (st : D.Stage F₀ Rs Fe j F d) {x : ℕ} (hx : x ∈ F) : D.key d ≤ D.key x := by
  rcases (st.first.least x hx).eq_or_lt with h | h
  · rw [h]
  · exact st.first.sorted.key d x h (st.first.closed.lt x hx)

namespace Selected

variable {h : Heap ShapedData} {events : List Ev} {S : Selected h events}

theorem traced_normal {F₀ Fe : Finset ℕ} {Rs : List (List ℕ)} {j d : ℕ} {F : Finset ℕ} (st : S.darts.Stage F₀ Rs Fe j F d) :
    (Contour.mk (S.traced (nth Rs j))).Normal ∧ ∃ ws, S.traced (nth Rs j) = S.darts.key d :: ws := by
  have hs := st.traced.loop.simple
  obtain ⟨l, hl⟩ : ∃ l, nth Rs j = d :: l := by
    have := st.traced.head
    cases hn : nth Rs j with
    | nil => rw [hn] at this; simp at this
    | cons x l => rw [hn] at this; simp at this; subst this; exact ⟨l, rfl⟩
  unfold Selected.traced
  unfold Loop.contour at hs
  have hs' := hs
  rw [hl, List.map_cons] at hs'
  have least : ∀ w ∈ l.map S.darts.key, S.darts.key d < w := by
    intro w hw
    obtain ⟨x, hx, rfl⟩ := List.mem_map.1 hw
    have h1 : S.darts.key d ≤ S.darts.key x := st.key_le (st.traced.mem x (hl ▸ List.mem_cons_of_mem _ hx))
    refine lt_of_le_of_ne h1 fun e => ?_
    have := hs'.nodup
    rw [List.nodup_cons] at this
    exact this.1 (e ▸ hw)
  obtain ⟨ws, e, hw⟩ := shrink_head hs' least
  rw [← List.map_cons, ← hl] at e
  exact ⟨⟨⟨_, _, e, hw⟩, fun u v w rest hr => shrink_leaves_no_collinear hs hr⟩, ws, e⟩

theorem TraceInv.normal {processed : ℕ → Bool} {m : Marks} {r : Relations} {contours : List Contour} {Rs : List (List ℕ)}
    {F : Finset ℕ} {ptr : ℕ → Option (ℕ × Bool)} (I : TraceInv S processed m r contours Rs F ptr) :
    NormalPolygons (assemblePolygons r contours) := by
  have T := I.traced₀
  have spec : ∀ j < Rs.length, (contours.getD j ⟨[]⟩).Normal ∧ ∀ Fj dj, S.darts.Stage (Finset.range S.darts.n) Rs F j Fj dj →
      (contours.getD j ⟨[]⟩).vertices.head? = some (S.darts.key dj) := by
    intro j hj
    obtain ⟨Fj, dj, st⟩ := T.stage hj
    rw [I.contour j hj]
    split_ifs
    · refine ⟨(traced_normal st).1.reversed, fun Fj dj st => ?_⟩
      obtain ⟨-, ws, e⟩ := traced_normal st
      dsimp only
      rw [e]
      rfl
    · refine ⟨(traced_normal st).1, fun Fj dj st => ?_⟩
      obtain ⟨-, ws, e⟩ := traced_normal st
      dsimp only
      rw [e]
      rfl
  have before : ∀ i j, i < j → j < Rs.length → (contours.getD i ⟨[]⟩).StartsBefore (contours.getD j ⟨[]⟩) := by
    intro i j hij hj v hv w hw
    obtain ⟨Fi, di, si⟩ := T.stage (hij.trans hj)
    obtain ⟨Fj, dj, sj⟩ := T.stage hj
    rw [(spec i (hij.trans hj)).2 Fi di si] at hv
    rw [(spec j hj).2 Fj dj sj] at hw
    cases hv
    cases hw
    exact si.key_le (Finset.mem_of_subset (Finset.filter_subset _ _) (si.later j hij hj _ sj.traced.start))
  have hlt : ∀ p < Rs.length, ∀ j ∈ r.holes.getD p [], p < j ∧ j < Rs.length := by
    intro p hp j hj
    obtain ⟨h1, h2⟩ := (I.rel.mem_holes hp).1 hj
    exact ⟨(I.rel.parent_external h1 h2).1, h1⟩
  have sorted : ∀ p < Rs.length, (r.holes.getD p []).Pairwise (· < ·) := by
    intro p hp
    rw [I.rel.holes p hp]
    exact List.Pairwise.filter _ List.pairwise_lt_range
  rw [I.rel.assemble I.len]
  refine ⟨?_, ?_, ?_, ?_⟩
  · intro p hp
    obtain ⟨i, hi, rfl⟩ := List.mem_map.1 hp
    exact (spec i (RelOk.mem_borders.1 hi).1).1
  · intro p hp c hc
    obtain ⟨i, hi, rfl⟩ := List.mem_map.1 hp
    obtain ⟨j, hj, rfl⟩ := List.mem_map.1 hc
    exact (spec j (hlt i (RelOk.mem_borders.1 hi).1 j hj).2).1
  · unfold SortedBorders
    rw [List.pairwise_map]
    refine List.Pairwise.imp_of_mem ?_ (List.Pairwise.filter _ List.pairwise_lt_range)
    intro i j hi hj hij
    exact before i j hij (RelOk.mem_borders.1 hj).1
  · intro p hp
    obtain ⟨i, hi, rfl⟩ := List.mem_map.1 hp
    have hi' := (RelOk.mem_borders.1 hi).1
    rw [List.pairwise_cons]
    refine ⟨?_, ?_⟩
    · intro c hc
      obtain ⟨j, hj, rfl⟩ := List.mem_map.1 hc
      exact before i j (hlt i hi' j hj).1 (hlt i hi' j hj).2
    · unfold polygonOf
      rw [List.pairwise_map]
      refine List.Pairwise.imp_of_mem ?_ (sorted i hi')
      intro j k hj hk hjk
      exact before j k hjk (hlt i hi' k hk).2

theorem RegionsInv.normal {processed : ℕ → Bool} {Rs : List (List ℕ)} (I : RegionsInv S processed Rs ∅) :
    NormalPolygons (regionPolygons (Rs.map fun R => ⟨S.traced R⟩)) := by
  have T := I.traced₀
  have mem : ∀ R ∈ Rs, ∃ j < Rs.length, R = nth Rs j := by
    intro R hR
    obtain ⟨j, hj, rfl⟩ := List.getElem_of_mem hR
    exact ⟨j, hj, by unfold Darts.nth; rw [List.getD_eq_getElem _ _ hj]⟩
  refine ⟨?_, ?_, ?_, ?_⟩
  · intro p hp
    obtain ⟨c, hc, rfl⟩ := List.mem_map.1 hp
    obtain ⟨R, hR, rfl⟩ := List.mem_map.1 hc
    obtain ⟨j, hj, rfl⟩ := mem R hR
    obtain ⟨Fj, dj, st⟩ := T.stage hj
    exact (traced_normal st).1
  · intro p hp c hc
    obtain ⟨_, _, rfl⟩ := List.mem_map.1 hp
    simp at hc
  · unfold SortedBorders regionPolygons
    rw [List.pairwise_map, List.pairwise_map, List.pairwise_iff_getElem]
    intro i j hi hj hij v hv w hw
    obtain ⟨Fi, di, si⟩ := T.stage hi
    obtain ⟨Fj, dj, sj⟩ := T.stage hj
    have e1 : Rs[i] = nth Rs i := by unfold Darts.nth; rw [List.getD_eq_getElem _ _ hi]
    have e2 : Rs[j] = nth Rs j := by unfold Darts.nth; rw [List.getD_eq_getElem _ _ hj]
    rw [e1] at hv
    rw [e2] at hw
    obtain ⟨-, l, e⟩ := traced_normal si
    obtain ⟨-, l', e'⟩ := traced_normal sj
    dsimp only at hv hw
    rw [e] at hv
    rw [e'] at hw
    cases hv
    cases hw
    exact si.key_le (Finset.mem_of_subset (Finset.filter_subset _ _) (si.later j hij hj _ sj.traced.start))
  · intro p hp
    obtain ⟨_, _, rfl⟩ := List.mem_map.1 hp
    simp

end Selected

theorem normalPolygons_nil : NormalPolygons [] := ⟨by simp, by simp, List.Pairwise.nil, by simp⟩

/-! ## The results of operations -/

theorem eventsToPolygons_normal {h : Heap ShapedData} {events : List Ev} (S : Selected h (events.filter (fromResult h)))
    (B : Selected.BelowOk h (events.filter (fromResult h))) {ps : List Polygon} (e : eventsToPolygons h events = .ok ps) :
    NormalPolygons ps := by
  obtain ⟨r, contours, processed, m, Rs, F, ptr, h1, h2, -⟩ := S.tracing B
  unfold eventsToPolygons at e
  dsimp only at e
  rw [h1] at e
  cases e
  exact h2.normal

theorem holeySweep_normal {rule : ShapedRule} {op : Bool → Bool → Bool} (hr : RuleOk rule) (hop : RuleFor rule op) (tb : TieBreak)
    {xmax : Option ℚ} {P Q : List Polygon} (hP : ValidPolygons P) (hQ : ValidPolygons Q)
    (hst : StopOk op xmax (P.flatMap polygonEdges) (Q.flatMap polygonEdges)) :
    ∃ h events ps, holeySweep rule tb xmax P Q = .ok (h, events) ∧ eventsToPolygons h events = .ok ps ∧
      eventsToPolygons h (sortEvents h events) = .ok ps ∧ NormalPolygons ps := by
  obtain ⟨h, events, e, E⟩ := holeySweep_end hr hop tb hP hQ hst
  have bok := holey_belowOk hr hP.isBoundary hQ.isBoundary e E
  obtain ⟨ps, e', -⟩ := eventsToPolygons_outline E.selected bok
  refine ⟨h, events, ps, e, e', ?_, eventsToPolygons_normal E.selected bok e'⟩
  have perm : (sortEvents h events).Perm events := Selected.sort_perm
  rw [← e']
  unfold eventsToPolygons
  rw [E.selected.sort_eq (perm.filter _)]

theorem sortPolygons_sorted (ps : List Polygon) : SortedBorders (sortPolygons ps) := by
  have h1 : (sortPolygons ps).Pairwise fun p q => firstBorderVertex p ≤ firstBorderVertex q := by
    refine (List.pairwise_insertionSort (fun p q => firstBorderVertex p ≤ firstBorderVertex q) ps)
  refine h1.imp ?_
  intro p q hpq v hv w hw
  unfold firstBorderVertex at hpq
  rw [List.headD_eq_head?_getD, List.headD_eq_head?_getD, Option.mem_def.1 hv, Option.mem_def.1 hw] at hpq
  exact hpq

variable {o : Orient} {a b : ShapedOperand} (ha : ShapedOk a) (hb : ShapedOk b)

include ha hb

theorem holeyIntersection_normal (tb : TieBreak) {g : Geometry} (e : holeyIntersection o tb a b = .ok g) :
    NormalPolygons g.polygons := by
  obtain ⟨ba, bb, h1, h2⟩ := boxes_ok ha hb
  unfold holeyIntersection at e
  rw [h1, h2] at e
  simp only [bind, Except.bind, pure, Except.pure] at e
  split_ifs at e with hd e1 e2
  · cases e; exact normalPolygons_nil
  · cases e; exact normalPolygons_nil
  · cases e; exact normalPolygons_nil
  have v1 := ha.valid.sublist (toCoupledPolygons_sub o bb a.polygons)
  have v2 := hb.valid.sublist (toCoupledPolygons_sub o ba b.polygons)
  obtain ⟨n₁, x₁, g₁⟩ := polygonsMaxX_spec v1.valid (isEmpty_false e1)
  obtain ⟨n₂, x₂, g₂⟩ := polygonsMaxX_spec v2.valid (isEmpty_false e2)
  obtain ⟨h, events, ps, e', e'', -, N⟩ := holeySweep_normal intersectionRule_ok intersectionRule_for tb v1 v2
    (stopOk_min (v1.edges_x g₁) (v2.edges_x g₂) (by simp) (by simp))
  simp only [x₁, x₂, e', e''] at e
  cases e
  rw [unpackPolygons_polygons]
  exact N

theorem holeyCompleteIntersection_normal (tb : TieBreak) {g : Geometry} (e : holeyCompleteIntersection o tb a b = .ok g) :
    NormalPolygons g.shapedPolygons := by
  obtain ⟨ba, bb, h1, h2⟩ := boxes_ok ha hb
  unfold holeyCompleteIntersection at e
  rw [h1, h2] at e
  simp only [bind, Except.bind, pure, Except.pure] at e
  split_ifs at e with hd e1 e2
  · cases e; exact normalPolygons_nil
  · cases e; exact normalPolygons_nil
  · cases e; exact normalPolygons_nil
  have v1 := ha.valid.sublist (toIntersectingPolygons_sub o bb a.polygons)
  have v2 := hb.valid.sublist (toIntersectingPolygons_sub o ba b.polygons)
  obtain ⟨n₁, x₁, g₁⟩ := polygonsMaxX_spec v1.valid (isEmpty_false e1)
  obtain ⟨n₂, x₂, g₂⟩ := polygonsMaxX_spec v2.valid (isEmpty_false e2)
  obtain ⟨h, events, ps, e', -, e'', N⟩ := holeySweep_normal intersectionRule_ok intersectionRule_for tb v1 v2
    (stopOk_min (v1.edges_x g₁) (v2.edges_x g₂) (by simp) (by simp))
  simp only [x₁, x₂, e', e''] at e
  cases e
  obtain ⟨p1, -, -⟩ := unpackPoints_discrete (touchPoints h (groupRuns h.evStart (sortEvents h events)))
  obtain ⟨l1, -, -⟩ := unpackSegments_linear (commonEdges h (sortEvents h events))
  obtain ⟨g1, g2, -⟩ := unpackPolygons_polygonal ps
  rw [(unpackMix_parts p1 l1 g1).2.2.2, g2]
  exact N

theorem holeyDifference_normal (tb : TieBreak) {g : Geometry} (e : holeyDifference o tb a b = .ok g) :
    g = a.value ∨ NormalPolygons g.polygons := by
  obtain ⟨ba, bb, h1, h2⟩ := boxes_ok ha hb
  unfold holeyDifference at e
  rw [h1, h2] at e
  simp only [bind, Except.bind, pure, Except.pure] at e
  split_ifs at e with hd e2
  · cases e; exact Or.inl rfl
  · cases e; exact Or.inl rfl
  right
  have v2 := hb.valid.sublist (toCoupledPolygons_sub o ba b.polygons)
  obtain ⟨n₁, x₁, g₁⟩ := polygonsMaxX_spec ha.valid.valid ha.ne
  obtain ⟨h, events, ps, e', e'', -, N⟩ := holeySweep_normal differenceRule_ok differenceRule_for tb ha.valid v2
    (stopOk_first (ha.valid.edges_x g₁) (by simp))
  simp only [x₁, e', e''] at e
  cases e
  rw [unpackPolygons_polygons]
  exact N

theorem holeySymmetricDifference_normal (tb : TieBreak) {g : Geometry} (e : holeySymmetricDifference tb a b = .ok g) :
    SortedBorders g.polygons ∧ (g.polygons.Perm (a.polygons ++ b.polygons) ∨ NormalPolygons g.polygons) := by
  obtain ⟨ba, bb, h1, h2⟩ := boxes_ok ha hb
  unfold holeySymmetricDifference at e
  rw [h1, h2] at e
  simp only [bind, Except.bind, pure, Except.pure] at e
  split_ifs at e with hd
  · cases e
    exact ⟨sortPolygons_sorted _, Or.inl (sortPolygons_perm _)⟩
  obtain ⟨h, events, ps, e', e'', -, N⟩ := holeySweep_normal symmetricDifferenceRule_ok symmetricDifferenceRule_for tb
    ha.valid hb.valid (stopOk_none _ _ _)
  simp only [e', e''] at e
  cases e
  rw [unpackPolygons_polygons]
  exact ⟨N.sorted, Or.inr N⟩

theorem holeyUnion_normal (tb : TieBreak) {g : Geometry} (e : holeyUnion tb a b = .ok g) :
    SortedBorders g.polygons ∧ (g.polygons.Perm (a.polygons ++ b.polygons) ∨ NormalPolygons g.polygons) := by
  obtain ⟨ba, bb, h1, h2⟩ := boxes_ok ha hb
  unfold holeyUnion at e
  rw [h1, h2] at e
  simp only [bind, Except.bind, pure, Except.pure] at e
  split_ifs at e with hd
  · cases e
    exact ⟨sortPolygons_sorted _, Or.inl (sortPolygons_perm _)⟩
  obtain ⟨h, events, ps, e', e'', -, N⟩ := holeySweep_normal unionRule_ok unionRule_for tb
    ha.valid hb.valid (stopOk_none _ _ _)
  simp only [e', e''] at e
  cases e
  rw [unpackPolygons_polygons]
  exact ⟨N.sorted, Or.inr N⟩

omit ha hb

theorem holelessSweep_normal (tb : TieBreak) {P Q : List Contour} (hP : ValidPolygons (regionPolygons P))
    (hQ : ValidPolygons (regionPolygons Q)) (nP : P ≠ []) (nQ : Q ≠ []) :
    ∃ h events cs, holelessSweep tb P Q = .ok (h, events) ∧ eventsToRegions h events = .ok cs ∧
      eventsToRegions h (sortEvents h events) = .ok cs ∧ NormalPolygons (regionPolygons cs) := by
  obtain ⟨m₁, e₁, h₁⟩ := polygonsMaxX_spec hP.valid (regionPolygons_ne nP)
  obtain ⟨m₂, e₂, h₂⟩ := polygonsMaxX_spec hQ.valid (regionPolygons_ne nQ)
  have bP := hP.isBoundary
  have bQ := hQ.isBoundary
  have hst := stopOk_min (op := fun a b => a && b) (hP.edges_x h₁) (hQ.edges_x h₂) (by simp) (by simp)
  rw [regionPolygons_maxX] at e₁ e₂
  obtain ⟨h, events, e, E⟩ := shapedSweep_end (isShaped_holeless intersectionRule_ok) intersectionRule_for tb
    (some (min m₁ m₂)) bP bQ hst
  have B := E.isBoundaryOf.congr hP.sameEdges hQ.sameEdges
  obtain ⟨processed, Rs, e', I⟩ := E.selected.eventsToRegions_ok
    (solid_regions E.selected.darts_start hP hQ (B.perm E.selected.edges_perm.symm))
  have perm : (sortEvents h events).Perm events := Selected.sort_perm
  refine ⟨h, events, _, ?_, e', ?_, I.normal⟩
  · unfold holelessSweep
    rw [e₁, e₂]
    rw [regionPolygons_edges, regionPolygons_edges] at e
    exact e
  · rw [sortEvents_regions E.selected perm, e']

variable {P Q : List Contour} (hP : ValidPolygons (regionPolygons P)) (hQ : ValidPolygons (regionPolygons Q)) (nP : P ≠ [])
  (nQ : Q ≠ [])

include hP hQ nP nQ

theorem holelessIntersection_normal (tb : TieBreak) {g : Geometry} (e : holelessIntersection o tb P Q = .ok g) :
    NormalPolygons g.polygons := by
  have ha := regionsOperand_ok (regionPolygons_ne nP) hP
  have hb := regionsOperand_ok (regionPolygons_ne nQ) hQ
  obtain ⟨ba, bb, h1, h2⟩ := boxes_ok ha hb
  have h1' : contoursBox P = .ok ba := (contoursBox_eq P).trans h1
  have h2' : contoursBox Q = .ok bb := (contoursBox_eq Q).trans h2
  unfold holelessIntersection at e
  rw [h1', h2'] at e
  simp only [bind, Except.bind, pure, Except.pure] at e
  split_ifs at e with hd e1 e2
  · cases e; exact normalPolygons_nil
  · cases e; exact normalPolygons_nil
  · cases e; exact normalPolygons_nil
  have s1 := toCoupledPolygons_sub o bb (regionPolygons P)
  have s2 := toCoupledPolygons_sub o ba (regionPolygons Q)
  rw [← toCoupledRegions_eq] at s1 s2
  obtain ⟨h, events, cs, e', e'', -, N⟩ := holelessSweep_normal tb (hP.sublist s1) (hQ.sublist s2)
    (fun h => e1 (by rw [h]; rfl)) (fun h => e2 (by rw [h]; rfl))
  simp only [e', e''] at e
  cases e
  rw [unpackRegions_eq, unpackPolygons_polygons]
  exact N

theorem holelessCompleteIntersection_normal (ok : OrientOk o) (tb : TieBreak) {g : Geometry}
    (e : holelessCompleteIntersection o tb P Q = .ok g) : NormalPolygons g.shapedPolygons := by
  have ha := regionsOperand_ok (regionPolygons_ne nP) hP
  have hb := regionsOperand_ok (regionPolygons_ne nQ) hQ
  obtain ⟨ba, bb, h1, h2⟩ := boxes_ok ha hb
  have h1' : contoursBox P = .ok ba := (contoursBox_eq P).trans h1
  have h2' : contoursBox Q = .ok bb := (contoursBox_eq Q).trans h2
  have b2 := (polygonsBox_spec ha.valid.valid h1).2
  have b4 := (polygonsBox_spec hb.valid.valid h2).2
  unfold holelessCompleteIntersection at e
  rw [h1', h2'] at e
  simp only [bind, Except.bind, pure, Except.pure] at e
  split_ifs at e with hd e1 e2
  · cases e; exact normalPolygons_nil
  · cases e; exact normalPolygons_nil
  · cases e; exact normalPolygons_nil
  have s1 := toIntersectingPolygons_sub o bb (regionPolygons P)
  have s2 := toIntersectingPolygons_sub o ba (regionPolygons Q)
  rw [← toIntersectingRegions_eq ok b4 hP.valid] at s1
  rw [← toIntersectingRegions_eq ok b2 hQ.valid] at s2
  obtain ⟨h, events, cs, e', -, e'', N⟩ := holelessSweep_normal tb (hP.sublist s1) (hQ.sublist s2)
    (fun h => e1 (by rw [h]; rfl)) (fun h => e2 (by rw [h]; rfl))
  simp only [e', e'', unpackRegions_eq] at e
  cases e
  obtain ⟨p1, -, -⟩ := unpackPoints_discrete (touchPoints h (groupRuns h.evStart (sortEvents h events)))
  obtain ⟨l1, -, -⟩ := unpackSegments_linear (commonEdges h (sortEvents h events))
  obtain ⟨g1, g2, -⟩ := unpackPolygons_polygonal (regionPolygons cs)
  rw [(unpackMix_parts p1 l1 g1).2.2.2, g2]
  exact N

end Clipping

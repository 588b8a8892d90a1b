import Verif.Spec.Corners
import Verif.Lemmas.TreeSweep.Shaped
import Verif.Lemmas.TreeSweep.Sorting
import Verif.Lemmas.TreeSweep.Raises
import Verif.Lemmas.Shaped.RegionsResult
import Verif.Properties.TreeMixed

/-!
# C77: any polygons

As C75 and C76 for operations on polygons.  Polygons may cross themselves, overlap each other and be empty inside; only consecutive
vertices are different and every border has vertices.
-/

namespace Clipping

open TreeSweep Sweep

variable {orient : Orient} {a b : List Segment}

/-- The operation on operands with edges `a` and `b` ends: it raises `ValueError`, but only if edges of one operand overlap, or another
error, or returns a geometry with the property. -/
def ShapedEnds (a b : List Segment) (r : Except Err Geometry) (Q : Geometry → Prop) : Prop :=
  (r = .error .sameOperandOverlap ∧ ¬ (NoOverlap a ∧ NoOverlap b)) ∨ r = .error .assertion ∨ ∃ g, r = .ok g ∧ Q g

theorem contourEdges_corner {c : Contour} {cw : Bool} {v : Point} (hv : v ∈ c.vertices) : ∃ s ∈ contourEdges c cw, s.IsEnd v := by
  obtain ⟨i, hi, rfl⟩ := List.mem_iff_getElem.1 hv
  have e : vertexAt c.vertices i = c.vertices[i] := by
    unfold vertexAt
    simp [hi]
  unfold contourEdges
  dsimp only
  generalize (if cw = true then Orientation.clockwise else .counterclockwise) = o
  split
  · refine ⟨_, List.mem_map.2 ⟨i, List.mem_range.2 hi, rfl⟩, Or.inr ?_⟩
    exact e.symm
  · refine ⟨_, List.mem_map.2 ⟨i, List.mem_reverse.2 (List.mem_range.2 hi), rfl⟩, Or.inl ?_⟩
    exact e.symm

theorem polygons_corner {ps : List Polygon} {p : Polygon} (hp : p ∈ ps) {v : Point}
    (hv : v ∈ p.border.vertices ++ p.holes.flatMap Contour.vertices) : ∃ s ∈ ps.flatMap polygonEdges, s.IsEnd v := by
  rcases List.mem_append.1 hv with hv | hv
  · obtain ⟨s, hs, he⟩ := contourEdges_corner (cw := false) hv
    exact ⟨s, List.mem_flatMap.2 ⟨p, hp, List.mem_append_left _ hs⟩, he⟩
  · obtain ⟨c, hc, hv⟩ := List.mem_flatMap.1 hv
    obtain ⟨s, hs, he⟩ := contourEdges_corner (cw := true) hv
    exact ⟨s, List.mem_flatMap.2 ⟨p, hp, List.mem_append_right _ (List.mem_flatMap.2 ⟨c, hc, hs⟩)⟩, he⟩

theorem Vertex.mono_mem {l l' : List Segment} (h : ∀ s ∈ l, s ∈ l') {p : Point} : Vertex l p → Vertex l' p := by
  rintro (⟨s, hs, he⟩ | ⟨s, hs, t, ht, he⟩)
  · exact Or.inl ⟨s, h s hs, he⟩
  · exact Or.inr ⟨s, h s hs, t, h t ht, he⟩

theorem corners_of {ps : List Polygon} {Q : Point → Prop} (h : ∀ p ∈ ps, ∀ c ∈ p.border :: p.holes, ∀ v ∈ c.vertices, Q v) {g : Geometry}
    (hg : g.shapedPolygons = ps) : ∀ v ∈ g.corners, Q v := by
  intro v hv
  unfold Geometry.corners at hv
  rw [hg] at hv
  obtain ⟨p, hp, hv⟩ := List.mem_flatMap.1 hv
  rcases List.mem_append.1 hv with hv | hv
  · exact h p hp _ (by simp) v hv
  · obtain ⟨c, hc, hv⟩ := List.mem_flatMap.1 hv
    exact h p hp c (List.mem_cons_of_mem _ hc) v hv

section holey

variable {first second : ShapedOperand}

theorem edges_ne {ps : List Polygon} (h : ps ≠ []) (hv : ∀ p ∈ ps, p.border.vertices ≠ []) : ps.flatMap polygonEdges ≠ [] := by
  cases ps with
  | nil => exact absurd rfl h
  | cons p l =>
    cases hp : p.border.vertices with
    | nil => exact absurd hp (hv p (by simp))
    | cons v w =>
      obtain ⟨s, hs, -⟩ := polygons_corner (ps := p :: l) (p := p) (by simp) (v := v) (by rw [hp]; simp)
      exact List.ne_nil_of_mem hs

theorem treeHoleySweep_good (B : Balancing) (rule : ShapedRule) (tb : TieBreak) (xmax : Option ℚ) {ps qs : List Polygon}
    (pa : ∀ s ∈ ps.flatMap polygonEdges, s.Proper) (pb : ∀ s ∈ qs.flatMap polygonEdges, s.Proper) (ne : ps.flatMap polygonEdges ≠ []) :
    (treeHoleySweep B rule tb xmax ps qs = .error .sameOperandOverlap ∧
      ¬ (NoOverlap (ps.flatMap polygonEdges) ∧ NoOverlap (qs.flatMap polygonEdges))) ∨
      ∃ h number events, treeHoleySweep B rule tb xmax ps qs = .ok (h, number, events) ∧
        Processed (ps.flatMap polygonEdges) (qs.flatMap polygonEdges) h events := by
  unfold treeHoleySweep
  rcases treeShapedSweepFirst_good (O := holeyOps rule) B tb (stopAt xmax) pa pb (by simp [ne]) with h | ⟨s, log, h, P⟩
  · rw [h]; exact Or.inl ⟨rfl, treeShapedSweepFirst_raises h⟩
  · rw [h]; exact Or.inr ⟨_, _, _, rfl, P⟩

variable (B : Balancing) (S : EventSort) (tb : TieBreak)
  (h₁ : first.polygons ≠ []) (v₁ : ∀ p ∈ first.polygons, p.border.vertices ≠ []) (e₁ : ∀ s ∈ first.edges, s.Proper)
  (h₂ : second.polygons ≠ []) (v₂ : ∀ p ∈ second.polygons, p.border.vertices ≠ []) (e₂ : ∀ s ∈ second.edges, s.Proper)

/-- The result after a sweep. -/
theorem holey_result (rule : ShapedRule) (xmax : Option ℚ) {ps qs : List Polygon} {l : List Segment}
    (pa : ∀ s ∈ ps.flatMap polygonEdges, s.Proper) (pb : ∀ s ∈ qs.flatMap polygonEdges, s.Proper) (ne : ps.flatMap polygonEdges ≠ [])
    (sub : ∀ s ∈ ps.flatMap polygonEdges ++ qs.flatMap polygonEdges, s ∈ l) :
    (treeHoleySweep B rule tb xmax ps qs = .error .sameOperandOverlap ∧
      ¬ (NoOverlap (ps.flatMap polygonEdges) ∧ NoOverlap (qs.flatMap polygonEdges))) ∨
      ∃ h number events, treeHoleySweep B rule tb xmax ps qs = .ok (h, number, events) ∧
        (eventsToPolygonsChecked S h number events = .error .assertion ∨
          ∃ ps, eventsToPolygonsChecked S h number events = .ok ps ∧ ∀ v ∈ (unpackPolygons ps).corners, Vertex l v) := by
  rcases treeHoleySweep_good B rule tb xmax pa pb ne with e | ⟨h, number, events, e, P⟩
  · exact Or.inl e
  · refine Or.inr ⟨h, number, events, e, ?_⟩
    rcases P.polygons S number with e | ⟨ps, e, hq⟩
    · exact Or.inl e
    · exact Or.inr ⟨ps, e, fun v hv => (corners_of hq (unpackPolygons_polygonal ps).2.1 v hv).mono_mem sub⟩

include h₁ e₁ h₂ e₂ v₁

/-- **C77** The difference of any polygons. -/
theorem subtract_any_shaped (g₁ : first.value.shapedPolygons = first.polygons) :
    ShapedEnds first.edges second.edges (treeHoleyDifference orient B S tb first second) fun g => ∀ v ∈ g.corners, Vertex (first.edges ++ second.edges) v := by
  obtain ⟨b₁, hb₁⟩ := polygonsBox_ok h₁
  obtain ⟨b₂, hb₂⟩ := polygonsBox_ok h₂
  obtain ⟨m, hm⟩ := polygonsMaxX_any h₁ v₁
  unfold treeHoleyDifference
  rw [hb₁, hb₂, hm]
  simp only [bind, Except.bind, pure, Except.pure]
  have given : ShapedEnds first.edges second.edges (.ok first.value) fun g => ∀ v ∈ g.corners, Vertex (first.edges ++ second.edges) v := by
    refine Or.inr (Or.inr ⟨_, rfl, ?_⟩)
    intro v hv
    unfold Geometry.corners at hv
    rw [g₁] at hv
    obtain ⟨p, hp, hv⟩ := List.mem_flatMap.1 hv
    obtain ⟨s, hs, he⟩ := polygons_corner hp hv
    exact Or.inl ⟨s, List.mem_append_left _ hs, he⟩
  split_ifs
  · exact given
  · exact given
  · rcases holey_result B S tb differenceRule (some m) (qs := toCoupledPolygons orient b₁ second.polygons) e₁ (fun s hs => e₂ s ((edges_filter _).subset hs)) (edges_ne h₁ v₁) 
      (List.Sublist.append (List.Sublist.refl _) (edges_filter _)).subset with ⟨e, ov⟩ | ⟨h, number, events, e, e' | ⟨ps, e', hq⟩⟩
    · rw [e]; exact Or.inl ⟨rfl, fun n => ov ⟨n.1, n.2.sublist (edges_filter _)⟩⟩
    · rw [e]; dsimp only; rw [e']; exact Or.inr (Or.inl rfl)
    · rw [e]; dsimp only; rw [e']; exact Or.inr (Or.inr ⟨_, rfl, hq⟩)

omit v₁ h₁ e₁ h₂ e₂ in
theorem both_corners : ∀ v ∈ (Geometry.multipolygon (sortPolygons (first.polygons ++ second.polygons))).corners,
    Vertex (first.edges ++ second.edges) v := by
  intro v hv
  obtain ⟨p, hp, hv⟩ := List.mem_flatMap.1 hv
  have hp : p ∈ first.polygons ++ second.polygons := (List.perm_insertionSort _ _).mem_iff.1 hp
  rcases List.mem_append.1 hp with hp | hp
  · obtain ⟨s, hs, he⟩ := polygons_corner hp hv
    exact Or.inl ⟨s, List.mem_append_left _ hs, he⟩
  · obtain ⟨s, hs, he⟩ := polygons_corner hp hv
    exact Or.inl ⟨s, List.mem_append_right _ hs, he⟩

/-- **C77** The symmetric difference of any polygons. -/
theorem symmetric_subtract_any_shaped :
    ShapedEnds first.edges second.edges (treeHoleySymmetricDifference B S tb first second) fun g => ∀ v ∈ g.corners, Vertex (first.edges ++ second.edges) v := by
  obtain ⟨b₁, hb₁⟩ := polygonsBox_ok h₁
  obtain ⟨b₂, hb₂⟩ := polygonsBox_ok h₂
  unfold treeHoleySymmetricDifference
  rw [hb₁, hb₂]
  simp only [bind, Except.bind, pure, Except.pure]
  split_ifs
  · exact Or.inr (Or.inr ⟨_, rfl, both_corners⟩)
  · rcases holey_result B S tb symmetricDifferenceRule none e₁ e₂ (edges_ne h₁ v₁) (fun s hs => hs) with ⟨e, ov⟩ | ⟨h, number, events, e, e' | ⟨ps, e', hq⟩⟩
    · rw [e]; exact Or.inl ⟨rfl, ov⟩
    · rw [e]; dsimp only; rw [e']; exact Or.inr (Or.inl rfl)
    · rw [e]; dsimp only; rw [e']; exact Or.inr (Or.inr ⟨_, rfl, hq⟩)

/-- **C77** The union of any polygons. -/
theorem unite_any_shaped :
    ShapedEnds first.edges second.edges (treeHoleyUnion B S tb first second) fun g => ∀ v ∈ g.corners, Vertex (first.edges ++ second.edges) v := by
  obtain ⟨b₁, hb₁⟩ := polygonsBox_ok h₁
  obtain ⟨b₂, hb₂⟩ := polygonsBox_ok h₂
  unfold treeHoleyUnion
  rw [hb₁, hb₂]
  simp only [bind, Except.bind, pure, Except.pure]
  split_ifs
  · exact Or.inr (Or.inr ⟨_, rfl, both_corners⟩)
  · rcases holey_result B S tb unionRule none e₁ e₂ (edges_ne h₁ v₁) (fun s hs => hs) with ⟨e, ov⟩ | ⟨h, number, events, e, e' | ⟨ps, e', hq⟩⟩
    · rw [e]; exact Or.inl ⟨rfl, ov⟩
    · rw [e]; dsimp only; rw [e']; exact Or.inr (Or.inl rfl)
    · rw [e]; dsimp only; rw [e']; exact Or.inr (Or.inr ⟨_, rfl, hq⟩)

include v₂

/-- **C77** The intersection of any polygons. -/
theorem intersect_any_shaped :
    ShapedEnds first.edges second.edges (treeHoleyIntersection orient B S tb first second) fun g => ∀ v ∈ g.corners, Vertex (first.edges ++ second.edges) v := by
  obtain ⟨b₁, hb₁⟩ := polygonsBox_ok h₁
  obtain ⟨b₂, hb₂⟩ := polygonsBox_ok h₂
  unfold treeHoleyIntersection
  rw [hb₁, hb₂]
  simp only [bind, Except.bind, pure, Except.pure]
  have emp : ShapedEnds first.edges second.edges (.ok .empty) fun g => ∀ v ∈ g.corners, Vertex (first.edges ++ second.edges) v :=
    Or.inr (Or.inr ⟨_, rfl, by intro v hv; cases hv⟩)
  split_ifs with k1 k2 k3
  · exact emp
  · exact emp
  · exact emp
  · have w₁ : ∀ p ∈ toCoupledPolygons orient b₂ first.polygons, p.border.vertices ≠ [] := fun p hp => v₁ p (List.filter_sublist.subset hp)
    have w₂ : ∀ p ∈ toCoupledPolygons orient b₁ second.polygons, p.border.vertices ≠ [] := fun p hp => v₂ p (List.filter_sublist.subset hp)
    have n₁ : toCoupledPolygons orient b₂ first.polygons ≠ [] := by simpa using k2
    have n₂ : toCoupledPolygons orient b₁ second.polygons ≠ [] := by simpa using k3
    obtain ⟨m, hm⟩ := polygonsMaxX_any n₁ w₁
    obtain ⟨m', hm'⟩ := polygonsMaxX_any n₂ w₂
    rw [hm, hm']
    dsimp only
    rcases holey_result B S tb intersectionRule (some (min m m')) (ps := toCoupledPolygons orient b₂ first.polygons)
      (qs := toCoupledPolygons orient b₁ second.polygons) (fun s hs => e₁ s ((edges_filter _).subset hs))
      (fun s hs => e₂ s ((edges_filter _).subset hs)) (edges_ne n₁ w₁) (List.Sublist.append (edges_filter _) (edges_filter _)).subset with ⟨e, ov⟩ | ⟨h, number, events, e, e' | ⟨ps, e', hq⟩⟩
    · rw [e]; exact Or.inl ⟨rfl, fun n => ov ⟨n.1.sublist (edges_filter _), n.2.sublist (edges_filter _)⟩⟩
    · rw [e]; dsimp only; rw [e']; exact Or.inr (Or.inl rfl)
    · rw [e]; dsimp only; rw [e']; exact Or.inr (Or.inr ⟨_, rfl, hq⟩)

/-- **C77** The complete intersection of any polygons: points are on both boundaries, and segments are parts of edges of the first
operand. -/
theorem complete_intersect_any_shaped :
    ShapedEnds first.edges second.edges (treeHoleyCompleteIntersection orient B S tb first second) fun g =>
      (∀ v ∈ g.corners, Vertex (first.edges ++ second.edges) v) ∧
        (∀ p ∈ g.discretePoints, p ∈ segsPts first.edges ∩ segsPts second.edges) ∧ ∀ c ∈ g.linearSegments, PartOf c first.edges := by
  obtain ⟨b₁, hb₁⟩ := polygonsBox_ok h₁
  obtain ⟨b₂, hb₂⟩ := polygonsBox_ok h₂
  unfold treeHoleyCompleteIntersection
  rw [hb₁, hb₂]
  simp only [bind, Except.bind, pure, Except.pure]
  have emp : ShapedEnds first.edges second.edges (.ok .empty) fun g =>
      (∀ v ∈ g.corners, Vertex (first.edges ++ second.edges) v) ∧
        (∀ p ∈ g.discretePoints, p ∈ segsPts first.edges ∩ segsPts second.edges) ∧ ∀ c ∈ g.linearSegments, PartOf c first.edges :=
    Or.inr (Or.inr ⟨_, rfl, (by intro v hv; cases hv), (by intro v hv; cases hv), (by intro v hv; cases hv)⟩)
  split_ifs with k1 k2 k3
  · exact emp
  · exact emp
  · exact emp
  · have w₁ : ∀ p ∈ toIntersectingPolygons orient b₂ first.polygons, p.border.vertices ≠ [] :=
      fun p hp => v₁ p (List.filter_sublist.subset hp)
    have w₂ : ∀ p ∈ toIntersectingPolygons orient b₁ second.polygons, p.border.vertices ≠ [] :=
      fun p hp => v₂ p (List.filter_sublist.subset hp)
    have n₁ : toIntersectingPolygons orient b₂ first.polygons ≠ [] := by simpa using k2
    have n₂ : toIntersectingPolygons orient b₁ second.polygons ≠ [] := by simpa using k3
    obtain ⟨m, hm⟩ := polygonsMaxX_any n₁ w₁
    obtain ⟨m', hm'⟩ := polygonsMaxX_any n₂ w₂
    rw [hm, hm']
    dsimp only
    rcases treeHoleySweep_good B intersectionRule tb (some (min m m')) (ps := toIntersectingPolygons orient b₂ first.polygons)
      (qs := toIntersectingPolygons orient b₁ second.polygons) (fun s hs => e₁ s ((edges_filter _).subset hs))
      (fun s hs => e₂ s ((edges_filter _).subset hs)) (edges_ne n₁ w₁) with ⟨e, ov⟩ | ⟨h, number, events, e, P⟩
    · rw [e]; exact Or.inl ⟨rfl, fun n => ov ⟨n.1.sublist (edges_filter _), n.2.sublist (edges_filter _)⟩⟩
    · rw [e]
      dsimp only
      rcases (P.sort S).polygons S number with e | ⟨ps, e, hq⟩
      · rw [e]; exact Or.inr (Or.inl rfl)
      · rw [e]
        obtain ⟨-, q1, q2, q3⟩ := unpackMix_parts (unpackPoints_discrete (touchPoints h (groupRuns h.evStart (S.sort h events)))).1
          (unpackSegments_linear (commonEdges h (S.sort h events))).1 (unpackPolygons_polygonal ps).1
        refine Or.inr (Or.inr ⟨_, rfl, ?_, ?_, ?_⟩)
        · intro v hv
          exact (corners_of hq (q3.trans (unpackPolygons_polygonal ps).2.1) v hv).mono_mem
            (List.Sublist.append (edges_filter _) (edges_filter _)).subset
        · intro p hp
          rw [q1, (unpackPoints_discrete _).2.1] at hp
          obtain ⟨⟨t, ht, h1⟩, u, hu, h2⟩ := (P.sort S).touch p hp
          exact ⟨⟨t, (edges_filter _).subset ht, h1⟩, u, (edges_filter _).subset hu, h2⟩
        · intro c hc
          rw [q2, (unpackSegments_linear _).2.1] at hc
          obtain ⟨t, ht, h1⟩ := (P.sort S).common c hc
          exact ⟨t, (edges_filter _).subset ht, h1⟩

end holey

section holeless

variable {first second : List Contour}

theorem regions_corner {cs : List Contour} {c : Contour} (hc : c ∈ cs) {v : Point} (hv : v ∈ c.vertices) :
    ∃ s ∈ regionsEdges cs, s.IsEnd v := by
  obtain ⟨s, hs, he⟩ := contourEdges_corner (cw := false) hv
  exact ⟨s, List.mem_flatMap.2 ⟨c, hc, hs⟩, he⟩

theorem regionsMaxX_any {cs : List Contour} (h : cs ≠ []) (hv : ∀ c ∈ cs, c.vertices ≠ []) : ∃ m, regionsMaxX cs = .ok m := by
  unfold regionsMaxX
  cases cs with
  | nil => exact absurd rfl h
  | cons p l =>
    cases hp : p.vertices with
    | nil => exact absurd hp (hv p (by simp))
    | cons v w => rw [List.flatMap_cons, hp]; exact ⟨_, rfl⟩

theorem contoursBox_any {cs : List Contour} (h : cs ≠ []) : ∃ m, contoursBox cs = .ok m := by
  cases cs with
  | nil => exact absurd rfl h
  | cons p l => exact ⟨_, rfl⟩

theorem regions_filter {cs : List Contour} (f : Contour → Bool) : (regionsEdges (cs.filter f)).Sublist (regionsEdges cs) :=
  List.Sublist.flatMap List.filter_sublist _

theorem treeHolelessSweep_good (B : Balancing) (tb : TieBreak) {ps qs : List Contour} (n₁ : ps ≠ []) (n₂ : qs ≠ [])
    (w₁ : ∀ c ∈ ps, c.vertices ≠ []) (w₂ : ∀ c ∈ qs, c.vertices ≠ [])
    (pa : ∀ s ∈ regionsEdges ps, s.Proper) (pb : ∀ s ∈ regionsEdges qs, s.Proper) :
    (treeHolelessSweep B tb ps qs = .error .sameOperandOverlap ∧ ¬ (NoOverlap (regionsEdges ps) ∧ NoOverlap (regionsEdges qs))) ∨
      ∃ h events, treeHolelessSweep B tb ps qs = .ok (h, events) ∧ Processed (regionsEdges ps) (regionsEdges qs) h events := by
  obtain ⟨m, hm⟩ := regionsMaxX_any n₁ w₁
  obtain ⟨m', hm'⟩ := regionsMaxX_any n₂ w₂
  unfold treeHolelessSweep
  rw [hm, hm']
  simp only [bind, Except.bind]
  rcases treeShapedSweep_good (O := holelessOps intersectionRule) B tb (stopAt (some (min m m'))) pa pb with h | ⟨s, log, h, P⟩
  · rw [h]; exact Or.inl ⟨rfl, treeShapedSweep_raises h⟩
  · rw [h]; exact Or.inr ⟨_, _, rfl, P⟩

theorem region_corners {cs : List Contour} {Q : Point → Prop} (hq : ∀ c ∈ cs, ∀ v ∈ c.vertices, Q v) :
    ∀ p ∈ regionPolygons cs, ∀ c ∈ p.border :: p.holes, ∀ v ∈ c.vertices, Q v := by
  intro p hp c hc
  unfold regionPolygons at hp
  obtain ⟨d, hd, rfl⟩ := List.mem_map.1 hp
  rw [List.mem_singleton.1 hc]
  exact hq d hd

variable (B : Balancing) (S : EventSort) (tb : TieBreak)
  (h₁ : first ≠ []) (v₁ : ∀ c ∈ first, c.vertices ≠ []) (e₁ : ∀ s ∈ regionsEdges first, s.Proper)
  (h₂ : second ≠ []) (v₂ : ∀ c ∈ second, c.vertices ≠ []) (e₂ : ∀ s ∈ regionsEdges second, s.Proper)

include h₁ v₁ e₁ h₂ v₂ e₂

/-- **C77** The intersection of any regions. -/
theorem intersect_any_regions :
    ShapedEnds (regionsEdges first) (regionsEdges second) (treeHolelessIntersection orient B S tb first second) fun g =>
      ∀ v ∈ g.corners, Vertex (regionsEdges first ++ regionsEdges second) v := by
  obtain ⟨b₁, hb₁⟩ := contoursBox_any h₁
  obtain ⟨b₂, hb₂⟩ := contoursBox_any h₂
  unfold treeHolelessIntersection
  rw [hb₁, hb₂]
  simp only [bind, Except.bind, pure, Except.pure]
  have emp : ShapedEnds (regionsEdges first) (regionsEdges second) (.ok .empty) fun g => ∀ v ∈ g.corners, Vertex (regionsEdges first ++ regionsEdges second) v :=
    Or.inr (Or.inr ⟨_, rfl, by intro v hv; cases hv⟩)
  split_ifs with k1 k2 k3
  · exact emp
  · exact emp
  · exact emp
  · rcases treeHolelessSweep_good B tb (ps := toCoupledRegions orient b₂ first) (qs := toCoupledRegions orient b₁ second) (by simpa using k2)
      (by simpa using k3) (fun c hc => v₁ c (List.filter_sublist.subset hc)) (fun c hc => v₂ c (List.filter_sublist.subset hc))
      (fun s hs => e₁ s ((regions_filter _).subset hs)) (fun s hs => e₂ s ((regions_filter _).subset hs)) with ⟨e, ov⟩ | ⟨h, events, e, P⟩
    · rw [e]; exact Or.inl ⟨rfl, fun n => ov ⟨n.1.sublist (regions_filter _), n.2.sublist (regions_filter _)⟩⟩
    · rw [e]
      dsimp only
      rcases P.regions S with e | ⟨cs, e, hq⟩
      · rw [e]; exact Or.inr (Or.inl rfl)
      · rw [e]
        refine Or.inr (Or.inr ⟨_, rfl, ?_⟩)
        intro v hv
        rw [unpackRegions_eq] at hv
        exact (corners_of (region_corners hq) (unpackPolygons_polygonal _).2.1 v hv).mono_mem
          (List.Sublist.append (regions_filter _) (regions_filter _)).subset

/-- **C77** The complete intersection of any regions. -/
theorem complete_intersect_any_regions :
    ShapedEnds (regionsEdges first) (regionsEdges second) (treeHolelessCompleteIntersection orient B S tb first second) fun g =>
      (∀ v ∈ g.corners, Vertex (regionsEdges first ++ regionsEdges second) v) ∧
        (∀ p ∈ g.discretePoints, p ∈ segsPts (regionsEdges first) ∩ segsPts (regionsEdges second)) ∧
        ∀ c ∈ g.linearSegments, PartOf c (regionsEdges first) := by
  obtain ⟨b₁, hb₁⟩ := contoursBox_any h₁
  obtain ⟨b₂, hb₂⟩ := contoursBox_any h₂
  unfold treeHolelessCompleteIntersection
  rw [hb₁, hb₂]
  simp only [bind, Except.bind, pure, Except.pure]
  have emp : ShapedEnds (regionsEdges first) (regionsEdges second) (.ok .empty) fun g =>
      (∀ v ∈ g.corners, Vertex (regionsEdges first ++ regionsEdges second) v) ∧
        (∀ p ∈ g.discretePoints, p ∈ segsPts (regionsEdges first) ∩ segsPts (regionsEdges second)) ∧
        ∀ c ∈ g.linearSegments, PartOf c (regionsEdges first) :=
    Or.inr (Or.inr ⟨_, rfl, (by intro v hv; cases hv), (by intro v hv; cases hv), (by intro v hv; cases hv)⟩)
  split_ifs with k1 k2 k3
  · exact emp
  · exact emp
  · exact emp
  · rcases treeHolelessSweep_good B tb (ps := toIntersectingRegions orient b₂ first) (qs := toIntersectingRegions orient b₁ second)
      (by simpa using k2) (by simpa using k3) (fun c hc => v₁ c (List.filter_sublist.subset hc))
      (fun c hc => v₂ c (List.filter_sublist.subset hc))
      (fun s hs => e₁ s ((regions_filter _).subset hs)) (fun s hs => e₂ s ((regions_filter _).subset hs)) with ⟨e, ov⟩ | ⟨h, events, e, P⟩
    · rw [e]; exact Or.inl ⟨rfl, fun n => ov ⟨n.1.sublist (regions_filter _), n.2.sublist (regions_filter _)⟩⟩
    · rw [e]
      dsimp only
      rcases (P.sort S).regions S with e | ⟨cs, e, hq⟩
      · rw [e]; exact Or.inr (Or.inl rfl)
      · rw [e]
        dsimp only
        rw [unpackRegions_eq]
        obtain ⟨-, q1, q2, q3⟩ := unpackMix_parts (unpackPoints_discrete (touchPoints h (groupRuns h.evStart (S.sort h events)))).1
          (unpackSegments_linear (commonEdges h (S.sort h events))).1 (unpackPolygons_polygonal (regionPolygons cs)).1
        refine Or.inr (Or.inr ⟨_, rfl, ?_, ?_, ?_⟩)
        · intro v hv
          exact (corners_of (region_corners hq) (q3.trans (unpackPolygons_polygonal _).2.1) v hv).mono_mem
            (List.Sublist.append (regions_filter _) (regions_filter _)).subset
        · intro p hp
          rw [q1, (unpackPoints_discrete _).2.1] at hp
          obtain ⟨⟨t, ht, h1⟩, u, hu, h2⟩ := (P.sort S).touch p hp
          exact ⟨⟨t, (regions_filter _).subset ht, h1⟩, u, (regions_filter _).subset hu, h2⟩
        · intro c hc
          rw [q2, (unpackSegments_linear _).2.1] at hc
          obtain ⟨t, ht, h1⟩ := (P.sort S).common c hc
          exact ⟨t, (regions_filter _).subset ht, h1⟩

end holeless

/-- A rectangle over `exCrossed`. -/
def exBar : Polygon := ⟨⟨[⟨1, 1⟩, ⟨6, 1⟩, ⟨6, 3⟩, ⟨1, 3⟩]⟩, []⟩

/-- The hypotheses are met by polygons which are not valid, and then the result may contain contours with two vertices. -/
example : exCrossed ≠ [] ∧ (∀ p ∈ exCrossed, p.border.vertices ≠ []) ∧ (∀ s ∈ (multipolygonOperand exCrossed).edges, s.Proper) ∧
    (∀ s ∈ (polygonOperand exBar).edges, s.Proper) ∧
    (multipolygonOperand exCrossed).value.shapedPolygons = (multipolygonOperand exCrossed).polygons ∧
    treeHoleyUnion redBlack insertionEventSort .id (multipolygonOperand exCrossed) (polygonOperand exBar) =
      .ok (.multipolygon [
        ⟨⟨[⟨0, 0⟩, ⟨1, 1⟩, ⟨2, 1⟩, ⟨1, 0⟩, ⟨5, 0⟩, ⟨5, 1⟩, ⟨6, 1⟩, ⟨6, 3⟩, ⟨5, 3⟩, ⟨5, 4⟩, ⟨4, 3⟩, ⟨1, 3⟩, ⟨0, 4⟩]⟩,
          [⟨[⟨3, 1⟩, ⟨4, 1⟩, ⟨4, 0⟩]⟩]⟩,
        ⟨⟨[⟨3, 3⟩, ⟨4, 4⟩]⟩, []⟩, ⟨⟨[⟨4, 3⟩, ⟨4, 4⟩]⟩, []⟩]) := by
  refine ⟨by decide, by decide, by decide +kernel, by decide +kernel, by decide +kernel, by decide +kernel⟩

/-- Edges of one operand which overlap are found. -/
example : treeHoleyUnion redBlack insertionEventSort .id
    (multipolygonOperand [⟨⟨[⟨0, 0⟩, ⟨4, 0⟩, ⟨0, 4⟩]⟩, []⟩, ⟨⟨[⟨0, 0⟩, ⟨2, 0⟩, ⟨0, 2⟩]⟩, []⟩])
    (polygonOperand ⟨⟨[⟨1, 1⟩, ⟨5, 1⟩, ⟨1, 5⟩]⟩, []⟩) = .error .sameOperandOverlap := by
  decide +kernel

/-- **C77** The other error is an `IndexError`, of the complete intersection of a contour which crosses itself. -/
theorem complete_intersect_any_raises :
    ¬ ∀ first second : List Contour, (∀ c ∈ first ++ second, c.vertices ≠ []) → (∀ s ∈ regionsEdges (first ++ second), s.Proper) →
      first ≠ [] → second ≠ [] →
      treeHolelessCompleteIntersection noOrient redBlack insertionEventSort .id first second ≠ .error .assertion := by
  intro h
  exact h [⟨[⟨2, 1⟩, ⟨1, 2⟩, ⟨0, 1⟩, ⟨0, 3⟩]⟩, ⟨[⟨0, 1⟩, ⟨1, 0⟩, ⟨1, 2⟩]⟩] [⟨[⟨3, 3⟩, ⟨1, 2⟩, ⟨3, 2⟩]⟩] (by decide) (by decide +kernel)
    (by decide) (by decide) (by decide +kernel)

end Clipping

import Verif.Lemmas.Region.Local
import Verif.Lemmas.Region.Square

/-!
# C31: edges are directed with the interior on the left
-/

namespace Clipping

/-- `contour_to_oriented_edges_endpoints` gives the edges of the contour, all in the order of the vertices or all in
the opposite one, the interior of the contour is on the left of the edges, and on the right of those for holes. -/
theorem contourEdges_oriented (c : Contour) (h : SimpleContour c) :
    ((contourEdges c false).Perm c.edges ∨ (contourEdges c false).Perm (c.edges.map fun e => ⟨e.stop, e.start⟩)) ∧
    (contourEdges c true).Perm ((contourEdges c false).map fun e => ⟨e.stop, e.start⟩) ∧
    ∀ e ∈ contourEdges c false, InteriorOnLeft c.edges e := by
  refine ⟨?_, h.clockwise, ?_⟩
  · rcases contourEdges_swap c false with e | e
    · rw [e]; exact Or.inl h.segments_perm
    · exact Or.inr (e.trans (h.segments_perm.map _))
  · intro e he
    exact h.isBoundary.interiorOnLeft (h.sameEdges false) he

/-- `to_contour_orientation`, which looks at the least vertex only, tells on which side of all edges the interior
is. -/
theorem contourOrientation_spec (c : Contour) (h : SimpleContour c) :
    (contourOrientation c = .counterclockwise ↔ ∀ e ∈ c.edges, InteriorOnLeft c.edges e) ∧
    (contourOrientation c = .clockwise ↔ ∀ e ∈ c.edges, InteriorOnLeft c.edges ⟨e.stop, e.start⟩) := by
  have ccw : contourOrientation c = .counterclockwise → ∀ e ∈ c.edges, InteriorOnLeft c.edges e := by
    intro ho e he
    refine h.isBoundary.interiorOnLeft (h.sameEdges false) ?_
    have : contourEdges c false = contourSegments c := by
      unfold contourEdges; simp only [Bool.false_eq_true, if_false, if_pos ho]; rfl
    rw [this]
    exact h.segments_perm.mem_iff.2 he
  have cw : contourOrientation c = .clockwise → ∀ e ∈ c.edges, InteriorOnLeft c.edges ⟨e.stop, e.start⟩ := by
    intro ho e he
    refine h.isBoundary.interiorOnLeft (h.sameEdges false) ?_
    have : contourEdges c true = contourSegments c := by
      unfold contourEdges; simp only [if_true, if_pos ho]; rfl
    have h1 : e ∈ contourEdges c true := by rw [this]; exact h.segments_perm.mem_iff.2 he
    obtain ⟨f, hf, rfl⟩ := List.mem_map.1 (h.clockwise.mem_iff.1 h1)
    exact hf
  have excl : ¬ ((∀ e ∈ c.edges, InteriorOnLeft c.edges e) ∧
      ∀ e ∈ c.edges, InteriorOnLeft c.edges ⟨e.stop, e.start⟩) := by
    rintro ⟨g1, g2⟩
    obtain ⟨m, hm, hi⟩ := h.cyc.inner 0
    set e : Segment := ⟨vtx c 0, vtx c (0 + 1)⟩ with hedef
    have he : e ∈ c.edges := by
      rw [contour_edges_eq]
      exact mem_cycEdges.2 ⟨0, by have := h.three; omega, rfl⟩
    have hu : ∀ e' ∈ c.edges, m ∈ e'.pts → e'.pts = e.pts := by
      intro e' he' hm'
      rw [contour_edges_eq] at he'
      obtain ⟨i, hi', rfl⟩ := mem_cycEdges.1 he'
      by_cases h0 : i = 0
      · rw [h0]
      · exfalso
        refine hi (h.cyc.ends 0 (0 + i) ?_ m hm hm').1
        exact not_modEq_add (by omega) hi'
    have hsw : (Segment.mk e.stop e.start).pts = e.pts := e.swap_pts
    obtain ⟨d1, p1, k1⟩ := g1 e he m hm hi hu
    obtain ⟨d2, p2, k2⟩ := g2 e he m (by rw [hsw]; exact hm) (fun g => hi g.symm)
      fun e' he' hm' => by rw [hsw]; exact hu e' he' hm'
    obtain ⟨q, hq, hc⟩ := exists_left_near (e := e) (h.cyc.proper 0) hm (lt_min p1 p2)
    refine ((k2 q (hq.mono (min_le_right _ _))).2 ?_).1 ((k1 q (hq.mono (min_le_left _ _))).1 hc).1
    simp only
    rw [cross_swap]
    linarith
  have nc := h.orientation_spec.1
  refine ⟨⟨ccw, fun g => ?_⟩, ⟨cw, fun g => ?_⟩⟩
  · cases ho : contourOrientation c with
    | collinear => exact absurd ho nc
    | clockwise => exact absurd ⟨g, cw ho⟩ excl
    | counterclockwise => rfl
  · cases ho : contourOrientation c with
    | collinear => exact absurd ho nc
    | clockwise => rfl
    | counterclockwise => exact absurd ⟨ccw ho, g⟩ excl

/-- `polygon_to_oriented_edges_endpoints` gives the edges of the border and of the holes, up to directions, and has the
interior of the polygon on their left. -/
theorem polygonEdges_oriented (p : Polygon) (h : ValidPolygon p) :
    ((polygonEdges p).map Segment.norm).Perm (p.edges.map Segment.norm) ∧
    ∀ e ∈ polygonEdges p, InteriorOnLeft p.edges e :=
  ⟨h.sameEdges, fun _ he => h.isBoundary.interiorOnLeft h.sameEdges he⟩

/-- The same for the edges of all polygons of a multipolygon. -/
theorem multipolygonEdges_oriented (ps : List Polygon) (h : ValidPolygons ps) :
    ((ps.flatMap polygonEdges).map Segment.norm).Perm ((ps.flatMap Polygon.edges).map Segment.norm) ∧
    ∀ e ∈ ps.flatMap polygonEdges, InteriorOnLeft (ps.flatMap Polygon.edges) e :=
  ⟨SameEdges.flatMap _ _ _ fun p hp => (h.valid p hp).sameEdges, fun _ he =>
    h.isBoundary.interiorOnLeft (SameEdges.flatMap _ _ _ fun p hp => (h.valid p hp).sameEdges) he⟩

/-! ## Witness: a square with a square hole, and two of them side by side -/

example : SimpleContour (squareContour 0 0 4) ∧ contourOrientation (squareContour 0 0 4) = .counterclockwise :=
  ⟨squareContour_simple (by norm_num), by decide +kernel⟩

example : ValidPolygon (frame 0 0 4 1 2) ∧ (polygonEdges (frame 0 0 4 1 2)).length = 8 :=
  ⟨frame_valid (by norm_num) (by norm_num) (by norm_num), by decide +kernel⟩

example : ValidPolygons [frame 0 0 4 1 2, frame 6 0 4 1 2] := by
  refine frames_valid ?_ ?_ ?_ ?_ <;> norm_num

end Clipping

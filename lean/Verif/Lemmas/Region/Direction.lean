import Verif.Lemmas.Region.Shrink
import Verif.Properties.Oriented
import Verif.Lemmas.Plane.Start
import Verif.Model.Holey

/-!
# The direction of contours
-/

namespace Clipping

theorem SimpleContour.orientation_edge {c : Contour} (h : SimpleContour c) {e : Segment} (he : e ∈ c.edges) {m : Point}
    (hm : m ∈ e.pts) (hi : ¬ e.IsEnd m) :
    (e.start < e.stop ↔ ¬ Inside c.edges m) ↔ contourOrientation c = .counterclockwise := by
  rw [contour_edges_eq] at he
  obtain ⟨k, -, rfl⟩ := mem_cycEdges.1 he
  rw [Nat.zero_add] at hm hi
  have := h.orientation_spec.2 k m hm hi
  unfold LeftAt at this
  rw [← contour_edges_eq] at this
  simp only [Nat.zero_add]
  exact this

/-- dropped vertices -/
theorem SimpleContour.drop_ccw {vs ws : List Point} (h : SimpleContour ⟨vs⟩) (hd : DropsVertex vs ws)
    (hc : contourOrientation ⟨vs⟩ = .counterclockwise) : contourOrientation ⟨ws⟩ = .counterclockwise := by
  obtain ⟨h', co⟩ := h.drop hd
  obtain ⟨a, b, c, rest, r1, r2, hcr⟩ := hd
  have hr := h.rotated r1
  obtain ⟨hb, -⟩ := hr.middle hcr
  have nd := hr.nodup
  simp only [List.nodup_cons, List.mem_cons, not_or] at nd
  have hab : a ≠ b := nd.1.1
  have hac : a ≠ c := nd.1.2.1
  have e1 : (Segment.mk a b) ∈ (Contour.mk vs).edges := by
    refine (edges_rotated r1).mem_iff.2 ?_
    rw [(edges_three a b c rest).1]; simp
  have e2 : (Segment.mk a c) ∈ (Contour.mk ws).edges := by
    refine (edges_rotated r2).mem_iff.2 ?_
    rw [(edges_three a b c rest).2]; simp
  obtain ⟨m, hm, hi⟩ := exists_inner (e := Segment.mk a b) hab
  have hm' : m ∈ (Segment.mk a c).pts := mk_sub (Segment.start_mem _) hb hm
  have dir : a < b ↔ a < c := by
    have h1 := Segment.lo_le_of_mem hb
    have h2 := Segment.le_hi_of_mem hb
    rcases lt_or_gt_of_ne hac with h3 | h3
    · have : (Segment.mk a c).lo = a := min_eq_left h3.le
      rw [this] at h1
      exact iff_of_true (lt_of_le_of_ne h1 hab) h3
    · have : (Segment.mk a c).hi = a := max_eq_left h3.le
      rw [this] at h2
      exact iff_of_false (not_lt.2 h2) (lt_asymm h3)
  have hi' : ¬ (Segment.mk a c).IsEnd m := by
    rintro (rfl | rfl)
    · exact hi (Or.inl rfl)
    · refine nd.2.1.1 ?_
      have h1 := Segment.lo_le_of_mem hb
      have h2 := Segment.le_hi_of_mem hb
      have h3 := Segment.lo_le_of_mem hm
      have h4 := Segment.le_hi_of_mem hm
      rcases lt_or_gt_of_ne hac with h5 | h5
      · have e3 : (Segment.mk a m).hi = m := max_eq_right h5.le
        have e4 : (Segment.mk a b).hi = b := max_eq_right (dir.2 h5).le
        rw [e3] at h2
        rw [e4] at h4
        exact le_antisymm h2 h4
      · have h6 : b < a := lt_of_le_of_ne (not_lt.1 fun h => lt_asymm h5 (dir.1 h)) (Ne.symm hab)
        have e3 : (Segment.mk a m).lo = m := min_eq_right h5.le
        have e4 : (Segment.mk a b).lo = b := min_eq_right h6.le
        rw [e3] at h1
        rw [e4] at h3
        exact le_antisymm h3 h1
  have o1 := (h.orientation_edge e1 hm hi).2 hc
  refine (h'.orientation_edge e2 hm' hi').1 ?_
  rw [co.inside_iff, ← o1]
  exact dir.symm

theorem SimpleContour.drops_ccw {vs ws : List Point} (h : SimpleContour ⟨vs⟩) (hd : DropsVertices vs ws)
    (hc : contourOrientation ⟨vs⟩ = .counterclockwise) : contourOrientation ⟨ws⟩ = .counterclockwise := by
  induction hd with
  | refl => exact hc
  | step h1 _ ih => exact ih (h.drop h1).1 (h.drop_ccw h1 hc)

/-! ## Reversed contours -/

theorem pathEdges_reverse (l : List Point) : pathEdges l.reverse = ((pathEdges l).map Segment.swap).reverse := by
  unfold pathEdges
  apply List.ext_getElem
  · simp
  · intro i h1 h2
    simp only [List.length_zipWith, List.length_reverse, List.length_tail] at h1
    simp only [List.getElem_zipWith, List.getElem_reverse, List.getElem_tail, List.getElem_map, List.length_zipWith,
      List.length_tail, List.length_map, Segment.swap]
    congr 2 <;> omega

theorem edges_closed (v : Point) (vs : List Point) : (Contour.mk (v :: vs)).edges = pathEdges (v :: vs ++ [v]) := by
  unfold Contour.edges pathEdges
  simp only [List.cons_append, List.tail_cons]
  apply List.ext_getElem
  · simp
  · intro i h1 h2
    simp only [List.length_zipWith, List.length_cons, List.length_append] at h1
    rw [List.getElem_zipWith, List.getElem_zipWith, ← List.getElem_append_left (bs := [v])]
    rfl

theorem edges_reverse (vs : List Point) :
    (Contour.mk (reverseVertices vs)).edges = (((Contour.mk vs).edges).map Segment.swap).reverse := by
  cases vs with
  | nil => rfl
  | cons v vs =>
    have : reverseVertices (v :: vs) = v :: vs.reverse := rfl
    rw [this, edges_closed, edges_closed, ← pathEdges_reverse]
    simp

theorem edges_reverse_perm (vs : List Point) :
    (Contour.mk (reverseVertices vs)).edges.Perm ((Contour.mk vs).edges.map Segment.swap) := by
  rw [edges_reverse]; exact List.reverse_perm _

theorem SimpleContour.reversed {vs : List Point} (h : SimpleContour ⟨vs⟩) : SimpleContour ⟨reverseVertices vs⟩ where
  three := by
    have := h.three
    simp only [reverseVertices, List.length_append, List.length_take, List.length_reverse, List.length_drop] at this ⊢
    omega
  nodup := by
    have hp : (reverseVertices vs).Perm vs := by
      unfold reverseVertices
      exact ((List.Perm.refl _).append (List.reverse_perm _)).trans (by rw [List.take_append_drop])
    exact hp.nodup_iff.2 h.nodup
  ends := by
    refine EndsOnly.perm (edges_reverse_perm vs).symm ?_
    unfold EndsOnly
    rw [List.pairwise_map]
    refine List.Pairwise.imp ?_ h.ends
    intro s t hst q h1 h2
    rw [Segment.swap_pts] at h1 h2
    rw [Segment.isEnd_swap, Segment.isEnd_swap]
    exact hst q h1 h2

theorem SimpleContour.reversed_cw {vs : List Point} (h : SimpleContour ⟨vs⟩)
    (hc : contourOrientation ⟨vs⟩ = .counterclockwise) : contourOrientation ⟨reverseVertices vs⟩ = .clockwise := by
  have hr := h.reversed
  rw [(contourOrientation_spec _ hr).2]
  have h1 := (contourOrientation_spec _ h).1.1 hc
  intro e he
  have hp := edges_reverse_perm vs
  obtain ⟨f, hf, rfl⟩ := List.mem_map.1 (hp.mem_iff.1 he)
  have h2 := h1 f hf
  intro m hm hi hu
  have same : SameEdges (Contour.mk (reverseVertices vs)).edges (Contour.mk vs).edges :=
    (SameEdges.of_perm hp).trans (SameEdges.of_swap _)
  obtain ⟨δ, δ0, hδ⟩ := h2 m hm hi (by
    intro e' he' hm'
    have := hu e'.swap (hp.mem_iff.2 (List.mem_map_of_mem he')) (by rw [Segment.swap_pts]; exact hm')
    rw [Segment.swap_pts] at this
    exact this)
  refine ⟨δ, δ0, fun q hq => ?_⟩
  rw [same.inside_iff, same.segsPts_eq]
  exact hδ q hq

/-! ## Traced contours -/

namespace Darts

variable {D : Darts} {F : Finset ℕ} {d : ℕ} {R : List ℕ}

theorem Traced.ccw (T : D.Traced F d R) (h : D.First F d) : contourOrientation (Loop.contour D R) = .counterclockwise := by
  have hs := T.loop.simple
  have he := T.loop.edges
  cases ho : contourOrientation (Loop.contour D R) with
  | collinear => exact absurd ho hs.orientation_spec.1
  | counterclockwise => rfl
  | clockwise =>
    exfalso
    have cw := (contourOrientation_spec _ hs).2.1 ho
    rw [he] at cw
    have hd := T.start
    have pr := D.proper h.lt
    obtain ⟨m, hm, hi⟩ := exists_inner pr
    have hu : ∀ e' ∈ R.map D.seg, m ∈ e'.pts → e'.pts = (D.seg d).pts := by
      intro e' he' hm'
      obtain ⟨j, hj, rfl⟩ := List.mem_map.1 he'
      by_cases hjd : j = d
      · rw [hjd]
      · exfalso
        exact hi (seg_ends h.lt (T.loop.lt j hj) (Ne.symm hjd) (fun e => T.loop.opp d hd (e ▸ hj)) hm hm').1
    obtain ⟨δ₁, δ₁0, hδ₁⟩ := cw (D.seg d) (List.mem_map_of_mem hd) m (by
        have : (Segment.mk (D.seg d).stop (D.seg d).start).pts = (D.seg d).pts := (D.seg d).swap_pts
        rw [this]; exact hm) (fun hh => hi hh.symm) (by
        intro e' he' hm'
        have : (Segment.mk (D.seg d).stop (D.seg d).start).pts = (D.seg d).pts := (D.seg d).swap_pts
        rw [this]; exact hu e' he' hm')
    obtain ⟨δ₂, δ₂0, hδ₂⟩ := (h.closed.alone h.lt).near_side h.closed.proper hm hi
    obtain ⟨q, hq, hc⟩ := exists_left_near (e := D.seg d) pr hm (lt_min δ₁0 δ₂0)
    have l : D.LeftOf F d q := hδ₂ q 1 (hq.mono (min_le_right _ _)) (by linarith)
    refine ((hδ₁ q (hq.mono (min_le_left _ _))).2 ?_).1 (T.left_inside h hd l)
    simp only
    rw [cross_swap]
    linarith

end Darts

end Clipping

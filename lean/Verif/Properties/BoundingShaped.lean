import Verif.Lemmas.Coupled
import Verif.Lemmas.Region.Square

/-!
# C36: boxes against regions and polygons

What operations drop before the sweep, and that the region of a simple contour is the bounded side of it.
-/

namespace Clipping

/-- The assumption about the library `orient` can be met. -/
theorem exists_orient : ∃ o, OrientOk o := by
  classical
  refine ⟨⟨fun p c => if p ∈ segsPts c.edges then .boundary else if Inside c.edges p then .interior else .exterior,
    fun s c => if ¬ s.pts ⊆ segsPts c.edges ∧ (s.pts ∩ segsPts c.edges).Infinite then .overlap else .disjoint,
    fun s c => if s.pts ⊆ segsPts c.edges then .component
      else if s.pts ⊆ regionPts c.edges then
        if ∃ p ∈ s.pts, p ∈ segsPts c.edges then .enclosed else .within
      else if ∃ p ∈ s.pts, p ∉ segsPts c.edges ∧ Inside c.edges p then .cross else .disjoint⟩, ?_⟩
  constructor
  · intro c p _
    dsimp only
    split_ifs <;> simp_all
  · intro c p _
    dsimp only
    split_ifs <;> simp_all
  · intro c s _ _
    dsimp only
    split_ifs <;> simp_all
  · intro c s _ _
    have hs := s.start_mem
    dsimp only
    split_ifs with h1 h2 h3 h4
    · simp only [false_iff]
      rintro ⟨-, h⟩; exact h _ hs (h1 hs)
    · simp only [false_iff]
      rintro ⟨-, h⟩; obtain ⟨p, hp, hq⟩ := h3; exact h p hp hq
    · simp only [true_iff]
      push Not at h3; exact ⟨h2, h3⟩
    · simp [h2]
    · simp [h2]
  · intro c s _ _
    dsimp only
    split_ifs with h1 h2 h3 h4
    · simp [h1]
    · simp [h1, h2, h3]
    · simp only [false_iff]; rintro ⟨-, -, h⟩; exact h3 h
    · simp [h2]
    · simp [h2]
  · intro c s _ _
    dsimp only
    split_ifs with h1 h2 h3 h4
    · simp only [false_iff]
      rintro ⟨⟨p, hp, hn, -⟩, -⟩; exact hn (h1 hp)
    · simp only [false_iff]
      rintro ⟨-, p, hp, hn⟩; exact hn (h2 hp)
    · simp only [false_iff]
      rintro ⟨-, p, hp, hn⟩; exact hn (h2 hp)
    · simp only [true_iff]
      rw [Set.not_subset] at h2
      exact ⟨h4, h2⟩
    · simp only [false_iff]
      rintro ⟨h, -⟩; exact h4 h
  · intro c s _ _
    dsimp only
    split_ifs <;> simp_all

variable {o : Orient} (ok : OrientOk o)
include ok

/-- **C36** `intersects_with_region` and `intersects_with_polygon` hold exactly when the box has a common point with the
region, the polygon. -/
theorem intersectsWith_iff_common (b : Box) (hb : b.Nonempty) :
    (∀ c, SimpleContour c → (intersectsWithRegion o b c = true ↔ ∃ q ∈ b.pts, q ∈ regionPts c.edges)) ∧
    (∀ p, ValidPolygon p → (intersectsWithPolygon o b p = true ↔ ∃ q ∈ b.pts, q ∈ p.pts)) :=
  ⟨fun _ h => intersectsWithRegion_spec ok h hb, fun _ h => intersectsWithPolygon_spec ok h hb⟩

/-- **C36** what `coupled_with_region` drops has at most finitely many common points with the box. -/
theorem coupledWithRegion_finite (b : Box) (hb : b.Nonempty) (c : Contour) (h : SimpleContour c)
    (hf : coupledWithRegion o b c = false) : (b.pts ∩ regionPts c.edges).Finite := coupledWithRegion_false ok h hb hf

/-- **C36, proved part**: what `coupled_with_polygon` drops has at most finitely many common points with the box, apart
from points on the holes.  Without the exception this is false: `coupledWithPolygon_incomplete`. -/
theorem coupledWithPolygon_finite_partial (b : Box) (hb : b.Nonempty) (p : Polygon) (h : ValidPolygon p)
    (hf : coupledWithPolygon o b p = false) :
    {q ∈ b.pts | q ∈ p.pts ∧ ∀ c ∈ p.holes, q ∉ segsPts c.edges}.Finite := coupledWithPolygon_false ok h hb hf

/-- A box equal to the square hole is taken to be uncoupled. -/
theorem coupledWithPolygon_hole : coupledWithPolygon o ⟨1, 3, 1, 3⟩ (frame 0 0 4 1 2) = false := by
  have s1 : SimpleContour (squareContour 0 0 4) := squareContour_simple (by norm_num)
  have s2 : SimpleContour (squareContour (0 + 1) (0 + 1) 2) := squareContour_simple (by norm_num)
  have hv : ∀ v ∈ toVertices ⟨1, 3, 1, 3⟩, o.pointInRegion v (squareContour 0 0 4) = .interior := by
    intro v hv
    rw [ok.interior _ _ s1, square_segsPts (by norm_num), square_inside (by norm_num)]
    simp only [toVertices, List.mem_cons, List.not_mem_nil, or_false] at hv
    rcases hv with rfl | rfl | rfl | rfl <;> norm_num
  have he : ∀ e ∈ toEdges ⟨1, 3, 1, 3⟩, o.segmentInRegion e (squareContour (0 + 1) (0 + 1) 2) = .component := by
    intro e he
    have hp : e.Proper := by
      simp only [toEdges, List.mem_cons, List.not_mem_nil, or_false] at he
      rcases he with rfl | rfl | rfl | rfl <;> simp [Segment.Proper]
    rw [ok.component _ _ s2 hp]
    intro q hq
    rw [square_segsPts (by norm_num)]
    simp only [toEdges, List.mem_cons, List.not_mem_nil, or_false] at he
    have e1 : (1 : ℚ) ≤ 3 := by norm_num
    rcases he with rfl | rfl | rfl | rfl
    all_goals
      obtain ⟨t, t0, t1, tx, ty⟩ := hq
      norm_num at tx ty ⊢
      first
        | (left; exact ⟨by linarith, by linarith, by linarith⟩)
        | (right; left; exact ⟨by linarith, by linarith, by linarith⟩)
        | (right; right; left; exact ⟨by linarith, by linarith, by linarith⟩)
        | (right; right; right; exact ⟨by linarith, by linarith, by linarith⟩)
  have hl : ∀ x ∈ (toVertices ⟨1, 3, 1, 3⟩).map (fun v => o.pointInRegion v (squareContour 0 0 4)), x = .interior := by
    intro x hx
    obtain ⟨v, h, rfl⟩ := List.mem_map.1 hx
    exact hv v h
  have hm : isSubsetOfMultiregion o ⟨1, 3, 1, 3⟩ (frame 0 0 4 1 2).holes = true := by
    unfold isSubsetOfMultiregion isSubsetOfRegion
    rw [List.any_eq_true]
    refine ⟨squareContour (0 + 1) (0 + 1) 2, by simp [frame], ?_⟩
    rw [Bool.and_eq_true]
    refine ⟨by decide +kernel, ?_⟩
    rw [List.all_eq_true]
    intro e h
    rw [he e h]
    rfl
  unfold coupledWithPolygon
  dsimp only
  rw [if_neg (by decide +kernel), if_neg (by decide +kernel)]
  have hany : ((toVertices ⟨1, 3, 1, 3⟩).map (fun v => o.pointInRegion v (frame 0 0 4 1 2).border)).any
      (fun location => decide (location = .interior)) = true := by
    rw [List.any_eq_true]
    refine ⟨.interior, ?_, by decide⟩
    exact List.mem_map.2 ⟨⟨1, 1⟩, by simp [toVertices], hv ⟨1, 1⟩ (by simp [toVertices])⟩
  have hall : ((toVertices ⟨1, 3, 1, 3⟩).map (fun v => o.pointInRegion v (frame 0 0 4 1 2).border)).all
      (fun location => decide (location = .interior)) = true := by
    rw [List.all_eq_true]
    intro x hx
    rw [hl x hx]; decide
  rw [if_pos hany, hall, hm]
  rfl

omit ok in
theorem frame_hole_infinite : ¬ ({q | q ∈ (Segment.mk ⟨1, 1⟩ ⟨3, 1⟩).pts} ∩ (frame 0 0 4 1 2).pts).Finite := by
  intro h
  refine overlapping_of_finite_false (s := ⟨⟨1, 1⟩, ⟨3, 1⟩⟩) (by simp [Segment.Proper]) (h.subset ?_)
  intro p hp
  refine ⟨hp, Or.inl ?_⟩
  show p ∈ segsPts (frame 0 0 4 1 2).edges
  rw [frame_edges, segsPts_append]
  right
  rw [square_segsPts (by norm_num)]
  obtain ⟨t, t0, t1, tx, ty⟩ := hp
  norm_num at tx ty ⊢
  left
  exact ⟨by linarith, by linarith, by linarith⟩

/-- **C36, what is wrong**: `coupled_with_polygon` drops a polygon which has a whole segment in common with the box:
an edge of a hole. -/
theorem coupledWithPolygon_incomplete : ¬ ∀ (b : Box) (p : Polygon), b.Nonempty → ValidPolygon p →
    coupledWithPolygon o b p = false → (b.pts ∩ p.pts).Finite := by
  intro h
  refine frame_hole_infinite ((h ⟨1, 3, 1, 3⟩ (frame 0 0 4 1 2) ⟨by norm_num, by norm_num⟩
    (frame_valid (by norm_num) (by norm_num) (by norm_num)) (coupledWithPolygon_hole ok)).subset ?_)
  rintro p ⟨h1, h2⟩
  refine ⟨?_, h2⟩
  obtain ⟨t, t0, t1, tx, ty⟩ := h1
  norm_num at tx ty
  exact ⟨by linarith, by linarith, by linarith, by linarith⟩

end Clipping

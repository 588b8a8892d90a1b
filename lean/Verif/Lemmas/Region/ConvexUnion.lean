import Verif.Lemmas.Region.ConvexParts

/-!
# Unions of convex regions
-/

namespace Clipping

open Sweep

/-- The union of two regions is closed, and its points are not isolated from its inner points. -/
theorem closureOff_union {A B : List Segment} (nA : NoOverlap A) (dA : ∀ q, Even (degree A q)) (nB : NoOverlap B) (dB : ∀ q, Even (degree B q)) :
    closureOff (A ++ B) (regionPts A ∪ regionPts B) = regionPts A ∪ regionPts B := by
  ext q
  constructor
  · intro h
    by_contra hn
    simp only [Set.mem_union, not_or] at hn
    obtain ⟨δ, δ0, h1⟩ := inside_near nA.1 dA (q := q) fun k => hn.1 (Or.inl k)
    obtain ⟨ε, ε0, h2⟩ := inside_near nB.1 dB (q := q) fun k => hn.2 (Or.inl k)
    obtain ⟨z, hz, z1, z2⟩ := h (min δ ε) (lt_min δ0 ε0)
    have k1 := h1 z ⟨hz.1.trans_le (min_le_left _ _), hz.2.trans_le (min_le_left _ _)⟩
    have k2 := h2 z ⟨hz.1.trans_le (min_le_right _ _), hz.2.trans_le (min_le_right _ _)⟩
    rcases z2 with (k | k) | (k | k)
    · exact k1.1 k
    · exact hn.1 (Or.inr (k1.2.1 k))
    · exact k2.1 k
    · exact hn.2 (Or.inr (k2.2.1 k))
  · rintro (h | h) δ δ0
    · obtain ⟨z, z1, z2, z3, z4⟩ := (mem_region_iff nA dA nB.1).1 h δ δ0
      refine ⟨z, z1, ?_, Or.inl (Or.inr z4)⟩
      rw [segsPts_append]
      exact fun k => k.elim z3 z2
    · obtain ⟨z, z1, z2, z3, z4⟩ := (mem_region_iff nB dB nA.1).1 h δ δ0
      refine ⟨z, z1, ?_, Or.inr (Or.inr z4)⟩
      rw [segsPts_append]
      exact fun k => k.elim z2 z3

/-- From a point inside of a contour, the way straight on meets the contour. -/
theorem SimpleContour.behind {d : Contour} (sc : SimpleContour d) {w m : Point} (w2 : Inside d.edges w) (wm : w.x ≠ m.x) :
    ∃ r ∈ segsPts d.edges, w ∈ (Segment.mk m r).pts := by
  obtain ⟨M, M0, far⟩ := far_bound d.edges
  have aD : 0 < |w.x - m.x| := abs_pos.2 (sub_ne_zero.2 wm)
  obtain ⟨T, T0, TD⟩ : ∃ T : ℚ, 0 < T ∧ T * |w.x - m.x| = M + |w.x| + 1 :=
    ⟨(M + |w.x| + 1) / |w.x - m.x|, div_pos (by linarith [abs_nonneg w.x]) aD, div_mul_cancel₀ _ aD.ne'⟩
  have hfar : M < |w.x + T * (w.x - m.x)| := by
    have k1 : |T * (w.x - m.x)| = M + |w.x| + 1 := by rw [abs_mul, abs_of_pos T0, TD]
    have k2 := abs_sub_abs_le_abs_sub (T * (w.x - m.x)) (-w.x)
    rw [k1, abs_neg, sub_neg_eq_add, add_comm (T * _)] at k2
    linarith
  by_contra hno
  push Not at hno
  have out := (far ⟨w.x + T * (w.x - m.x), w.y + T * (w.y - m.y)⟩ hfar).2
  refine out ((inside_const sc.noOverlap.1 sc.even (s := ⟨w, ⟨w.x + T * (w.x - m.x), w.y + T * (w.y - m.y)⟩⟩) ?_).1 w2)
  rintro r ⟨t, t0, t1, rx, ry⟩ hr
  refine hno r hr ?_
  clear * - T0 t0 rx ry
  simp only at rx ry
  have u0 : 0 ≤ t * T := mul_nonneg t0 T0.le
  have v0 : 0 < 1 + t * T := by linarith
  have iv : (1 + t * T)⁻¹ * (1 + t * T) = 1 := inv_mul_cancel₀ v0.ne'
  refine ⟨(1 + t * T)⁻¹, (inv_pos.2 v0).le, inv_le_one_of_one_le₀ (by linarith), ?_, ?_⟩
  · simp only
    rw [rx]
    linear_combination -(w.x - m.x) * iv
  · simp only
    rw [ry]
    linear_combination -(w.y - m.y) * iv

/-- There are points inside of a contour which are not on a given vertical line. -/
theorem SimpleContour.exists_beside {d : Contour} (sc : SimpleContour d) (x : ℚ) : ∃ w, w ∉ segsPts d.edges ∧ Inside d.edges w ∧ w.x ≠ x := by
  obtain ⟨s, hs⟩ := sc.exists_edge
  obtain ⟨⟨z, -, -, z1, z2⟩, -⟩ := near_both (X := []) sc.noOverlap sc.even ⟨s, hs, s.start_mem⟩ (by simp) one_pos
  obtain ⟨δ, δ0, hδ⟩ := inside_near sc.noOverlap.1 sc.even z1
  by_cases hx : z.x = x
  · have k := hδ ⟨z.x + δ / 2, z.y⟩ ⟨by simp only [add_sub_cancel_left]; rw [abs_of_pos (by linarith)]; linarith, by simpa using δ0⟩
    exact ⟨_, k.1, k.2.2 z2, by simp only; rw [hx]; intro k; linarith⟩
  · exact ⟨z, z1, z2, hx⟩

/-- The union of two convex sets with a common point has no holes. -/
theorem ValidPolygon.union_holes {p : Polygon} (h : ValidPolygon p) {K K' : Set Point} (c : ConvexSet K) (c' : ConvexSet K')
    (e : p.pts = K ∪ K') {m : Point} (hm : m ∈ K) (hm' : m ∈ K') : p.holes = [] := by
  rw [polygon_pts_eq] at e
  by_contra hn
  obtain ⟨d, d1⟩ := List.exists_mem_of_ne_nil _ hn
  have sc := h.holes d d1
  obtain ⟨w, w1, w2, wm⟩ := sc.exists_beside m.x
  have wo := h.not_in_hole d1 w1 w2
  rw [e] at wo
  obtain ⟨r, ⟨s, hs, hr⟩, between⟩ := sc.behind w2 wm
  have on : r ∈ K ∪ K' := by
    rw [← e]
    refine Or.inl ⟨s, ?_, hr⟩
    unfold Polygon.edges
    exact List.mem_append_right _ (List.mem_flatMap.2 ⟨d, d1, hs⟩)
  rcases on with k | k
  · exact wo (Or.inl (c m hm r k between))
  · exact wo (Or.inr (c' m hm' r k between))

end Clipping

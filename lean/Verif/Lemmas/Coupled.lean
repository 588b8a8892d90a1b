import Verif.Lemmas.BoundingShaped
import Verif.Lemmas.Region.Jordan

/-!
# Coupled boxes and polygons
-/

namespace Clipping

open Sweep

variable {o : Orient}

/-- Near every point of the contour there are interior points. -/
theorem SimpleContour.near_inside {c : Contour} (h : SimpleContour c) {q : Point} (hq : q ∈ segsPts c.edges) {δ : ℚ}
    (hδ : 0 < δ) : ∃ z, Near δ q z ∧ z ∉ segsPts c.edges ∧ Inside c.edges z := by
  classical
  obtain ⟨e, he, hqe⟩ := hq
  obtain ⟨m₀, hm₀, hi₀⟩ := exists_inner (h.proper e he)
  -- an inner point of the edge near `q`
  obtain ⟨m, hm, hi, hnear⟩ : ∃ m ∈ e.pts, ¬ e.IsEnd m ∧ Near (δ / 2) q m := by
    by_cases hqi : e.IsEnd q
    · obtain ⟨ε, ε0, ε1, hε⟩ := exists_small (half_pos hδ)
        (M := |m₀.x - q.x| + |m₀.y - q.y|) (by positivity)
      have hp : (⟨q.x + ε * (m₀.x - q.x), q.y + ε * (m₀.y - q.y)⟩ : Point) ∈ (Segment.mk q m₀).pts :=
        ⟨ε, ε0.le, ε1, rfl, rfl⟩
      refine ⟨_, mk_sub hqe hm₀ hp, fun hend => ?_, ?_, ?_⟩
      · have := end_between (h.proper e he) hm₀ hi₀ hqe hp hend
        have hx := congrArg Point.x this
        have hy := congrArg Point.y this
        simp only at hx hy
        have hx : ε * (m₀.x - q.x) = 0 := by linarith
        have hy : ε * (m₀.y - q.y) = 0 := by linarith
        have hx := (mul_eq_zero.1 hx).resolve_left ε0.ne'
        have hy := (mul_eq_zero.1 hy).resolve_left ε0.ne'
        have : m₀ = q := Point.ext' (by linarith) (by linarith)
        rw [this] at hi₀
        exact hi₀ hqi
      · simp only [add_sub_cancel_left]
        rw [abs_mul, abs_of_pos ε0]
        have := mul_nonneg ε0.le (abs_nonneg (m₀.y - q.y))
        linarith
      · simp only [add_sub_cancel_left]
        rw [abs_mul, abs_of_pos ε0]
        have := mul_nonneg ε0.le (abs_nonneg (m₀.x - q.x))
        linarith
    · exact ⟨q, hqe, hqi, by rw [Near]; simp [hδ]⟩
  have perm := List.perm_cons_erase he
  have off : m ∉ segsPts (c.edges.erase e) := by
    rintro ⟨t, ht, hmt⟩
    have hends := h.ends
    unfold EndsOnly at hends
    rw [perm.pairwise_iff (fun {s t} g q h1 h2 => (g q h2 h1).symm)] at hends
    exact hi ((List.pairwise_cons.1 hends).1 t ht m hm hmt).1
  obtain ⟨δ', δ'0, hδ'⟩ := local_sides (E := c.edges.erase e)
    (fun s hs => h.proper s (perm.mem_iff.2 hs))
    (fun q => by rw [← degree_perm perm]; exact h.even q) hm hi off
  have key : ∀ z, Near (min (δ / 2) δ') m z → cross e.start e.stop z ≠ 0 → Inside c.edges z →
      ∃ z, Near δ q z ∧ z ∉ segsPts c.edges ∧ Inside c.edges z := by
    intro z hz hc hin
    refine ⟨z, ⟨?_, ?_⟩, ?_, hin⟩
    · have h1 := abs_lt.1 (hz.mono (min_le_left _ _)).1
      have h2 := abs_lt.1 hnear.1
      rw [abs_lt]; constructor <;> linarith [h1.1, h1.2, h2.1, h2.2]
    · have h1 := abs_lt.1 (hz.mono (min_le_left _ _)).2
      have h2 := abs_lt.1 hnear.2
      rw [abs_lt]; constructor <;> linarith [h1.1, h1.2, h2.1, h2.2]
    · rintro ⟨t, ht, hzt⟩
      rcases List.mem_cons.1 (perm.mem_iff.1 ht) with rfl | ht
      · exact hc (mem_cross hzt)
      · exact (hδ' z (hz.mono (min_le_right _ _))).1 ⟨t, ht, hzt⟩
  have d0 : 0 < min (δ / 2) δ' := lt_min (half_pos hδ) δ'0
  have pe := h.proper e he
  obtain ⟨x, xn, xc⟩ := exists_left_near pe hm d0
  obtain ⟨y, yn, yc⟩ := exists_left_near (e := ⟨e.stop, e.start⟩) pe.symm (by rw [Segment.pts_swap]; exact hm) d0
  simp only at yc
  have yc' : cross e.start e.stop y < 0 := by rw [cross_swap] at yc; linarith
  obtain ⟨-, x1, x2⟩ := hδ' x (xn.mono (min_le_right _ _))
  obtain ⟨-, y1, y2⟩ := hδ' y (yn.mono (min_le_right _ _))
  rw [← inside_perm perm, ← inside_perm perm] at x1 x2 y1 y2
  rcases e.lo_hi_cases with ⟨e1, e2, -⟩ | ⟨e1, e2, -⟩
  · rw [e1, e2] at x1 y2
    by_cases hm' : Inside c.edges m
    · exact key y yn yc'.ne ((y2 yc').2 hm')
    · exact key x xn xc.ne' ((x1 xc).2 hm')
  · rw [e1, e2] at x2 y1
    rw [cross_swap] at x2 y1
    by_cases hm' : Inside c.edges m
    · exact key x xn xc.ne' ((x2 (by linarith)).2 hm')
    · exact key y yn yc'.ne ((y1 (by linarith)).2 hm')

/-- Points which are not in a box have a neighbourhood which does not meet the box. -/
theorem Box.near_off {b : Box} {q : Point} (h : q ∉ b.pts) : ∃ δ > 0, ∀ z, Near δ q z → z ∉ b.pts := by
  have : q.x < b.minX ∨ b.maxX < q.x ∨ q.y < b.minY ∨ b.maxY < q.y := by
    by_contra hn
    push Not at hn
    exact h ⟨hn.1, hn.2.1, hn.2.2.1, hn.2.2.2⟩
  rcases this with h | h | h | h
  · exact ⟨b.minX - q.x, by linarith, fun z hz hb => by linarith [(abs_lt.1 hz.1).2, hb.1]⟩
  · exact ⟨q.x - b.maxX, by linarith, fun z hz hb => by linarith [(abs_lt.1 hz.1).1, hb.2.1]⟩
  · exact ⟨b.minY - q.y, by linarith, fun z hz hb => by linarith [(abs_lt.1 hz.2).2, hb.2.2.1]⟩
  · exact ⟨q.y - b.maxY, by linarith, fun z hz hb => by linarith [(abs_lt.1 hz.2).1, hb.2.2.2]⟩

/-- Points of a box which are on no edge have a neighbourhood in the box. -/
theorem Box.near_in {b : Box} {q : Point} (h : q ∈ b.pts) (hn : ∀ e ∈ toEdges b, q ∉ e.pts) :
    ∃ δ > 0, ∀ z, Near δ q z → z ∈ b.pts := by
  have ne : ¬ (q.x = b.minX ∨ q.x = b.maxX ∨ q.y = b.minY ∨ q.y = b.maxY) := by
    intro g
    obtain ⟨e, he, hq⟩ := mem_edge h g
    exact hn e he hq
  push Not at ne
  obtain ⟨h1, h2, h3, h4⟩ := h
  have h1 := lt_of_le_of_ne h1 (Ne.symm ne.1)
  have h2 := lt_of_le_of_ne h2 ne.2.1
  have h3 := lt_of_le_of_ne h3 (Ne.symm ne.2.2.1)
  have h4 := lt_of_le_of_ne h4 ne.2.2.2
  refine ⟨min (min (q.x - b.minX) (b.maxX - q.x)) (min (q.y - b.minY) (b.maxY - q.y)),
    lt_min (lt_min (by linarith) (by linarith)) (lt_min (by linarith) (by linarith)), ?_⟩
  intro z hz
  have a1 := hz.1.trans_le ((min_le_left _ _).trans (min_le_left _ _))
  have a2 := hz.1.trans_le ((min_le_left _ _).trans (min_le_right _ _))
  have a3 := hz.2.trans_le ((min_le_right _ _).trans (min_le_left _ _))
  have a4 := hz.2.trans_le ((min_le_right _ _).trans (min_le_right _ _))
  rw [abs_lt] at a1 a2 a3 a4
  exact ⟨by linarith [a1.1], by linarith [a2.2], by linarith [a3.1], by linarith [a4.2]⟩

/-- A contour which is not in the box: if the box contains an interior point of the region, so does the boundary of
the box. -/
theorem SimpleContour.inside_edge {c : Contour} (h : SimpleContour c) {b : Box}
    (hb : ¬ isSubsetOf (contourBox c) b = true) {q : Point} (hq : q ∈ b.pts) (hr : q ∈ regionPts c.edges)
    (hn : ∀ e ∈ toEdges b, q ∉ e.pts) :
    ∃ e ∈ toEdges b, ∃ w ∈ e.pts, w ∉ segsPts c.edges ∧ Inside c.edges w := by
  -- a vertex which is not in the box
  obtain ⟨v, hv, hvb⟩ : ∃ v ∈ c.vertices, v ∉ b.pts := by
    by_contra hall
    push Not at hall
    exact hb (contourBox_sub h.ne_nil hall)
  obtain ⟨δ, δ0, hδ⟩ := Box.near_off hvb
  obtain ⟨z, hz, hzs, hzi⟩ := h.near_inside (h.vertex_segs hv) δ0
  obtain ⟨x, hx, hxs, hxi⟩ : ∃ x ∈ b.pts, x ∉ segsPts c.edges ∧ Inside c.edges x := by
    by_cases hqs : q ∈ segsPts c.edges
    · obtain ⟨δ', δ'0, hδ'⟩ := Box.near_in hq hn
      obtain ⟨x, hx, hxs, hxi⟩ := h.near_inside hqs δ'0
      exact ⟨x, hδ' x hx, hxs, hxi⟩
    · exact ⟨q, hq, hqs, hr.resolve_left hqs⟩
  have link : Linked c.edges x z := (h.linked_iff hxs hzs).2 (by tauto)
  obtain ⟨w, lw, hws, e, he, hwe⟩ := link.leaves hx (hδ z hz)
  exact ⟨e, he, w, hwe, hws, ((h.linked_iff hxs hws).1 lw).1 hxi⟩

/-- If the box contains an exterior point, so does its boundary. -/
theorem SimpleContour.outside_edge {c : Contour} (h : SimpleContour c) {b : Box} {q : Point} (hq : q ∈ b.pts)
    (hr : q ∉ regionPts c.edges) : ∃ e ∈ toEdges b, ∃ w ∈ e.pts, w ∉ regionPts c.edges := by
  set z : Point := ⟨min b.minX (contourBox c).minX - 1, q.y⟩ with hz
  have zb : z ∉ b.pts := fun hh => by
    have := hh.1
    simp only [hz] at this
    linarith [min_le_left b.minX (contourBox c).minX]
  have zr : z ∉ regionPts c.edges := fun hh => by
    have := (h.region_sub_box hh).1
    simp only [hz] at this
    linarith [min_le_right b.minX (contourBox c).minX]
  have hqs : q ∉ segsPts c.edges := fun g => hr (Or.inl g)
  have hqi : ¬ Inside c.edges q := fun g => hr (Or.inr g)
  have hzs : z ∉ segsPts c.edges := fun g => zr (Or.inl g)
  have hzi : ¬ Inside c.edges z := fun g => zr (Or.inr g)
  have link : Linked c.edges q z := (h.linked_iff hqs hzs).2 (by tauto)
  obtain ⟨w, lw, hws, e, he, hwe⟩ := link.leaves hq zb
  refine ⟨e, he, w, hwe, ?_⟩
  rintro (g | g)
  · exact hws g
  · exact hqi (((h.linked_iff hqs hws).1 lw).2 g)

/-- the ends of the edges of a box are its vertices -/
theorem edge_ends {b : Box} {e : Segment} (he : e ∈ toEdges b) : e.start ∈ toVertices b ∧ e.stop ∈ toVertices b := by
  simp only [toEdges, List.mem_cons, List.not_mem_nil, or_false] at he
  simp only [toVertices, List.mem_cons, List.not_mem_nil, or_false]
  rcases he with rfl | rfl | rfl | rfl <;> simp

/-- A box with more than one point: every point of the boundary is on an edge of positive length. -/
theorem proper_edge {b : Box} (hb : b.Nonempty) (hp : b.minX ≠ b.maxX ∨ b.minY ≠ b.maxY) {e : Segment}
    (he : e ∈ toEdges b) {q : Point} (hq : q ∈ e.pts) : ∃ e' ∈ toEdges b, e'.Proper ∧ q ∈ e'.pts := by
  by_cases hpe : e.Proper
  · exact ⟨e, he, hpe, hq⟩
  obtain ⟨hx, hy⟩ := hb
  have hqb := edges_sub ⟨hx, hy⟩ he hq
  obtain ⟨h1, h2, h3, h4⟩ := hqb
  have hq' : q = ⟨q.x, q.y⟩ := rfl
  by_cases hxx : b.minX = b.maxX
  · have hyy : b.minY ≠ b.maxY := hp.resolve_left (fun h => h hxx)
    have : q.x = b.minX := le_antisymm (by rw [hxx]; exact h2) h1
    refine ⟨_, ?_, ?_, (by rw [hq', this]; exact mem_vertical h3 h4)⟩
    · simp [toEdges]
    · intro h; exact hyy (congrArg Point.y h)
  · by_cases hyy : b.minY = b.maxY
    · have : q.y = b.minY := le_antisymm (by rw [hyy]; exact h4) h3
      refine ⟨_, ?_, ?_, (by rw [hq', this]; exact mem_horizontal h1 h2)⟩
      · simp [toEdges]
      · intro h; exact hxx (congrArg Point.x h)
    · exfalso
      apply hpe
      simp only [toEdges, List.mem_cons, List.not_mem_nil, or_false] at he
      rcases he with rfl | rfl | rfl | rfl
      · intro h; exact hxx (congrArg Point.x h)
      · intro h; exact hyy (congrArg Point.y h)
      · intro h; exact hxx (congrArg Point.x h)
      · intro h; exact hyy (congrArg Point.y h)

/-- `is_subset_of_region` -/
theorem isSubsetOfRegion_sub (ok : OrientOk o) {c : Contour} (h : SimpleContour c) {b : Box} (hb : b.Nonempty)
    (hp : b.minX ≠ b.maxX ∨ b.minY ≠ b.maxY) (hs : isSubsetOfRegion o b c = true) : b.pts ⊆ regionPts c.edges := by
  intro q hq
  by_contra hr
  obtain ⟨e, he, w, hw, hwr⟩ := h.outside_edge hq hr
  obtain ⟨e', he', hpe, hw'⟩ := proper_edge hb hp he hw
  unfold isSubsetOfRegion at hs
  rw [List.all_eq_true] at hs
  have := hs e' he'
  simp only [List.contains_cons, List.contains_nil, Bool.or_false, Bool.or_eq_true, beq_iff_eq] at this
  rcases this with g | g | g
  · exact hwr (Or.inl ((ok.component c e' h hpe).1 g hw'))
  · exact hwr (((ok.enclosed c e' h hpe).1 g).1 hw')
  · exact hwr (((ok.within c e' h hpe).1 g).1 hw')

theorem isSubsetOfMultiregion_sub (ok : OrientOk o) {l : List Contour} (h : ∀ c ∈ l, SimpleContour c) {b : Box}
    (hb : b.Nonempty) (hp : b.minX ≠ b.maxX ∨ b.minY ≠ b.maxY) (hs : isSubsetOfMultiregion o b l = true) :
    ∃ c ∈ l, b.pts ⊆ regionPts c.edges := by
  unfold isSubsetOfMultiregion at hs
  rw [List.any_eq_true] at hs
  obtain ⟨c, hc, g⟩ := hs
  rw [Bool.and_eq_true] at g
  exact ⟨c, hc, isSubsetOfRegion_sub ok (h c hc) hb hp g.2⟩

/-- If the last tests of `coupled_with_polygon` and `coupled_with_region` fail, the box and the region have finitely
many common points. -/
theorem edgesCoupled_finite (ok : OrientOk o) {c : Contour} (h : SimpleContour c) {b : Box} (hb : b.Nonempty)
    (hsub : ¬ isSubsetOf (contourBox c) b = true)
    (hv : ∀ v ∈ toVertices b, o.pointInRegion v c ≠ .interior) (hs : edgesCoupled o b c = false) :
    (b.pts ∩ regionPts c.edges).Finite := by
  by_cases hp : b.minX ≠ b.maxX ∨ b.minY ≠ b.maxY
  swap
  · push Not at hp
    refine Set.Finite.subset (Set.finite_singleton (⟨b.minX, b.minY⟩ : Point)) ?_
    rintro q ⟨⟨h1, h2, h3, h4⟩, -⟩
    exact Point.ext' (le_antisymm (by rw [hp.1]; exact h2) h1) (le_antisymm (by rw [hp.2]; exact h4) h3)
  unfold edgesCoupled at hs
  rw [List.any_eq_false] at hs
  have edge : ∀ e ∈ toEdges b, e.Proper → (∀ w ∈ e.pts, w ∉ segsPts c.edges → ¬ Inside c.edges w) ∧
      (e.pts ∩ segsPts c.edges).Finite := by
    intro e he hpe
    have := hs e he
    simp only [List.contains_cons, List.contains_nil, Bool.or_false, Bool.or_eq_true, beq_iff_eq, not_or,
      decide_eq_true_eq] at this
    obtain ⟨n1, n2, n3, n4⟩ := this
    rw [ok.overlap c e h hpe] at n1
    rw [ok.cross c e h hpe] at n2
    rw [ok.component c e h hpe] at n3
    rw [ok.enclosed c e h hpe] at n4
    constructor
    · intro w hw hws hwi
      by_cases hr : e.pts ⊆ regionPts c.edges
      · by_cases hbd : ∃ p ∈ e.pts, p ∈ segsPts c.edges
        · exact n4 ⟨hr, n3, hbd⟩
        · push Not at hbd
          have hst := hbd _ e.start_mem
          exact hv _ (edge_ends he).1 ((ok.interior c _ h).2 ⟨hst, (hr e.start_mem).resolve_left hst⟩)
      · rw [Set.not_subset] at hr
        obtain ⟨p, hp1, hp2⟩ := hr
        exact n2 ⟨⟨w, hw, hws, hwi⟩, p, hp1, hp2⟩
    · by_contra hf
      exact n1 ⟨n3, hf⟩
  have fin : (⋃ e ∈ toEdges b, {q | e.Proper ∧ q ∈ e.pts ∩ segsPts c.edges}).Finite := by
    refine Set.Finite.biUnion (List.finite_toSet (toEdges b)) ?_
    intro e he
    by_cases hpe : e.Proper
    · exact ((edge e he hpe).2).subset fun q hq => hq.2
    · refine Set.Finite.subset Set.finite_empty ?_
      rintro q ⟨hq, -⟩
      exact absurd hq hpe
  refine fin.subset ?_
  rintro q ⟨hq, hr⟩
  by_cases hn : ∃ e ∈ toEdges b, q ∈ e.pts
  · obtain ⟨e, he, hqe⟩ := hn
    obtain ⟨e', he', hpe, hq'⟩ := proper_edge hb hp he hqe
    simp only [Set.mem_iUnion]
    refine ⟨e', he', hpe, hq', ?_⟩
    by_contra hqs
    exact (edge e' he' hpe).1 q hq' hqs (hr.resolve_left hqs)
  · push Not at hn
    exfalso
    obtain ⟨e, he, w, hw, hws, hwi⟩ := h.inside_edge hsub hq hr hn
    obtain ⟨e', he', hpe, hw'⟩ := proper_edge hb hp he hw
    exact (edge e' he' hpe).1 w hw' hws hwi

theorem coupledWith_false {a b : Box} (h : coupledWith a b = false) : (a.pts ∩ b.pts).Finite := by
  refine Set.Subsingleton.finite ?_
  rintro p ⟨h1, h2⟩ q ⟨h3, h4⟩
  by_contra hne
  rw [coupledWith_of_two hne h1 h3 h2 h4] at h
  exact absurd h (by decide)

/-- `coupled_with_region` -/
theorem coupledWithRegion_false (ok : OrientOk o) {c : Contour} (h : SimpleContour c) {b : Box} (hb : b.Nonempty)
    (hf : coupledWithRegion o b c = false) : (b.pts ∩ regionPts c.edges).Finite := by
  unfold coupledWithRegion at hf
  dsimp only at hf
  split_ifs at hf with h1 h2
  · rw [Bool.not_eq_true'] at h1
    exact (coupledWith_false h1).subset fun q hq => ⟨h.region_sub_box hq.2, hq.1⟩
  · rw [Bool.or_eq_true, not_or] at h2
    rw [Bool.or_eq_false_iff, Bool.or_eq_false_iff, List.any_eq_false] at hf
    obtain ⟨⟨hv, -⟩, he⟩ := hf
    exact edgesCoupled_finite ok h hb h2.1 (fun v hv' => by simpa using hv v hv') he

/-- `coupled_with_polygon`: apart from points of holes' contours, a dropped polygon has finitely many points in
common with the box. -/
theorem coupledWithPolygon_false (ok : OrientOk o) {p : Polygon} (h : ValidPolygon p) {b : Box} (hb : b.Nonempty)
    (hf : coupledWithPolygon o b p = false) :
    {q ∈ b.pts | q ∈ regionPts p.edges ∧ ∀ c ∈ p.holes, q ∉ segsPts c.edges}.Finite := by
  have hB := h.border
  by_cases hp : b.minX ≠ b.maxX ∨ b.minY ≠ b.maxY
  swap
  · push Not at hp
    refine Set.Finite.subset (Set.finite_singleton (⟨b.minX, b.minY⟩ : Point)) ?_
    rintro q ⟨⟨h1, h2, h3, h4⟩, -⟩
    exact Point.ext' (le_antisymm (by rw [hp.1]; exact h2) h1) (le_antisymm (by rw [hp.2]; exact h4) h3)
  have hole : isSubsetOfMultiregion o b p.holes = true →
      {q ∈ b.pts | q ∈ regionPts p.edges ∧ ∀ c ∈ p.holes, q ∉ segsPts c.edges}.Finite := by
    intro g
    obtain ⟨c, hc, hsub⟩ := isSubsetOfMultiregion_sub ok h.holes hb hp g
    refine Set.Finite.subset Set.finite_empty ?_
    rintro q ⟨hq, hr, hn⟩
    exact absurd hr (h.not_in_hole hc (hn c hc) ((hsub hq).resolve_left (hn c hc)))
  unfold coupledWithPolygon at hf
  dsimp only at hf
  split_ifs at hf with h1 h2 h3 h4
  · rw [Bool.not_eq_true'] at h1
    exact (coupledWith_false h1).subset fun q hq => ⟨hB.region_sub_box (h.region_sub_border hq.2.1), hq.1⟩
  · rw [Bool.or_eq_false_iff] at hf
    exact hole (by simpa using hf.2)
  · exact hole (by simpa using hf)
  · rw [Bool.or_eq_true, not_or] at h2
    refine (edgesCoupled_finite ok hB hb h2.1 ?_ hf).subset fun q hq => ⟨hq.1, h.region_sub_border hq.2.1⟩
    intro v hv hvi
    apply h3
    rw [List.any_eq_true]
    exact ⟨_, List.mem_map.2 ⟨v, hv, rfl⟩, by simpa using hvi⟩

end Clipping

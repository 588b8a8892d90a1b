import Verif.Lemmas.Shaped.SameNormal

/-!
# Whether contours touch depends on the points only
-/

namespace Clipping

open Sweep

/-- The point a part of the way from `v` to `u`. -/
def onWay (v u : Point) (c : ℚ) : Point := ⟨v.x + c * (u.x - v.x), v.y + c * (u.y - v.y)⟩

theorem onWay_mem {v u : Point} {c : ℚ} (h0 : 0 ≤ c) (h1 : c ≤ 1) : onWay v u c ∈ (Segment.mk v u).pts := ⟨c, h0, h1, rfl, rfl⟩

theorem mem_onWay {v u z : Point} (h : z ∈ (Segment.mk v u).pts) : ∃ c, 0 ≤ c ∧ c ≤ 1 ∧ z = onWay v u c := by
  obtain ⟨c, h0, h1, hx, hy⟩ := h
  refine ⟨c, h0, h1, ?_⟩
  cases z
  simp only at hx hy
  rw [hx, hy]
  rfl

theorem onWay_ne {v u : Point} (hne : u ≠ v) {c : ℚ} (h0 : 0 < c) : onWay v u c ≠ v := by
  intro e
  have e1 := congrArg Point.x e
  have e2 := congrArg Point.y e
  simp only [onWay] at e1 e2
  have f1 : c * (u.x - v.x) = 0 := by linarith
  have f2 : c * (u.y - v.y) = 0 := by linarith
  rcases mul_eq_zero.1 f1 with g | g
  · exact h0.ne' g
  rcases mul_eq_zero.1 f2 with g' | g'
  · exact h0.ne' g'
  refine hne ?_
  cases u; cases v
  simp only [Point.mk.injEq] at g g' ⊢
  exact ⟨by linarith, by linarith⟩

theorem onWay_trans (v u : Point) (c d : ℚ) : onWay v (onWay v u c) d = onWay v u (d * c) := by
  simp only [onWay, Point.mk.injEq]
  exact ⟨by ring, by ring⟩

/-- Two ways which start along the same one have a common part. -/
theorem common_way {v a w w' : Point} (hw : w ≠ v) (hw' : w' ≠ v) {c c' : ℚ} (c0 : 0 < c) (c0' : 0 < c')
    (h : onWay v w c ∈ (Segment.mk v a).pts) (h' : onWay v w' c' ∈ (Segment.mk v a).pts) :
    ∃ z ≠ v, z ∈ (Segment.mk v w).pts ∧ z ∈ (Segment.mk v w').pts := by
  -- along the way to `a`
  have turn : ∀ {w : Point} {c : ℚ}, w ≠ v → 0 < c → onWay v w c ∈ (Segment.mk v a).pts → a ≠ v ∧ ∃ k, 0 < k ∧ w = onWay v a k := by
    intro w c hw c0 h
    obtain ⟨t, t0, -, e⟩ := mem_onWay h
    have tp : 0 < t := by
      refine t0.lt_of_ne ?_
      rintro rfl
      exact onWay_ne hw c0 (e.trans (by cases v; simp [onWay]))
    have hp : w = onWay v a (t / c) := by
      have e1 := congrArg Point.x e
      have e2 := congrArg Point.y e
      simp only [onWay] at e1 e2
      have k : t / c * c = t := div_mul_cancel₀ t c0.ne'
      have i1 : c * (w.x - (v.x + t / c * (a.x - v.x))) = 0 := by linear_combination e1 - (a.x - v.x) * k
      have i2 : c * (w.y - (v.y + t / c * (a.y - v.y))) = 0 := by linear_combination e2 - (a.y - v.y) * k
      have j1 := (mul_eq_zero.1 i1).resolve_left c0.ne'
      have j2 := (mul_eq_zero.1 i2).resolve_left c0.ne'
      cases w
      simp only [onWay, Point.mk.injEq] at j1 j2 ⊢
      exact ⟨by linarith, by linarith⟩
    refine ⟨?_, t / c, div_pos tp c0, hp⟩
    rintro rfl
    exact hw (hp.trans (by cases a; simp [onWay]))
  obtain ⟨ha, k, k0, e⟩ := turn hw c0 h
  obtain ⟨-, k', k0', e'⟩ := turn hw' c0' h'
  refine ⟨onWay v a (min k k'), onWay_ne ha (lt_min k0 k0'), ?_, ?_⟩
  · have : onWay v a (min k k') = onWay v w (min k k' / k) := by
      rw [e, onWay_trans, div_mul_cancel₀ _ k0.ne']
    rw [this]
    exact onWay_mem (div_nonneg (lt_min k0 k0').le k0.le) ((div_le_one k0).2 (min_le_left _ _))
  · have : onWay v a (min k k') = onWay v w' (min k k' / k') := by
      rw [e', onWay_trans, div_mul_cancel₀ _ k0'.ne']
    rw [this]
    exact onWay_mem (div_nonneg (lt_min k0 k0').le k0'.le) ((div_le_one k0').2 (min_le_right _ _))

/-- A point of a segment is on one of the two sides of another one. -/
theorem split_at {s : Segment} {v z : Point} (hv : v ∈ s.pts) (hz : z ∈ s.pts) :
    z ∈ (Segment.mk v s.start).pts ∨ z ∈ (Segment.mk v s.stop).pts := by
  obtain ⟨a, a0, a1, hx, hy⟩ := hv
  obtain ⟨b, b0, b1, hx', hy'⟩ := hz
  rcases le_total b a with h | h
  · left
    rcases a0.eq_or_lt with rfl | a0
    · have : b = 0 := le_antisymm h b0
      subst this
      exact ⟨0, le_rfl, zero_le_one, by rw [hx, hx']; ring, by rw [hy, hy']; ring⟩
    · refine ⟨1 - b / a, by rw [sub_nonneg, div_le_one a0]; exact h, by linarith [div_nonneg b0 a0.le], ?_, ?_⟩
      · have k : b / a * a = b := div_mul_cancel₀ b a0.ne'
        simp only
        rw [hx, hx']; linear_combination (s.start.x - s.stop.x) * k
      · have k : b / a * a = b := div_mul_cancel₀ b a0.ne'
        simp only
        rw [hy, hy']; linear_combination (s.start.y - s.stop.y) * k
  · right
    rcases a1.eq_or_lt with rfl | a1
    · have : b = 1 := le_antisymm b1 h
      subst this
      exact ⟨0, le_rfl, zero_le_one, by rw [hx, hx']; ring, by rw [hy, hy']; ring⟩
    · have p : 0 < 1 - a := by linarith
      refine ⟨(b - a) / (1 - a), div_nonneg (by linarith) p.le, by rw [div_le_one p]; linarith, ?_, ?_⟩
      · have k : (b - a) / (1 - a) * (1 - a) = b - a := div_mul_cancel₀ _ p.ne'
        simp only
        rw [hx, hx']; linear_combination -(s.stop.x - s.start.x) * k
      · have k : (b - a) / (1 - a) * (1 - a) = b - a := div_mul_cancel₀ _ p.ne'
        simp only
        rw [hy, hy']; linear_combination -(s.stop.y - s.start.y) * k

theorem sides_meet {s : Segment} (hs : s.Proper) {v z : Point} (hv : v ∈ s.pts) (h1 : z ∈ (Segment.mk v s.start).pts)
    (h2 : z ∈ (Segment.mk v s.stop).pts) : z = v := by
  obtain ⟨a, a0, a1, hx, hy⟩ := hv
  obtain ⟨b, b0, b1, hx', hy'⟩ := h1
  obtain ⟨c, c0, c1, hx'', hy''⟩ := h2
  simp only at hx' hy' hx'' hy''
  have k1 : (b * a + c * (1 - a)) * (s.stop.x - s.start.x) = 0 := by
    rw [hx] at hx' hx''; linear_combination hx' - hx''
  have k2 : (b * a + c * (1 - a)) * (s.stop.y - s.start.y) = 0 := by
    rw [hy] at hy' hy''; linear_combination hy' - hy''
  have k : b * a + c * (1 - a) = 0 := by
    by_contra g
    refine hs ?_
    have g1 := (mul_eq_zero.1 k1).resolve_left g
    have g2 := (mul_eq_zero.1 k2).resolve_left g
    cases s with | mk p q =>
    cases p; cases q
    simp only [Point.mk.injEq] at g1 g2 ⊢
    exact ⟨by linarith, by linarith⟩
  have p1 : 0 ≤ b * a := mul_nonneg b0 a0
  have p2 : 0 ≤ c * (1 - a) := mul_nonneg c0 (by linarith)
  have q1 : b * a = 0 := by linarith
  have e1 : z.x = v.x := by rw [hx', hx]; linear_combination (-(s.stop.x - s.start.x)) * q1
  have e2 : z.y = v.y := by rw [hy', hy]; linear_combination (-(s.stop.y - s.start.y)) * q1
  cases z; cases v
  simp only [Point.mk.injEq] at e1 e2 ⊢
  exact ⟨e1, e2⟩

/-- The edges at a vertex of a simple contour. -/
theorem SimpleContour.edge_at {c : Contour} (hc : SimpleContour c) {k : ℕ} {s : Segment} (hs : s ∈ c.edges) (hv : s.IsEnd (vtx c k)) :
    s = ⟨vtx c k, vtx c (k + 1)⟩ ∨ s = ⟨vtx c (k + (c.vertices.length - 1)), vtx c k⟩ := by
  have C := hc.cyc
  obtain ⟨i, hi, rfl⟩ := mem_edges.1 hs
  rcases hv with hv | hv
  · left
    have := C.inj _ _ hv
    simp only at hv
    rw [hv, vtx_congr (this.symm.add_right 1)]
  · right
    have := C.inj _ _ hv
    simp only at hv
    rw [← hv]
    have : vtx c (k + (c.vertices.length - 1)) = vtx c i := by
      have e := this.add_right (c.vertices.length - 1)
      rw [vtx_congr e, Nat.add_assoc, show 1 + (c.vertices.length - 1) = c.vertices.length by omega, C.period]
    rw [this]

/-- A simple contour leaves each of its points in two ways. -/
theorem SimpleContour.two_ways {c : Contour} (hc : SimpleContour c) {v : Point} (hv : v ∈ segsPts c.edges) :
    ∃ f₁ ∈ c.edges, ∃ f₂ ∈ c.edges, ∃ w₁ ≠ v, ∃ w₂ ≠ v, (Segment.mk v w₁).pts ⊆ f₁.pts ∧ (Segment.mk v w₂).pts ⊆ f₂.pts ∧
      ∀ z, z ∈ (Segment.mk v w₁).pts → z ∈ (Segment.mk v w₂).pts → z = v := by
  have C := hc.cyc
  have three := C.three
  obtain ⟨e, he, hv⟩ := hv
  by_cases hn : e.IsEnd v
  · have : ∃ k, v = vtx c k := by
      obtain ⟨i, -, rfl⟩ := mem_edges.1 he
      rcases hn with g | g
      · exact ⟨i, g⟩
      · exact ⟨i + 1, g⟩
    obtain ⟨k, rfl⟩ := this
    set n := c.vertices.length
    have e1 := vtx_edge hc.nonempty k
    have e2 := vtx_edge hc.nonempty (k + (n - 1))
    have back : vtx c (k + (n - 1) + 1) = vtx c k := by
      rw [Nat.add_assoc, Nat.sub_add_cancel (by omega)]
      exact C.period k
    rw [back] at e2
    have n1 : vtx c (k + 1) ≠ vtx c k := fun g => hc.proper _ e1 g.symm
    have n2 : vtx c (k + (n - 1)) ≠ vtx c k := fun g => hc.proper _ e2 g
    have n3 : vtx c (k + 1) ≠ vtx c (k + (n - 1)) := fun g => by
      have := C.inj _ _ g
      rw [show k + (n - 1) = k + 1 + (n - 2) by omega] at this
      exact not_modEq_add (by omega) (by omega) this
    refine ⟨_, e1, _, e2, vtx c (k + 1), n1, vtx c (k + (n - 1)), n2, subset_rfl, by rw [Segment.pts_swap], fun z z1 z2 => ?_⟩
    rw [Segment.pts_swap] at z2
    have : Std.Symm fun s t : Segment => ∀ q, q ∈ s.pts → q ∈ t.pts → s.IsEnd q ∧ t.IsEnd q :=
      ⟨fun _ _ g q h1 h2 => (g q h2 h1).symm⟩
    have := List.Pairwise.forall hc.ends e1 e2 (fun g => n2 (congrArg Segment.start g).symm) z z1 z2
    rcases this.1 with g | g
    · exact g
    rcases this.2 with g' | g'
    · exact absurd (g.symm.trans g') n3
    · exact g'
  · refine ⟨e, he, e, he, e.start, fun g => hn (Or.inl g.symm), e.stop, fun g => hn (Or.inr g.symm), mk_sub hv e.start_mem, mk_sub hv e.stop_mem, ?_⟩
    exact fun z z1 z2 => sides_meet (hc.proper e he) hv z1 z2

/-- Contours which do not touch leave a point in two ways only. -/
theorem Loose.only_two {C : List Contour} (h : Loose C) {v : Point} (hv : v ∈ segsPts (C.flatMap Contour.edges)) :
    ∃ a b, ∀ u ≠ v, (Segment.mk v u).pts ⊆ segsPts (C.flatMap Contour.edges) →
      ∃ k, 0 < k ∧ (onWay v u k ∈ (Segment.mk v a).pts ∨ onWay v u k ∈ (Segment.mk v b).pts) := by
  obtain ⟨e, he, hv⟩ := hv
  by_cases hn : e.IsEnd v
  · obtain ⟨c, hc, hec⟩ := List.mem_flatMap.1 he
    have sc := h.simple c hc
    have : ∃ k, v = vtx c k := by
      obtain ⟨i, -, rfl⟩ := mem_edges.1 hec
      rcases hn with g | g
      · exact ⟨i, g⟩
      · exact ⟨i + 1, g⟩
    obtain ⟨k, rfl⟩ := this
    refine ⟨vtx c (k + 1), vtx c (k + (c.vertices.length - 1)), fun u hu sub => ?_⟩
    obtain ⟨s, hs, vs, m, m0, hm⟩ := starts_along h.plain.proper hu sub
    refine ⟨m, m0, ?_⟩
    obtain ⟨c', hc', hs'⟩ := List.mem_flatMap.1 hs
    obtain rfl := h.eq_of_common hc' hc ⟨s, hs', vs⟩ ⟨e, hec, hv⟩
    have he : s.IsEnd (vtx c' k) := by
      by_contra g
      have := h.plain.solo s hs e he _ vs hv g
      exact g (this ▸ hn)
    rcases sc.edge_at hs' he with g | g
    · left; rw [g] at hm; exact hm
    · right; rw [g, Segment.pts_swap] at hm; exact hm
  · refine ⟨e.start, e.stop, fun u hu sub => ?_⟩
    obtain ⟨s, hs, vs, m, m0, hm⟩ := starts_along h.plain.proper hu sub
    rw [h.plain.solo e he s hs v hv vs hn] at hm
    exact ⟨m, m0, split_at hv hm⟩

/-- Contours with the points of contours which do not touch do not touch. -/
theorem Loose.detached {C D : List Contour} (h : Loose C) (simple : ∀ c ∈ D, SimpleContour c) (no : NoOverlap (D.flatMap Contour.edges))
    (hp : segsPts (D.flatMap Contour.edges) = segsPts (C.flatMap Contour.edges)) :
    D.Pairwise fun c d => ∀ q ∈ segsPts c.edges, q ∉ segsPts d.edges := by
  refine List.Pairwise.imp_of_mem ?_ (List.pairwise_flatMap.1 no.2).2
  intro c d hc hd hno v h1 h2
  obtain ⟨f₁, hf₁, f₂, hf₂, w₁, n₁, w₂, n₂, s₁, s₂, sep⟩ := (simple c hc).two_ways h1
  obtain ⟨f₃, hf₃, -, -, w₃, n₃, -, -, s₃, -⟩ := (simple d hd).two_ways h2
  obtain ⟨a, b, two⟩ := h.only_two (v := v) (by rw [← hp, segsPts_flatMap]; exact ⟨c, hc, h1⟩)
  have sub : ∀ c ∈ D, ∀ f ∈ c.edges, ∀ w, (Segment.mk v w).pts ⊆ f.pts → (Segment.mk v w).pts ⊆ segsPts (C.flatMap Contour.edges) := by
    intro c hc f hf w hw q hq
    rw [← hp]
    exact ⟨f, List.mem_flatMap.2 ⟨c, hc, hf⟩, hw hq⟩
  obtain ⟨k₁, p₁, t₁⟩ := two w₁ n₁ (sub c hc f₁ hf₁ w₁ s₁)
  obtain ⟨k₂, p₂, t₂⟩ := two w₂ n₂ (sub c hc f₂ hf₂ w₂ s₂)
  obtain ⟨k₃, p₃, t₃⟩ := two w₃ n₃ (sub d hd f₃ hf₃ w₃ s₃)
  have no12 : ¬ ∃ z ≠ v, z ∈ (Segment.mk v w₁).pts ∧ z ∈ (Segment.mk v w₂).pts := fun ⟨z, zn, z1, z2⟩ => zn (sep z z1 z2)
  have no13 : ¬ ∃ z ≠ v, z ∈ (Segment.mk v w₁).pts ∧ z ∈ (Segment.mk v w₃).pts := fun ⟨z, zn, z1, z2⟩ =>
    hno f₁ hf₁ f₃ hf₃ ⟨v, z, zn.symm, s₁ (Segment.start_mem _), s₁ z1, s₃ (Segment.start_mem _), s₃ z2⟩
  have no23 : ¬ ∃ z ≠ v, z ∈ (Segment.mk v w₂).pts ∧ z ∈ (Segment.mk v w₃).pts := fun ⟨z, zn, z1, z2⟩ =>
    hno f₂ hf₂ f₃ hf₃ ⟨v, z, zn.symm, s₂ (Segment.start_mem _), s₂ z1, s₃ (Segment.start_mem _), s₃ z2⟩
  rcases t₁ with t₁ | t₁ <;> rcases t₂ with t₂ | t₂ <;> rcases t₃ with t₃ | t₃ <;>
    first
    | exact no12 (common_way n₁ n₂ p₁ p₂ t₁ t₂)
    | exact no13 (common_way n₁ n₃ p₁ p₃ t₁ t₃)
    | exact no23 (common_way n₂ n₃ p₂ p₃ t₂ t₃)

/-- Polygons with the points of polygons the contours of which do not touch. -/
theorem Separate.of_points {ps qs : List Polygon} (H : Separate ps) (v : ValidPolygons qs) (co : ∀ c ∈ contoursOf qs, c.Cornered)
    (h : polysPts ps = polysPts qs) : Separate qs where
  valid := v
  cornered := co
  detached := by
    refine H.loose.detached (D := contoursOf qs) ?_ ?_ ?_
    · intro c hc
      obtain ⟨p, hp, hc⟩ := List.mem_flatMap.1 hc
      rcases List.mem_cons.1 hc with rfl | hc
      · exact (v.valid p hp).border
      · exact (v.valid p hp).holes c hc
    · rw [contoursOf_edges]; exact v.noOverlap
    · rw [contoursOf_edges, contoursOf_edges]
      refine segsPts_of_region v.noOverlap_even.1 v.noOverlap_even.2 H.valid.noOverlap_even.1 H.valid.noOverlap_even.2 ?_
      rw [H.valid.region, v.region, h]

end Clipping

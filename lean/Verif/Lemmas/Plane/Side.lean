import Verif.Lemmas.Region.Jordan

/-!
# Sides of edges and sectors at vertices
-/

namespace Clipping

/-- `q` is seen from an inner point of the directed segment `e`, on its left (`σ = 1`) or right (`σ = -1`). -/
def SideOf (E : List Segment) (e : Segment) (σ : ℚ) (q : Point) : Prop :=
  ∃ m ∈ e.pts, ¬ e.IsEnd m ∧ (∀ r ∈ (Segment.mk m q).pts, r ∈ segsPts E → r = m) ∧ 0 < σ * cross e.start e.stop q

/-- The segments of `E` meet `e` in ends of `e` only, unless they have the same points. -/
def Alone (E : List Segment) (e : Segment) : Prop :=
  ∀ g ∈ E, g.pts = e.pts ∨ ∀ q ∈ g.pts, q ∈ e.pts → e.IsEnd q

theorem Alone.sub {E E' : List Segment} {e : Segment} (h : Alone E e) (hs : ∀ g ∈ E', g ∈ E) : Alone E' e :=
  fun g hg => h g (hs g hg)

theorem Segment.isEnd_swap {e : Segment} {q : Point} : e.swap.IsEnd q ↔ e.IsEnd q := by
  unfold Segment.IsEnd Segment.swap; tauto

theorem Alone.swap {E : List Segment} {e : Segment} (h : Alone E e) : Alone E e.swap := by
  intro g hg
  rw [Segment.swap_pts]
  rcases h g hg with h | h
  · exact Or.inl h
  · exact Or.inr fun q h1 h2 => Segment.isEnd_swap.2 (h q h1 h2)

theorem SideOf.swap {E : List Segment} {e : Segment} {σ : ℚ} {q : Point} (h : SideOf E e σ q) :
    SideOf E e.swap (-σ) q := by
  obtain ⟨m, hm, hi, hr, hc⟩ := h
  refine ⟨m, by rw [Segment.swap_pts]; exact hm, fun h => hi (Segment.isEnd_swap.1 h), hr, ?_⟩
  have : cross e.swap.start e.swap.stop q = - cross e.start e.stop q := cross_swap _ _ _
  rw [this]; linarith

theorem SideOf.of_swap {E : List Segment} {e : Segment} {σ : ℚ} {q : Point} (h : SideOf E e.swap σ q) :
    SideOf E e (-σ) q := by
  have := h.swap
  exact this

theorem SideOf.mono {E E' : List Segment} {e : Segment} {σ : ℚ} {q : Point} (h : SideOf E e σ q)
    (hs : segsPts E' ⊆ segsPts E) : SideOf E' e σ q := by
  obtain ⟨m, hm, hi, hr, hc⟩ := h
  exact ⟨m, hm, hi, fun r h1 h2 => hr r h1 (hs h2), hc⟩

theorem SideOf.off {E : List Segment} {e : Segment} {σ : ℚ} {q : Point} (h : SideOf E e σ q) : q ∉ segsPts E := by
  obtain ⟨m, hm, hi, hr, hc⟩ := h
  intro hq
  have := hr q (Segment.stop_mem _) hq
  rw [this, mem_cross hm, mul_zero] at hc
  exact lt_irrefl _ hc

/-- Segments which do not have the points of `e` -/
noncomputable def others (E : List Segment) (e : Segment) : List Segment := by
  classical exact E.filter fun g => decide (g.pts ≠ e.pts)

theorem mem_others {E : List Segment} {e g : Segment} : g ∈ others E e ↔ g ∈ E ∧ g.pts ≠ e.pts := by
  unfold others; simp

theorem mem_segs_others {E : List Segment} {e : Segment} {q : Point} (h : q ∈ segsPts E) :
    q ∈ e.pts ∨ q ∈ segsPts (others E e) := by
  obtain ⟨g, hg, hq⟩ := h
  by_cases he : g.pts = e.pts
  · left; rw [← he]; exact hq
  · exact Or.inr ⟨g, mem_others.2 ⟨hg, he⟩, hq⟩

theorem Alone.inner_off {E : List Segment} {e : Segment} (h : Alone E e) {m : Point} (hm : m ∈ e.pts)
    (hi : ¬ e.IsEnd m) : m ∉ segsPts (others E e) := by
  rintro ⟨g, hg, hq⟩
  rw [mem_others] at hg
  rcases h g hg.1 with h | h
  · exact hg.2 h
  · exact hi (h m hq hm)

/-- Points near an inner point of an edge are on its sides. -/
theorem Alone.near_side {E : List Segment} {e : Segment} (hp : ∀ g ∈ E, g.Proper) (h : Alone E e) {m : Point}
    (hm : m ∈ e.pts) (hi : ¬ e.IsEnd m) :
    ∃ δ > 0, ∀ q σ, Near δ m q → 0 < σ * cross e.start e.stop q → SideOf E e σ q := by
  obtain ⟨δ, δ0, hδ⟩ := exists_near_off_all (E := others E e) (fun g hg => hp g (mem_others.1 hg).1)
    (h.inner_off hm hi)
  refine ⟨δ, δ0, ?_⟩
  intro q σ hq hc
  refine ⟨m, hm, hi, ?_, hc⟩
  intro r hr hs
  rcases mem_segs_others (e := e) hs with hs | hs
  · by_contra hne
    obtain ⟨t, t0, t1, tx, ty⟩ := hr
    simp only at tx ty
    have c1 := mem_cross hs
    have c2 := mem_cross hm
    have t0' : 0 < t := by
      refine lt_of_le_of_ne t0 fun h => hne (Point.ext' ?_ ?_)
      · rw [tx, ← h]; ring
      · rw [ty, ← h]; ring
    have ee : σ * cross e.start e.stop r = (1 - t) * (σ * cross e.start e.stop m) +
        t * (σ * cross e.start e.stop q) := by
      unfold cross; rw [tx, ty]; ring
    rw [c1, c2] at ee
    have := mul_pos t0' hc
    linarith
  · exact absurd hs (hδ r (hq.path r hr))

/-- Every edge has points on both sides. -/
theorem Alone.exists_side {E : List Segment} {e : Segment} (hp : ∀ g ∈ E, g.Proper) (he : e.Proper) (h : Alone E e)
    {σ : ℚ} (hσ : σ = 1 ∨ σ = -1) : ∃ q, SideOf E e σ q := by
  obtain ⟨m, hm, hi⟩ := exists_inner he
  obtain ⟨δ, δ0, hδ⟩ := h.near_side hp hm hi
  rcases hσ with rfl | rfl
  · obtain ⟨q, hq, hc⟩ := exists_left_near he hm δ0
    exact ⟨q, hδ q 1 hq (by linarith)⟩
  · obtain ⟨q, hq, hc⟩ := exists_left_near (e := e.swap) (Ne.symm he) (by rw [Segment.swap_pts]; exact hm) δ0
    have : cross e.swap.start e.swap.stop q = - cross e.start e.stop q := cross_swap _ _ _
    exact ⟨q, hδ q (-1) hq (by linarith)⟩

/-- Points on the same side of an edge are connected. -/
theorem Alone.side_linked {E : List Segment} {e : Segment} (hp : ∀ g ∈ E, g.Proper) (he : e.Proper) (ha : Alone E e)
    {σ : ℚ} {q q' : Point} (h : SideOf E e σ q) (h' : SideOf E e σ q') : Linked E q q' := by
  obtain ⟨m, hm, hi, hr, hc⟩ := h
  obtain ⟨m', hm', hi', hr', hc'⟩ := h'
  have inn : ∀ z ∈ (Segment.mk m m').pts, z ∈ e.pts ∧ ¬ e.IsEnd z := by
    intro z hz
    refine ⟨mk_sub hm hm' hz, fun hh => ?_⟩
    have := end_between he hm' hi' hm hz hh
    rw [this] at hh
    exact hi hh
  obtain ⟨δ, δ0, hδ⟩ := clearance_all' (E := others E e) (fun g hg => hp g (mem_others.1 hg).1) fun z hz =>
    ha.inner_off (inn z hz).1 (inn z hz).2
  obtain ⟨ε, ε0, ε1, hε⟩ := exists_small δ0
    (M := |q.x - m.x| + |q.y - m.y| + (|q'.x - m'.x| + |q'.y - m'.y|)) (by positivity)
  have start : ∀ {x y : Point}, x ∈ e.pts → 0 < σ * cross e.start e.stop y →
      (∀ r ∈ (Segment.mk x y).pts, r ∈ segsPts E → r = x) →
      (⟨x.x + ε * (y.x - x.x), x.y + ε * (y.y - x.y)⟩ : Point) ∈ (Segment.mk x y).pts ∧
      0 < σ * cross e.start e.stop ⟨x.x + ε * (y.x - x.x), x.y + ε * (y.y - x.y)⟩ ∧
      Linked E ⟨x.x + ε * (y.x - x.x), x.y + ε * (y.y - x.y)⟩ y := by
    intro x y hx hy hxy
    have hz : (⟨x.x + ε * (y.x - x.x), x.y + ε * (y.y - x.y)⟩ : Point) ∈ (Segment.mk x y).pts :=
      ⟨ε, ε0.le, ε1, rfl, rfl⟩
    have hcz : 0 < σ * cross e.start e.stop ⟨x.x + ε * (y.x - x.x), x.y + ε * (y.y - x.y)⟩ := by
      have c0 := mem_cross hx
      have : σ * cross e.start e.stop ⟨x.x + ε * (y.x - x.x), x.y + ε * (y.y - x.y)⟩ =
          (1 - ε) * (σ * cross e.start e.stop x) + ε * (σ * cross e.start e.stop y) := by
        unfold cross; ring
      rw [this, c0, mul_zero, mul_zero, zero_add]
      exact mul_pos ε0 hy
    refine ⟨hz, hcz, Free.linked fun r hr hs => ?_⟩
    have h1 := hxy r (mk_sub hz (Segment.stop_mem _) hr) hs
    have h2 := cross_convex hcz hy hr
    rw [h1, mem_cross hx, mul_zero] at h2
    exact lt_irrefl _ h2
  obtain ⟨z1, c1, l1⟩ := start hm hc hr
  obtain ⟨z2, c2, l2⟩ := start hm' hc' hr'
  refine l1.symm.trans (Linked.trans (Free.linked ?_) l2)
  intro r hrr hs
  have h2 := cross_convex c1 c2 hrr
  rcases mem_segs_others (e := e) hs with hs | hs
  · rw [mem_cross hs, mul_zero] at h2
    exact lt_irrefl _ h2
  · obtain ⟨t, t0, t1, tx, ty⟩ := hrr
    simp only at tx ty
    refine hδ ⟨m.x + t * (m'.x - m.x), m.y + t * (m'.y - m.y)⟩ ⟨t, t0, t1, rfl, rfl⟩ r ?_ hs
    have bound : ∀ a b M : ℚ, |a| ≤ M → |b| ≤ M → ε * M < δ → |(1 - t) * (ε * a) + t * (ε * b)| < δ := by
      intro a b M ha hb hM
      refine lt_of_le_of_lt ?_ hM
      calc |(1 - t) * (ε * a) + t * (ε * b)| ≤ |(1 - t) * (ε * a)| + |t * (ε * b)| := abs_add_le _ _
        _ = (1 - t) * (ε * |a|) + t * (ε * |b|) := by
          rw [abs_mul, abs_mul, abs_mul, abs_mul, abs_of_nonneg t0, abs_of_nonneg (sub_nonneg.2 t1),
            abs_of_nonneg ε0.le]
        _ ≤ (1 - t) * (ε * M) + t * (ε * M) := by
          have h1 := mul_le_mul_of_nonneg_left (mul_le_mul_of_nonneg_left ha ε0.le) (sub_nonneg.2 t1)
          have h2 := mul_le_mul_of_nonneg_left (mul_le_mul_of_nonneg_left hb ε0.le) t0
          linarith
        _ = ε * M := by ring
    constructor
    · have : r.x - (m.x + t * (m'.x - m.x)) = (1 - t) * (ε * (q.x - m.x)) + t * (ε * (q'.x - m'.x)) := by
        rw [tx]; ring
      simp only
      rw [this]
      refine bound _ _ _ ?_ ?_ hε <;> linarith [abs_nonneg (q.x - m.x), abs_nonneg (q.y - m.y),
        abs_nonneg (q'.x - m'.x), abs_nonneg (q'.y - m'.y)]
    · have : r.y - (m.y + t * (m'.y - m.y)) = (1 - t) * (ε * (q.y - m.y)) + t * (ε * (q'.y - m'.y)) := by
        rw [ty]; ring
      simp only
      rw [this]
      refine bound _ _ _ ?_ ?_ hε <;> linarith [abs_nonneg (q.x - m.x), abs_nonneg (q.y - m.y),
        abs_nonneg (q'.x - m'.x), abs_nonneg (q'.y - m'.y)]

/-! ## Directions -/

/-- vector from `a` to `b` -/
def vec (a b : Point) : Point := ⟨b.x - a.x, b.y - a.y⟩

/-- determinant of two vectors -/
def det (a b : Point) : ℚ := a.x * b.y - a.y * b.x

theorem cross_eq_det (v w z : Point) : cross v w z = det (vec v w) (vec v z) := by
  unfold cross det vec; ring

/-- Some edge at `v` has the direction of the vector `x`, or the end `z` of it. -/
def IsSpoke (E : List Segment) (v z : Point) : Prop := ⟨v, z⟩ ∈ E ∨ ⟨z, v⟩ ∈ E

/-- The edges of `E` meet `v` in ends only. -/
def VertexOf (E : List Segment) (v : Point) : Prop := ∀ g ∈ E, v ∈ g.pts → g.IsEnd v

theorem spokes_near {E : List Segment} (hp : ∀ g ∈ E, g.Proper) {v : Point} (hv : VertexOf E v) :
    ∃ δ > 0, ∀ q, Near δ v q → q ∈ segsPts E → ∃ z, IsSpoke E v z ∧ q ∈ (Segment.mk v z).pts := by
  classical
  obtain ⟨δ, δ0, hδ⟩ := exists_near_off_all (E := E.filter fun g => decide (v ∉ g.pts))
    (fun g hg => hp g (List.mem_filter.1 hg).1) (m := v) (by
      rintro ⟨g, hg, hq⟩
      have := (List.mem_filter.1 hg).2
      simp only [decide_eq_true_eq] at this
      exact this hq)
  refine ⟨δ, δ0, ?_⟩
  rintro q hq ⟨g, hg, hqg⟩
  by_cases h : v ∈ g.pts
  · rcases hv g hg h with e | e
    · refine ⟨g.stop, Or.inl ?_, ?_⟩
      · rw [e]; exact hg
      · rw [e]; exact hqg
    · refine ⟨g.start, Or.inr ?_, ?_⟩
      · rw [e]; exact hg
      · rw [e, Segment.pts_swap]; exact hqg
  · exact absurd ⟨g, List.mem_filter.2 ⟨hg, by simpa using h⟩, hqg⟩ (hδ q hq)

/-- Directions from a vertex which see an edge. -/
theorem corner {E : List Segment} (hp : ∀ g ∈ E, g.Proper) {v w : Point} (hv : VertexOf E v) (hvw : v ≠ w) (d : Point)
    {σ : ℚ} (hσ : 0 < σ * det (vec v w) d)
    (hH : ∀ z, IsSpoke E v z → ∀ s μ : ℚ, 0 < s → s ≤ 1 → 0 ≤ μ →
      (1 - s) * (vec v w).x + s * d.x = μ * (vec v z).x → (1 - s) * (vec v w).y + s * d.y ≠ μ * (vec v z).y) :
    ∃ t₀ > 0, ∀ t, 0 < t → t ≤ t₀ → SideOf E ⟨v, w⟩ σ ⟨v.x + t * d.x, v.y + t * d.y⟩ := by
  obtain ⟨δ, δ0, hδ⟩ := spokes_near hp hv
  set b : Point := vec v w with hb
  have n1' : b.x ≠ 0 ∨ b.y ≠ 0 := by
    by_contra h
    push Not at h
    exact hvw (Point.ext' (by simp only [hb, vec] at h; linarith [h.1]) (by simp only [hb, vec] at h; linarith [h.2]))
  obtain ⟨ε, ε0, ε1, hε⟩ := exists_small δ0 (M := |b.x| + |b.y| + (|d.x| + |d.y|)) (by positivity)
  refine ⟨ε / 2, by linarith, ?_⟩
  intro t t0 t1
  set m : Point := ⟨v.x + t * b.x, v.y + t * b.y⟩ with hm
  have hmv : m ≠ v := by
    intro h
    have h1 : t * b.x = 0 := by have := congrArg Point.x h; simp only [hm] at this; linarith
    have h2 : t * b.y = 0 := by have := congrArg Point.y h; simp only [hm] at this; linarith
    rcases n1' with h' | h'
    · exact h' ((mul_eq_zero.1 h1).resolve_left t0.ne')
    · exact h' ((mul_eq_zero.1 h2).resolve_left t0.ne')
  have hmw : m ≠ w := by
    intro h
    have h1 : (1 - t) * b.x = 0 := by have := congrArg Point.x h; simp only [hm, hb, vec] at this ⊢; linarith
    have h2 : (1 - t) * b.y = 0 := by have := congrArg Point.y h; simp only [hm, hb, vec] at this ⊢; linarith
    have ht : 1 - t ≠ 0 := by linarith
    rcases n1' with h' | h'
    · exact h' ((mul_eq_zero.1 h1).resolve_left ht)
    · exact h' ((mul_eq_zero.1 h2).resolve_left ht)
  refine ⟨m, ⟨t, by linarith, by linarith, ?_, ?_⟩, ?_, ?_, ?_⟩
  · simp only [hm, hb, vec]
  · simp only [hm, hb, vec]
  · rintro (h | h)
    · exact hmv h
    · exact hmw h
  · rintro r ⟨s, s0, s1, sx, sy⟩ hs
    simp only [hm] at sx sy
    by_contra hne
    have s0' : 0 < s := by
      refine lt_of_le_of_ne s0 fun h => hne (Point.ext' ?_ ?_)
      · rw [sx, ← h]; ring
      · rw [sy, ← h]; ring
    have near : Near δ v r := by
      have bound : ∀ a d M : ℚ, |a| ≤ M → |d| ≤ M → ε * M < δ → |t * ((1 - s) * a + s * d)| < δ := by
        intro a d M h1 h2 h3
        have M0 : 0 ≤ M := (abs_nonneg a).trans h1
        refine lt_of_le_of_lt ?_ h3
        have e1 : |(1 - s) * a + s * d| ≤ (1 - s) * M + s * M := by
          refine (abs_add_le _ _).trans ?_
          rw [abs_mul, abs_mul, abs_of_nonneg s0, abs_of_nonneg (by linarith : 0 ≤ 1 - s)]
          have := mul_le_mul_of_nonneg_left h1 (sub_nonneg.2 s1)
          have := mul_le_mul_of_nonneg_left h2 s0
          linarith
        rw [abs_mul, abs_of_pos t0]
        have e2 : (1 - s) * M + s * M = M := by ring
        rw [e2] at e1
        calc t * |(1 - s) * a + s * d| ≤ t * M := mul_le_mul_of_nonneg_left e1 t0.le
          _ ≤ ε * M := mul_le_mul_of_nonneg_right (by linarith) M0
      constructor
      · rw [show r.x - v.x = t * ((1 - s) * b.x + s * d.x) by rw [sx]; ring]
        refine bound _ _ _ ?_ ?_ hε <;> linarith [abs_nonneg b.x, abs_nonneg b.y, abs_nonneg d.x, abs_nonneg d.y]
      · rw [show r.y - v.y = t * ((1 - s) * b.y + s * d.y) by rw [sy]; ring]
        refine bound _ _ _ ?_ ?_ hε <;> linarith [abs_nonneg b.x, abs_nonneg b.y, abs_nonneg d.x, abs_nonneg d.y]
    obtain ⟨z, hz, μ, μ0, -, μx, μy⟩ := hδ r near hs
    simp only at μx μy
    refine hH z hz s (μ / t) s0' s1 (div_nonneg μ0 t0.le) ?_ ?_
    · have := div_mul_cancel₀ μ t0.ne'
      apply mul_left_cancel₀ t0.ne'
      simp only [vec]
      linear_combination μx - sx - (z.x - v.x) * this
    · have := div_mul_cancel₀ μ t0.ne'
      apply mul_left_cancel₀ t0.ne'
      simp only [vec]
      linear_combination μy - sy - (z.y - v.y) * this
  · have e : σ * cross v w ⟨v.x + t * d.x, v.y + t * d.y⟩ = t * (σ * det b d) := by
      unfold cross det; simp only [hb, vec]; ring
    rw [e]
    exact mul_pos t0 hσ

/-- The direction `x` is in the open sector from the direction `r` clockwise to the direction `f`. -/
def InSector (f r x : Point) : Prop :=
  (0 < det f r ∧ 0 < det f x ∧ 0 < det x r) ∨ (det f r < 0 ∧ (0 < det f x ∨ 0 < det x r)) ∨ (det f r = 0 ∧ 0 < det f x)

/-- The vectors have the same direction. -/
def SameDir (a b : Point) : Prop := ∃ c > 0, b.x = c * a.x ∧ b.y = c * a.y

/-- If no edge is in the sector on the left of the way from `u` over `v` to `w`, then the left sides of both edges are
connected there. -/
theorem sector {E : List Segment} (hp : ∀ g ∈ E, g.Proper) {u v w : Point} (hv : VertexOf E v) (hvu : v ≠ u) (hvw : v ≠ w)
    (hd : ¬ SameDir (vec v w) (vec v u))
    (hs : ∀ z, IsSpoke E v z → ¬ InSector (vec v w) (vec v u) (vec v z)) :
    ∃ q, SideOf E ⟨u, v⟩ 1 q ∧ SideOf E ⟨v, w⟩ 1 q := by
  set f := vec v w with hf
  set r := vec v u with hr
  have f0 : 0 < f.x * f.x + f.y * f.y := by
    have hne : f.x ≠ 0 ∨ f.y ≠ 0 := by
      by_contra h
      push Not at h
      simp only [hf, vec] at h
      exact hvw (Point.ext' (by linarith [h.1]) (by linarith [h.2]))
    rcases hne with h | h
    · have := mul_self_pos.2 h; have := mul_self_nonneg f.y; linarith
    · have := mul_self_pos.2 h; have := mul_self_nonneg f.x; linarith
  obtain ⟨d, hA, hB⟩ : ∃ d : Point, 0 < det f d ∧ 0 < det d r := by
    rcases lt_trichotomy (det f r) 0 with h | h | h
    · refine ⟨⟨- (f.x + r.x), - (f.y + r.y)⟩, ?_, ?_⟩ <;> unfold det at h ⊢ <;> simp only <;> linarith
    · -- opposite directions
      obtain ⟨c, hx, hy⟩ : ∃ c : ℚ, r.x = c * f.x ∧ r.y = c * f.y := by
        refine ⟨(f.x * r.x + f.y * r.y) / (f.x * f.x + f.y * f.y), ?_, ?_⟩
        · have e := div_mul_cancel₀ (f.x * r.x + f.y * r.y) f0.ne'
          apply mul_left_cancel₀ f0.ne'
          unfold det at h
          linear_combination - f.x * e - f.y * h
        · have e := div_mul_cancel₀ (f.x * r.x + f.y * r.y) f0.ne'
          apply mul_left_cancel₀ f0.ne'
          unfold det at h
          linear_combination - f.y * e + f.x * h
      have c0 : c < 0 := by
        by_contra hc
        push Not at hc
        rcases hc.eq_or_lt with h0 | h0
        · rw [← h0] at hx hy
          simp only [hr, vec, zero_mul] at hx hy
          exact hvu (Point.ext' (by linarith) (by linarith))
        · exact hd ⟨c, h0, hx, hy⟩
      refine ⟨⟨- f.y, f.x⟩, ?_, ?_⟩
      · unfold det; simp only; linarith
      · unfold det; simp only; rw [hx, hy]
        have := mul_pos (neg_pos.2 c0) f0
        linarith
    · refine ⟨⟨f.x + r.x, f.y + r.y⟩, ?_, ?_⟩ <;> unfold det at h ⊢ <;> simp only <;> linarith
  have key : ∀ (x : Point) (μ : ℚ), 0 ≤ μ → 0 < μ * det f x ∧ 0 < μ * det x r ∨ det f r ≤ 0 ∧ 0 < μ * det f x ∨
      det f r < 0 ∧ 0 < μ * det x r → InSector f r x := by
    intro x μ μ0 h
    have pos : ∀ y : ℚ, 0 < μ * y → 0 < y := fun y hy => by
      by_contra hn
      push Not at hn
      have := mul_nonpos_of_nonneg_of_nonpos μ0 hn
      linarith
    unfold InSector
    rcases lt_trichotomy (det f r) 0 with h0 | h0 | h0
    · right; left
      refine ⟨h0, ?_⟩
      rcases h with h | h | h
      · exact Or.inl (pos _ h.1)
      · exact Or.inl (pos _ h.2)
      · exact Or.inr (pos _ h.2)
    · right; right
      refine ⟨h0, ?_⟩
      rcases h with h | h | h
      · exact pos _ h.1
      · exact pos _ h.2
      · linarith [h.1]
    · left
      rcases h with h | h | h
      · exact ⟨h0, pos _ h.1, pos _ h.2⟩
      · linarith [h.1]
      · linarith [h.1]
  obtain ⟨t2, t20, h2⟩ := corner hp hv hvw d (σ := 1) (by rw [one_mul]; exact hA) (by
    intro z hz s μ s0 s1 μ0 hx hy
    apply hs z hz
    refine key _ μ μ0 ?_
    have e1 : μ * det f (vec v z) = s * det f d := by
      unfold det
      rw [← hf] at hx hy
      linear_combination - f.x * hy + f.y * hx
    have e2 : μ * det (vec v z) r = (1 - s) * det f r + s * det d r := by
      unfold det
      rw [← hf] at hx hy
      linear_combination r.x * hy - r.y * hx
    have p1 := mul_pos s0 hA
    have p2 := mul_pos s0 hB
    rcases le_or_gt (det f r) 0 with h0 | h0
    · exact Or.inr (Or.inl ⟨h0, by rw [e1]; exact p1⟩)
    · left
      have := mul_nonneg (sub_nonneg.2 s1) h0.le
      exact ⟨by rw [e1]; exact p1, by rw [e2]; linarith⟩)
  obtain ⟨t1, t10, h1⟩ := corner hp hv hvu d (σ := -1) (by
      have : det r d = - det d r := by unfold det; ring
      rw [← hr, this]; linarith) (by
    intro z hz s μ s0 s1 μ0 hx hy
    apply hs z hz
    refine key _ μ μ0 ?_
    have e1 : μ * det f (vec v z) = (1 - s) * det f r + s * det f d := by
      unfold det
      rw [← hr] at hx hy
      linear_combination - f.x * hy + f.y * hx
    have e2 : μ * det (vec v z) r = s * det d r := by
      unfold det
      rw [← hr] at hx hy
      linear_combination r.x * hy - r.y * hx
    have p1 := mul_pos s0 hA
    have p2 := mul_pos s0 hB
    rcases lt_or_ge (det f r) 0 with h0 | h0
    · exact Or.inr (Or.inr ⟨h0, by rw [e2]; exact p2⟩)
    · left
      have := mul_nonneg (sub_nonneg.2 s1) h0
      exact ⟨by rw [e1]; linarith, by rw [e2]; exact p2⟩)
  refine ⟨⟨v.x + min t1 t2 * d.x, v.y + min t1 t2 * d.y⟩, ?_, h2 _ (lt_min t10 t20) (min_le_right _ _)⟩
  have := (h1 _ (lt_min t10 t20) (min_le_left _ _)).swap
  rw [neg_neg] at this
  exact this

end Clipping

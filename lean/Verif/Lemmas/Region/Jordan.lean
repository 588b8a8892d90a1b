import Verif.Lemmas.Region.Linked

/-!
# The interior and the exterior of a simple contour are connected
-/

namespace Clipping

open Sweep

theorem exists_small {δ M : ℚ} (hδ : 0 < δ) (hM : 0 ≤ M) : ∃ ε, 0 < ε ∧ ε ≤ 1 ∧ ε * M < δ := by
  have h1 : (0 : ℚ) < M + 1 := by linarith
  have h2 : δ / (M + 1) * (M + 1) = δ := div_mul_cancel₀ _ h1.ne'
  have h3 : 0 < δ / (M + 1) := div_pos hδ h1
  refine ⟨min 1 (δ / (M + 1)), lt_min one_pos h3, min_le_left _ _, ?_⟩
  calc min 1 (δ / (M + 1)) * M ≤ δ / (M + 1) * M := mul_le_mul_of_nonneg_right (min_le_right _ _) hM
    _ < δ := by linarith

theorem cross_convex {σ : ℚ} {a b x y r : Point} (hx : 0 < σ * cross a b x) (hy : 0 < σ * cross a b y)
    (hr : r ∈ (Segment.mk x y).pts) : 0 < σ * cross a b r := by
  obtain ⟨t, t0, t1, tx, ty⟩ := hr
  simp only at tx ty
  have e : σ * cross a b r = (1 - t) * (σ * cross a b x) + t * (σ * cross a b y) := by
    unfold cross; rw [tx, ty]; ring
  rw [e]
  rcases t0.eq_or_lt with h | h
  · rw [← h]; simpa using hx
  · have h1 := mul_pos h hy
    have h2 := mul_nonneg (sub_nonneg.2 t1) hx.le
    linarith

theorem clearance_all' {m m' : Point} {E : List Segment} (hp : ∀ e ∈ E, e.Proper)
    (hd : ∀ q ∈ (Segment.mk m m').pts, q ∉ segsPts E) :
    ∃ δ > 0, ∀ r ∈ (Segment.mk m m').pts, ∀ q, Near δ r q → q ∉ segsPts E := by
  by_cases h : m = m'
  · subst h
    obtain ⟨δ, δ0, hδ⟩ := exists_near_off_all hp (hd m (Segment.start_mem _))
    refine ⟨δ, δ0, ?_⟩
    rintro r ⟨t, -, -, tx, ty⟩ q hq
    have : r = m := Point.ext' (by rw [tx]; ring) (by rw [ty]; ring)
    rw [this] at hq
    exact hδ q hq
  · exact clearance_all (s := ⟨m, m'⟩) h hp hd

/-- `m` and the points on the way from `m` to `q` see nothing else. -/
def Side (n : ℕ) (p : ℕ → Point) (D : List Segment) (k : ℕ) (σ : ℚ) (q : Point) : Prop :=
  ∃ m, m ∈ (Segment.mk (p k) (p (k + 1))).pts ∧ ¬ (Segment.mk (p k) (p (k + 1))).IsEnd m ∧
    (∀ r ∈ (Segment.mk m q).pts, r ∈ segsPts (cycEdges p 0 n ++ D) → r = m) ∧ 0 < σ * cross (p k) (p (k + 1)) q

/-- Other segments, which do not meet the curve. -/
structure Obstacles (n : ℕ) (p : ℕ → Point) (D : List Segment) : Prop where
  proper : ∀ e ∈ D, e.Proper
  off : ∀ q ∈ segsPts (cycEdges p 0 n), q ∉ segsPts D

theorem Obstacles.append {n : ℕ} {p : ℕ → Point} {D E : List Segment} (O : Obstacles n p D) (h : ∀ e ∈ E, e.Proper) : ∀ e ∈ E ++ D, e.Proper :=
  fun e he => (List.mem_append.1 he).elim (h e) (O.proper e)

theorem obstacles_nil {n : ℕ} {p : ℕ → Point} : Obstacles n p [] :=
  ⟨by simp, fun q _ ⟨_, h, _⟩ => by simp at h⟩

namespace Cyc

variable {n : ℕ} {p : ℕ → Point} {D : List Segment} (C : Cyc n p)

include C

theorem segs_one (k : ℕ) (q : Point) : q ∈ segsPts (cycEdges p 0 n ++ D) ↔
    q ∈ (Segment.mk (p k) (p (k + 1))).pts ∨ q ∈ segsPts (cycEdges p (k + 1) (n - 1) ++ D) := by
  have : n = (n - 1) + 1 := by have := C.three; omega
  rw [segsPts_append, segsPts_append, ← segsPts_perm (C.rotate k)]
  conv_lhs => rw [this, cycEdges_succ]
  simp only [segsPts_cons, Set.mem_union, or_assoc]

theorem segs_two (k : ℕ) (q : Point) : q ∈ segsPts (cycEdges p 0 n ++ D) ↔
    q ∈ (Segment.mk (p k) (p (k + 1))).pts ∨ q ∈ (Segment.mk (p (k + 1)) (p (k + 2))).pts ∨
      q ∈ segsPts (cycEdges p (k + 2) (n - 2) ++ D) := by
  have : n = (n - 2) + 2 := by have := C.three; omega
  rw [segsPts_append, segsPts_append, ← segsPts_perm (C.rotate k)]
  conv_lhs => rw [this, cycEdges_succ, cycEdges_succ]
  simp only [segsPts_cons, Set.mem_union, or_assoc]

theorem edge_on (k : ℕ) {q : Point} (h : q ∈ (Segment.mk (p k) (p (k + 1))).pts) : q ∈ segsPts (cycEdges p 0 n) := by
  simpa using (C.segs_one (D := []) k q).2 (Or.inl h)

variable (O : Obstacles n p D)

include O

theorem inner_off (k : ℕ) {m : Point} (hm : m ∈ (Segment.mk (p k) (p (k + 1))).pts)
    (hi : ¬ (Segment.mk (p k) (p (k + 1))).IsEnd m) : m ∉ segsPts (cycEdges p (k + 1) (n - 1) ++ D) := by
  rintro ⟨e, he, hme⟩
  rcases List.mem_append.1 he with he | he
  swap
  · exact O.off m (C.edge_on k hm) ⟨e, he, hme⟩
  obtain ⟨i, hi', rfl⟩ := mem_cycEdges.1 he
  refine hi (C.ends k (k + 1 + i) ?_ m hm hme).1
  rw [show k + 1 + i = k + (1 + i) by ring]
  exact not_modEq_add (by omega) (by omega)

omit C O in
theorem side_off {k : ℕ} {σ : ℚ} {q : Point} (h : Side n p D k σ q) : q ∉ segsPts (cycEdges p 0 n ++ D) := by
  obtain ⟨m, hm, hi, hr, hc⟩ := h
  intro hq
  have := hr q (Segment.stop_mem _) hq
  rw [this, mem_cross hm, mul_zero] at hc
  exact lt_irrefl _ hc

/-- Points on the same side of an edge are connected. -/
theorem side_linked {k : ℕ} {σ : ℚ} {q q' : Point} (h : Side n p D k σ q) (h' : Side n p D k σ q') :
    Linked (cycEdges p 0 n ++ D) q q' := by
  obtain ⟨m, hm, hi, hr, hc⟩ := h
  obtain ⟨m', hm', hi', hr', hc'⟩ := h'
  have inn : ∀ z ∈ (Segment.mk m m').pts, z ∈ (Segment.mk (p k) (p (k + 1))).pts ∧
      ¬ (Segment.mk (p k) (p (k + 1))).IsEnd z := by
    intro z hz
    refine ⟨mk_sub hm hm' hz, fun he => ?_⟩
    have := end_between (s := ⟨p k, p (k + 1)⟩) (C.proper k) hm' hi' hm hz he
    rw [this] at he
    exact hi he
  obtain ⟨δ, δ0, hδ⟩ := clearance_all' (O.append (C.all_proper (k + 1) (n - 1))) fun z hz =>
    C.inner_off O k (inn z hz).1 (inn z hz).2
  obtain ⟨ε, ε0, ε1, hε⟩ := exists_small δ0
    (M := |q.x - m.x| + |q.y - m.y| + (|q'.x - m'.x| + |q'.y - m'.y|)) (by positivity)
  have cm := mem_cross hm
  have cm' := mem_cross hm'
  simp only at cm cm'
  -- the beginnings of the ways
  have start : ∀ {x y : Point}, x ∈ (Segment.mk (p k) (p (k + 1))).pts → 0 < σ * cross (p k) (p (k + 1)) y →
      (∀ r ∈ (Segment.mk x y).pts, r ∈ segsPts (cycEdges p 0 n ++ D) → r = x) →
      (⟨x.x + ε * (y.x - x.x), x.y + ε * (y.y - x.y)⟩ : Point) ∈ (Segment.mk x y).pts ∧
      0 < σ * cross (p k) (p (k + 1)) ⟨x.x + ε * (y.x - x.x), x.y + ε * (y.y - x.y)⟩ ∧
      Linked (cycEdges p 0 n ++ D) ⟨x.x + ε * (y.x - x.x), x.y + ε * (y.y - x.y)⟩ y := by
    intro x y hx hy hxy
    have hz : (⟨x.x + ε * (y.x - x.x), x.y + ε * (y.y - x.y)⟩ : Point) ∈ (Segment.mk x y).pts :=
      ⟨ε, ε0.le, ε1, rfl, rfl⟩
    have hcz : 0 < σ * cross (p k) (p (k + 1)) ⟨x.x + ε * (y.x - x.x), x.y + ε * (y.y - x.y)⟩ := by
      have c0 := mem_cross hx
      simp only at c0
      have : σ * cross (p k) (p (k + 1)) ⟨x.x + ε * (y.x - x.x), x.y + ε * (y.y - x.y)⟩ =
          (1 - ε) * (σ * cross (p k) (p (k + 1)) x) + ε * (σ * cross (p k) (p (k + 1)) y) := by
        unfold cross; ring
      rw [this, c0, mul_zero, mul_zero, zero_add]
      exact mul_pos ε0 hy
    refine ⟨hz, hcz, Free.linked fun r hr hs => ?_⟩
    have h1 := hxy r (mk_sub hz (Segment.stop_mem _) hr) hs
    have h2 := cross_convex hcz hy hr
    rw [h1, mem_cross hx, mul_zero] at h2
    exact lt_irrefl _ h2
  obtain ⟨z1, c1, l1⟩ := start hm hc hr
  obtain ⟨z2, c2, l2⟩ := start hm' hc' hr'
  refine l1.symm.trans (Linked.trans (Free.linked ?_) l2)
  intro r hrr hs
  have h2 := cross_convex c1 c2 hrr
  rcases (C.segs_one k r).1 hs with hs | hs
  · rw [mem_cross hs, mul_zero] at h2
    exact lt_irrefl _ h2
  · obtain ⟨t, t0, t1, tx, ty⟩ := hrr
    simp only at tx ty
    refine hδ ⟨m.x + t * (m'.x - m.x), m.y + t * (m'.y - m.y)⟩ ⟨t, t0, t1, rfl, rfl⟩ r ?_ hs
    have bound : ∀ a b M : ℚ, |a| ≤ M → |b| ≤ M → ε * M < δ → |(1 - t) * (ε * a) + t * (ε * b)| < δ := by
      intro a b M ha hb hM
      refine lt_of_le_of_lt ?_ hM
      calc |(1 - t) * (ε * a) + t * (ε * b)| ≤ |(1 - t) * (ε * a)| + |t * (ε * b)| := abs_add_le _ _
        _ = (1 - t) * (ε * |a|) + t * (ε * |b|) := by
          rw [abs_mul, abs_mul, abs_mul, abs_mul, abs_of_nonneg t0, abs_of_nonneg (sub_nonneg.2 t1),
            abs_of_nonneg ε0.le]
        _ ≤ (1 - t) * (ε * M) + t * (ε * M) := by
          have h1 := mul_le_mul_of_nonneg_left (mul_le_mul_of_nonneg_left ha ε0.le) (sub_nonneg.2 t1)
          have h2 := mul_le_mul_of_nonneg_left (mul_le_mul_of_nonneg_left hb ε0.le) t0
          linarith
        _ = ε * M := by ring
    constructor
    · have : r.x - (m.x + t * (m'.x - m.x)) = (1 - t) * (ε * (q.x - m.x)) + t * (ε * (q'.x - m'.x)) := by
        rw [tx]; ring
      simp only
      rw [this]
      refine bound _ _ _ ?_ ?_ hε <;> linarith [abs_nonneg (q.x - m.x), abs_nonneg (q.y - m.y),
        abs_nonneg (q'.x - m'.x), abs_nonneg (q'.y - m'.y)]
    · have : r.y - (m.y + t * (m'.y - m.y)) = (1 - t) * (ε * (q.y - m.y)) + t * (ε * (q'.y - m'.y)) := by
        rw [ty]; ring
      simp only
      rw [this]
      refine bound _ _ _ ?_ ?_ hε <;> linarith [abs_nonneg (q.x - m.x), abs_nonneg (q.y - m.y),
        abs_nonneg (q'.x - m'.x), abs_nonneg (q'.y - m'.y)]

omit O in
/-- no turns by 180 degrees -/
theorem straight (k : ℕ) (hc : ((p (k + 1)).x - (p k).x) * ((p (k + 2)).y - (p (k + 1)).y) -
    ((p (k + 1)).y - (p k).y) * ((p (k + 2)).x - (p (k + 1)).x) = 0) :
    ∃ c > 0, (p (k + 2)).x - (p (k + 1)).x = c * ((p (k + 1)).x - (p k).x) ∧
      (p (k + 2)).y - (p (k + 1)).y = c * ((p (k + 1)).y - (p k).y) := by
  have t := C.turn k
  have n1 := C.proper k
  have n2 := C.proper (k + 1)
  rw [show k + 1 + 1 = k + 2 from rfl] at n2
  set u := p k
  set v := p (k + 1)
  set w := p (k + 2)
  have hc' : cross v u w = 0 := by unfold cross; linear_combination - hc
  have ord : u < v ∧ v < w ∨ v < u ∧ w < v := by
    rcases lt_or_gt_of_ne n1 with h1 | h1 <;> rcases lt_or_gt_of_ne n2 with h2 | h2
    · exact Or.inl ⟨h1, h2⟩
    · exact absurd hc' (t (Or.inl ⟨h1, h2⟩))
    · exact absurd hc' (t (Or.inr ⟨h1, h2⟩))
    · exact Or.inr ⟨h1, h2⟩
  simp only [Point.lt_def] at ord
  by_cases hx : v.x - u.x = 0
  · have hy : v.y - u.y ≠ 0 := fun h => n1 (Point.ext' (by linarith) (by linarith))
    have wx : w.x - v.x = 0 := by
      rw [hx, zero_mul, zero_sub, neg_eq_zero] at hc
      exact (mul_eq_zero.1 hc).resolve_left hy
    refine ⟨(w.y - v.y) / (v.y - u.y), ?_, ?_, (div_mul_cancel₀ _ hy).symm⟩
    · rcases ord with ⟨h1 | h1, h2 | h2⟩ | ⟨h1 | h1, h2 | h2⟩
      · linarith
      · linarith
      · linarith
      · exact div_pos (by linarith [h2.2]) (by linarith [h1.2])
      · linarith
      · linarith
      · linarith
      · exact div_pos_of_neg_of_neg (by linarith [h2.2]) (by linarith [h1.2])
    · rw [hx, wx, mul_zero]
  · have e := div_mul_cancel₀ (w.x - v.x) hx
    refine ⟨(w.x - v.x) / (v.x - u.x), ?_, e.symm, ?_⟩
    · have wx : w.x - v.x ≠ 0 := by
        intro h
        rw [h, mul_zero, sub_zero] at hc
        have := (mul_eq_zero.1 hc).resolve_left hx
        exact n2 (Point.ext' (by linarith) (by linarith))
      rcases ord with ⟨h1 | h1, h2 | h2⟩ | ⟨h1 | h1, h2 | h2⟩
      · exact div_pos (by linarith) (by linarith)
      · exact absurd (by linarith [h2.1]) wx
      · exact absurd (by linarith [h1.1]) hx
      · exact absurd (by linarith [h1.1]) hx
      · exact div_pos_of_neg_of_neg (by linarith) (by linarith)
      · exact absurd (by linarith [h2.1]) wx
      · exact absurd (by linarith [h1.1]) hx
      · exact absurd (by linarith [h1.1]) hx
    · apply mul_left_cancel₀ hx
      linear_combination hc - (v.y - u.y) * e

/-- neighbourhood of a vertex -/
theorem vertex_near (k : ℕ) : ∃ δ > 0, ∀ q, Near δ (p (k + 1)) q → q ∈ segsPts (cycEdges p 0 n ++ D) →
    q ∈ (Segment.mk (p k) (p (k + 1))).pts ∨ q ∈ (Segment.mk (p (k + 1)) (p (k + 2))).pts := by
  obtain ⟨δ, δ0, hδ⟩ := exists_near_off_all (m := p (k + 1)) (O.append (C.all_proper (k + 2) (n - 2))) (by
    rw [segsPts_append]
    rintro (h | h)
    · exact C.off k (l := n - 2) (by have := C.three; omega) h
    · exact O.off _ (C.edge_on k (Segment.stop_mem _)) h)
  refine ⟨δ, δ0, ?_⟩
  intro q hq hs
  rcases (C.segs_two k q).1 hs with h | h | h
  · exact Or.inl h
  · exact Or.inr h
  · exact absurd h (hδ q hq)

/-- Directions from a vertex which see the preceding edge. -/
theorem corner_before (k : ℕ) (d : Point) {σ : ℚ}
    (hσ : 0 < σ * (((p (k + 1)).x - (p k).x) * d.y - ((p (k + 1)).y - (p k).y) * d.x))
    (hH : ∀ s μ : ℚ, 0 < s → s ≤ 1 → 0 ≤ μ →
      (s - 1) * ((p (k + 1)).x - (p k).x) + s * d.x = μ * ((p (k + 2)).x - (p (k + 1)).x) →
      (s - 1) * ((p (k + 1)).y - (p k).y) + s * d.y ≠ μ * ((p (k + 2)).y - (p (k + 1)).y)) :
    ∃ t₀ > 0, ∀ t, 0 < t → t ≤ t₀ → Side n p D k σ ⟨(p (k + 1)).x + t * d.x, (p (k + 1)).y + t * d.y⟩ := by
  obtain ⟨δ, δ0, hδ⟩ := C.vertex_near O k
  have n1 := C.proper k
  set u := p k
  set v := p (k + 1)
  set w := p (k + 2)
  set a : Point := ⟨v.x - u.x, v.y - u.y⟩ with ha
  obtain ⟨ε, ε0, ε1, hε⟩ := exists_small δ0 (M := |a.x| + |a.y| + (|d.x| + |d.y|)) (by positivity)
  refine ⟨ε / 2, by linarith, ?_⟩
  intro t t0 t1
  have n1' : a.x ≠ 0 ∨ a.y ≠ 0 := by
    by_contra h
    push Not at h
    exact n1 (Point.ext' (by simp only [ha] at h; linarith [h.1]) (by simp only [ha] at h; linarith [h.2]))
  set m : Point := ⟨v.x - t * a.x, v.y - t * a.y⟩ with hm
  have hmv : m ≠ v := by
    intro h
    have h1 : t * a.x = 0 := by have := congrArg Point.x h; simp only [hm] at this; linarith
    have h2 : t * a.y = 0 := by have := congrArg Point.y h; simp only [hm] at this; linarith
    rcases n1' with h' | h'
    · exact h' ((mul_eq_zero.1 h1).resolve_left t0.ne')
    · exact h' ((mul_eq_zero.1 h2).resolve_left t0.ne')
  have hmu : m ≠ u := by
    intro h
    have h1 : (1 - t) * a.x = 0 := by have := congrArg Point.x h; simp only [hm, ha] at this ⊢; linarith
    have h2 : (1 - t) * a.y = 0 := by have := congrArg Point.y h; simp only [hm, ha] at this ⊢; linarith
    have ht : 1 - t ≠ 0 := by linarith
    rcases n1' with h' | h'
    · exact h' ((mul_eq_zero.1 h1).resolve_left ht)
    · exact h' ((mul_eq_zero.1 h2).resolve_left ht)
  refine ⟨m, ⟨1 - t, by linarith, by linarith, ?_, ?_⟩, ?_, ?_, ?_⟩
  · simp only [hm, ha]; ring
  · simp only [hm, ha]; ring
  · rintro (h | h)
    · exact hmu h
    · exact hmv h
  · rintro r ⟨s, s0, s1, sx, sy⟩ hs
    simp only [hm] at sx sy
    by_contra hne
    have s0' : 0 < s := by
      refine lt_of_le_of_ne s0 fun h => hne (Point.ext' ?_ ?_)
      · rw [sx, ← h]; ring
      · rw [sy, ← h]; ring
    have near : Near δ v r := by
      have bound : ∀ a d M : ℚ, |a| ≤ M → |d| ≤ M → ε * M < δ → |t * ((s - 1) * a + s * d)| < δ := by
        intro a d M h1 h2 h3
        have M0 : 0 ≤ M := (abs_nonneg a).trans h1
        refine lt_of_le_of_lt ?_ h3
        have e1 : |(s - 1) * a + s * d| ≤ (1 - s) * M + s * M := by
          refine (abs_add_le _ _).trans ?_
          rw [abs_mul, abs_mul, abs_of_nonneg s0, abs_of_nonpos (by linarith : s - 1 ≤ 0)]
          have := mul_le_mul_of_nonneg_left h1 (sub_nonneg.2 s1)
          have := mul_le_mul_of_nonneg_left h2 s0
          linarith
        rw [abs_mul, abs_of_pos t0]
        have e2 : (1 - s) * M + s * M = M := by ring
        rw [e2] at e1
        calc t * |(s - 1) * a + s * d| ≤ t * M := mul_le_mul_of_nonneg_left e1 t0.le
          _ ≤ ε * M := mul_le_mul_of_nonneg_right (by linarith) M0
      constructor
      · rw [show r.x - v.x = t * ((s - 1) * a.x + s * d.x) by rw [sx]; ring]
        refine bound _ _ _ ?_ ?_ hε <;> linarith [abs_nonneg a.x, abs_nonneg a.y, abs_nonneg d.x, abs_nonneg d.y]
      · rw [show r.y - v.y = t * ((s - 1) * a.y + s * d.y) by rw [sy]; ring]
        refine bound _ _ _ ?_ ?_ hε <;> linarith [abs_nonneg a.x, abs_nonneg a.y, abs_nonneg d.x, abs_nonneg d.y]
    rcases hδ r near hs with h | h
    · have := mem_cross h
      have e : σ * cross u v r = t * (s * (σ * ((v.x - u.x) * d.y - (v.y - u.y) * d.x))) := by
        unfold cross; rw [sx, sy]; simp only [ha]; ring
      simp only at this
      rw [this, mul_zero] at e
      have := mul_pos t0 (mul_pos s0' hσ)
      linarith
    · obtain ⟨μ, μ0, -, μx, μy⟩ := h
      simp only at μx μy
      refine hH s (μ / t) s0' s1 (div_nonneg μ0 t0.le) ?_ ?_
      · have := div_mul_cancel₀ μ t0.ne'
        apply mul_left_cancel₀ t0.ne'
        simp only [ha] at sx
        linear_combination μx - sx - (w.x - v.x) * this
      · have := div_mul_cancel₀ μ t0.ne'
        apply mul_left_cancel₀ t0.ne'
        simp only [ha] at sy
        linear_combination μy - sy - (w.y - v.y) * this
  · have e : σ * cross u v ⟨v.x + t * d.x, v.y + t * d.y⟩ = t * (σ * ((v.x - u.x) * d.y - (v.y - u.y) * d.x)) := by
      unfold cross; ring
    rw [e]
    exact mul_pos t0 hσ

/-- Directions from a vertex which see the following edge. -/
theorem corner_after (k : ℕ) (d : Point) {σ : ℚ}
    (hσ : 0 < σ * (((p (k + 2)).x - (p (k + 1)).x) * d.y - ((p (k + 2)).y - (p (k + 1)).y) * d.x))
    (hH : ∀ s μ : ℚ, 0 < s → s ≤ 1 → 0 ≤ μ →
      (1 - s) * ((p (k + 2)).x - (p (k + 1)).x) + s * d.x = - μ * ((p (k + 1)).x - (p k).x) →
      (1 - s) * ((p (k + 2)).y - (p (k + 1)).y) + s * d.y ≠ - μ * ((p (k + 1)).y - (p k).y)) :
    ∃ t₀ > 0, ∀ t, 0 < t → t ≤ t₀ → Side n p D (k + 1) σ ⟨(p (k + 1)).x + t * d.x, (p (k + 1)).y + t * d.y⟩ := by
  obtain ⟨δ, δ0, hδ⟩ := C.vertex_near O k
  have n1 := C.proper (k + 1)
  unfold Side
  rw [show k + 1 + 1 = k + 2 from rfl] at n1 ⊢
  set u := p k
  set v := p (k + 1)
  set w := p (k + 2)
  set b : Point := ⟨w.x - v.x, w.y - v.y⟩ with hb
  obtain ⟨ε, ε0, ε1, hε⟩ := exists_small δ0 (M := |b.x| + |b.y| + (|d.x| + |d.y|)) (by positivity)
  refine ⟨ε / 2, by linarith, ?_⟩
  intro t t0 t1
  have n1' : b.x ≠ 0 ∨ b.y ≠ 0 := by
    by_contra h
    push Not at h
    exact n1 (Point.ext' (by simp only [hb] at h; linarith [h.1]) (by simp only [hb] at h; linarith [h.2]))
  set m : Point := ⟨v.x + t * b.x, v.y + t * b.y⟩ with hm
  have hmv : m ≠ v := by
    intro h
    have h1 : t * b.x = 0 := by have := congrArg Point.x h; simp only [hm] at this; linarith
    have h2 : t * b.y = 0 := by have := congrArg Point.y h; simp only [hm] at this; linarith
    rcases n1' with h' | h'
    · exact h' ((mul_eq_zero.1 h1).resolve_left t0.ne')
    · exact h' ((mul_eq_zero.1 h2).resolve_left t0.ne')
  have hmw : m ≠ w := by
    intro h
    have h1 : (1 - t) * b.x = 0 := by have := congrArg Point.x h; simp only [hm, hb] at this ⊢; linarith
    have h2 : (1 - t) * b.y = 0 := by have := congrArg Point.y h; simp only [hm, hb] at this ⊢; linarith
    have ht : 1 - t ≠ 0 := by linarith
    rcases n1' with h' | h'
    · exact h' ((mul_eq_zero.1 h1).resolve_left ht)
    · exact h' ((mul_eq_zero.1 h2).resolve_left ht)
  refine ⟨m, ⟨t, by linarith, by linarith, ?_, ?_⟩, ?_, ?_, ?_⟩
  · simp only [hm, hb]
  · simp only [hm, hb]
  · rintro (h | h)
    · exact hmv h
    · exact hmw h
  · rintro r ⟨s, s0, s1, sx, sy⟩ hs
    simp only [hm] at sx sy
    by_contra hne
    have s0' : 0 < s := by
      refine lt_of_le_of_ne s0 fun h => hne (Point.ext' ?_ ?_)
      · rw [sx, ← h]; ring
      · rw [sy, ← h]; ring
    have near : Near δ v r := by
      have bound : ∀ a d M : ℚ, |a| ≤ M → |d| ≤ M → ε * M < δ → |t * ((1 - s) * a + s * d)| < δ := by
        intro a d M h1 h2 h3
        have M0 : 0 ≤ M := (abs_nonneg a).trans h1
        refine lt_of_le_of_lt ?_ h3
        have e1 : |(1 - s) * a + s * d| ≤ (1 - s) * M + s * M := by
          refine (abs_add_le _ _).trans ?_
          rw [abs_mul, abs_mul, abs_of_nonneg s0, abs_of_nonneg (by linarith : 0 ≤ 1 - s)]
          have := mul_le_mul_of_nonneg_left h1 (sub_nonneg.2 s1)
          have := mul_le_mul_of_nonneg_left h2 s0
          linarith
        rw [abs_mul, abs_of_pos t0]
        have e2 : (1 - s) * M + s * M = M := by ring
        rw [e2] at e1
        calc t * |(1 - s) * a + s * d| ≤ t * M := mul_le_mul_of_nonneg_left e1 t0.le
          _ ≤ ε * M := mul_le_mul_of_nonneg_right (by linarith) M0
      constructor
      · rw [show r.x - v.x = t * ((1 - s) * b.x + s * d.x) by rw [sx]; ring]
        refine bound _ _ _ ?_ ?_ hε <;> linarith [abs_nonneg b.x, abs_nonneg b.y, abs_nonneg d.x, abs_nonneg d.y]
      · rw [show r.y - v.y = t * ((1 - s) * b.y + s * d.y) by rw [sy]; ring]
        refine bound _ _ _ ?_ ?_ hε <;> linarith [abs_nonneg b.x, abs_nonneg b.y, abs_nonneg d.x, abs_nonneg d.y]
    rcases hδ r near hs with h | h
    · obtain ⟨μ, -, μ1, μx, μy⟩ := h
      simp only at μx μy
      refine hH s ((1 - μ) / t) s0' s1 (div_nonneg (by linarith) t0.le) ?_ ?_
      · have := div_mul_cancel₀ (1 - μ) t0.ne'
        apply mul_left_cancel₀ t0.ne'
        simp only [hb] at sx
        linear_combination μx - sx + (v.x - u.x) * this
      · have := div_mul_cancel₀ (1 - μ) t0.ne'
        apply mul_left_cancel₀ t0.ne'
        simp only [hb] at sy
        linear_combination μy - sy + (v.y - u.y) * this
    · have := mem_cross h
      have e : σ * cross v w r = t * (s * (σ * ((w.x - v.x) * d.y - (w.y - v.y) * d.x))) := by
        unfold cross; rw [sx, sy]; simp only [hb]; ring
      simp only at this
      rw [this, mul_zero] at e
      have := mul_pos t0 (mul_pos s0' hσ)
      linarith
  · have e : σ * cross v w ⟨v.x + t * d.x, v.y + t * d.y⟩ = t * (σ * ((w.x - v.x) * d.y - (w.y - v.y) * d.x)) := by
      unfold cross; ring
    rw [e]
    exact mul_pos t0 hσ

/-- The same side of two consecutive edges. -/
theorem side_succ (k : ℕ) {σ : ℚ} (hσ : σ = 1 ∨ σ = -1) : ∃ q, Side n p D k σ q ∧ Side n p D (k + 1) σ q := by
  have st := C.straight k
  have n1 := C.proper k
  -- a direction on this side of both edges
  obtain ⟨d, hA, hB⟩ : ∃ d : Point,
      0 < σ * (((p (k + 1)).x - (p k).x) * d.y - ((p (k + 1)).y - (p k).y) * d.x) ∧
      0 < σ * (((p (k + 2)).x - (p (k + 1)).x) * d.y - ((p (k + 2)).y - (p (k + 1)).y) * d.x) := by
    set u := p k
    set v := p (k + 1)
    set w := p (k + 2)
    by_cases hκ : (v.x - u.x) * (w.y - v.y) - (v.y - u.y) * (w.x - v.x) = 0
    · obtain ⟨c, c0, cx, cy⟩ := st hκ
      have pos : 0 < (v.x - u.x) * (v.x - u.x) + (v.y - u.y) * (v.y - u.y) := by
        rcases eq_or_ne (v.x - u.x) 0 with h | h
        · rcases eq_or_ne (v.y - u.y) 0 with h' | h'
          · exact absurd (Point.ext' (by linarith) (by linarith)) n1
          · rw [h]; have := mul_self_pos.2 h'; linarith
        · have := mul_self_pos.2 h
          have := mul_self_nonneg (v.y - u.y)
          linarith
      have s2 : σ * σ = 1 := by rcases hσ with h | h <;> rw [h] <;> norm_num
      refine ⟨⟨- σ * (v.y - u.y), σ * (v.x - u.x)⟩, ?_, ?_⟩
      · have : σ * ((v.x - u.x) * (σ * (v.x - u.x)) - (v.y - u.y) * (- σ * (v.y - u.y))) =
            (σ * σ) * ((v.x - u.x) * (v.x - u.x) + (v.y - u.y) * (v.y - u.y)) := by ring
        simp only
        rw [this, s2, one_mul]
        exact pos
      · have : σ * ((w.x - v.x) * (σ * (v.x - u.x)) - (w.y - v.y) * (- σ * (v.y - u.y))) =
            (σ * σ) * (c * ((v.x - u.x) * (v.x - u.x) + (v.y - u.y) * (v.y - u.y))) := by rw [cx, cy]; ring
        simp only
        rw [this, s2, one_mul]
        exact mul_pos c0 pos
    · rcases lt_or_gt_of_ne (show σ * ((v.x - u.x) * (w.y - v.y) - (v.y - u.y) * (w.x - v.x)) ≠ 0 from
        mul_ne_zero (by rcases hσ with h | h <;> rw [h] <;> norm_num) hκ) with h | h
      · refine ⟨⟨(v.x - u.x) - (w.x - v.x), (v.y - u.y) - (w.y - v.y)⟩, ?_, ?_⟩ <;> simp only <;> linarith
      · refine ⟨⟨(w.x - v.x) - (v.x - u.x), (w.y - v.y) - (v.y - u.y)⟩, ?_, ?_⟩ <;> simp only <;> linarith
  have impossible : ∀ s μ κ A B : ℚ, 0 < s → s ≤ 1 → 0 ≤ μ → 0 < σ * A → 0 < σ * B → (1 - s) * κ + s * B = 0 →
      s * A = μ * κ → False := by
    intro s μ κ A B s0 s1 μ0 hA hB h1 h2
    have k1 := mul_pos s0 hA
    have k2 := mul_pos s0 hB
    have e1 : s * (σ * A) = μ * (σ * κ) := by linear_combination σ * h2
    have e2 : (1 - s) * (σ * κ) = - (s * (σ * B)) := by linear_combination σ * h1
    rcases le_or_gt (σ * κ) 0 with h | h
    · have := mul_nonpos_of_nonneg_of_nonpos μ0 h
      linarith
    · have := mul_nonneg (sub_nonneg.2 s1) h.le
      linarith
  obtain ⟨t1, t10, h1⟩ := C.corner_before O k d hA (by
    intro s μ s0 s1 μ0 hx hy
    refine impossible s μ (((p (k + 1)).x - (p k).x) * ((p (k + 2)).y - (p (k + 1)).y) -
      ((p (k + 1)).y - (p k).y) * ((p (k + 2)).x - (p (k + 1)).x)) _ _ s0 s1 μ0 hA hB ?_ ?_
    · linear_combination ((p (k + 2)).x - (p (k + 1)).x) * hy - ((p (k + 2)).y - (p (k + 1)).y) * hx
    · linear_combination ((p (k + 1)).x - (p k).x) * hy - ((p (k + 1)).y - (p k).y) * hx)
  obtain ⟨t2, t20, h2⟩ := C.corner_after O k d hB (by
    intro s μ s0 s1 μ0 hx hy
    refine impossible s μ (((p (k + 1)).x - (p k).x) * ((p (k + 2)).y - (p (k + 1)).y) -
      ((p (k + 1)).y - (p k).y) * ((p (k + 2)).x - (p (k + 1)).x)) _ _ s0 s1 μ0 hB hA ?_ ?_
    · linear_combination ((p (k + 1)).x - (p k).x) * hy - ((p (k + 1)).y - (p k).y) * hx
    · linear_combination ((p (k + 2)).x - (p (k + 1)).x) * hy - ((p (k + 2)).y - (p (k + 1)).y) * hx)
  exact ⟨_, h1 (min t1 t2) (lt_min t10 t20) (min_le_left _ _), h2 (min t1 t2) (lt_min t10 t20) (min_le_right _ _)⟩

/-- All points on the same side of the curve are connected. -/
theorem side_all {σ : ℚ} (hσ : σ = 1 ∨ σ = -1) (k : ℕ) {q q' : Point} (h : Side n p D 0 σ q) (h' : Side n p D k σ q') :
    Linked (cycEdges p 0 n ++ D) q q' := by
  induction k generalizing q' with
  | zero => exact C.side_linked O h h'
  | succ k ih =>
    obtain ⟨x, hx, hx'⟩ := C.side_succ O k hσ
    exact (ih hx).trans (C.side_linked O hx' h')

/-- Every point from which a point of the curve is seen is connected with a side of an edge. -/
theorem reach {q m : Point} (hq : q ∉ segsPts (cycEdges p 0 n)) (hm : m ∈ segsPts (cycEdges p 0 n)) (hf : Free D q m) :
    ∃ k σ, (σ = 1 ∨ σ = -1) ∧ ∃ q', Side n p D k σ q' ∧ Linked (cycEdges p 0 n ++ D) q q' := by
  obtain ⟨w, hw, hwm, hwr⟩ := first_hit (C.all_proper 0 n) (q := q) (m := m) hq
  have hws : w ∈ segsPts (cycEdges p 0 n) := by
    rcases hwm with rfl | h
    · exact hm
    · exact h
  have hwr' : ∀ r ∈ (Segment.mk w q).pts, r ∈ segsPts (cycEdges p 0 n ++ D) → r = w := by
    intro r hr hs
    rw [Segment.pts_swap] at hr
    rw [segsPts_append] at hs
    exact hs.elim (hwr r hr) fun hs => absurd hs (hf.sub hw r hr)
  have hqw : q ≠ w := fun h => hq (h ▸ hws)
  obtain ⟨e, he, hwe⟩ := hws
  obtain ⟨k, hk, rfl⟩ := mem_cycEdges.1 he
  rw [Nat.zero_add] at hwe
  have sign : ∀ x : ℚ, x ≠ 0 → ∃ σ : ℚ, (σ = 1 ∨ σ = -1) ∧ 0 < σ * x := by
    intro x hx
    rcases lt_or_gt_of_ne hx with h | h
    · exact ⟨-1, Or.inr rfl, by linarith⟩
    · exact ⟨1, Or.inl rfl, by linarith⟩
  by_cases hend : (Segment.mk (p k) (p (k + 1))).IsEnd w
  · -- a vertex
    obtain ⟨k, hwk⟩ : ∃ k, w = p (k + 1) := by
      rcases hend with h | h
      · refine ⟨k + n - 1, ?_⟩
        have : k + n - 1 + 1 = k + n := by have := C.three; omega
        rw [this, C.period]; exact h
      · exact ⟨k, h⟩
    have onPath : ∀ s : ℚ, 0 < s → s ≤ 1 →
        (⟨w.x + s * (q.x - w.x), w.y + s * (q.y - w.y)⟩ : Point) ∉ segsPts (cycEdges p 0 n ++ D) := by
      intro s s0 s1 hs
      have := hwr' _ ⟨s, s0.le, s1, rfl, rfl⟩ hs
      apply hqw
      have hx := congrArg Point.x this
      have hy := congrArg Point.y this
      simp only at hx hy
      have hx : s * (q.x - w.x) = 0 := by linarith
      have hy : s * (q.y - w.y) = 0 := by linarith
      have hx := (mul_eq_zero.1 hx).resolve_left s0.ne'
      have hy := (mul_eq_zero.1 hy).resolve_left s0.ne'
      exact Point.ext' (by linarith) (by linarith)
    have st := C.straight k
    have n1 := C.proper k
    have n2 := C.proper (k + 1)
    rw [show k + 1 + 1 = k + 2 from rfl] at n2
    have cb := fun {σ} => C.corner_before O k ⟨q.x - w.x, q.y - w.y⟩ (σ := σ)
    have ca := fun {σ} => C.corner_after O k ⟨q.x - w.x, q.y - w.y⟩ (σ := σ)
    have s2 := C.segs_two (D := D) k
    -- not along the edges
    have na : ∀ μ : ℚ, 0 ≤ μ → q.x - w.x = - μ * ((p (k + 1)).x - (p k).x) →
        q.y - w.y ≠ - μ * ((p (k + 1)).y - (p k).y) := by
      intro μ μ0 hx hy
      obtain ⟨ε, ε0, ε1, hε⟩ := exists_small one_pos μ0
      refine onPath ε ε0 ε1 ((s2 _).2 (Or.inl ⟨1 - ε * μ, by linarith, ?_, ?_, ?_⟩))
      · have := mul_nonneg ε0.le μ0; linarith
      · simp only; rw [hx, hwk]; ring
      · simp only; rw [hy, hwk]; ring
    have nb : ∀ μ : ℚ, 0 ≤ μ → q.x - w.x = μ * ((p (k + 2)).x - (p (k + 1)).x) →
        q.y - w.y ≠ μ * ((p (k + 2)).y - (p (k + 1)).y) := by
      intro μ μ0 hx hy
      obtain ⟨ε, ε0, ε1, hε⟩ := exists_small one_pos μ0
      refine onPath ε ε0 ε1 ((s2 _).2 (Or.inr (Or.inl ⟨ε * μ, mul_nonneg ε0.le μ0, hε.le, ?_, ?_⟩)))
      · simp only; rw [hx, hwk]; ring
      · simp only; rw [hy, hwk]; ring
    have finish : ∀ j σ, (σ = 1 ∨ σ = -1) → (∃ t₀ > 0, ∀ t, 0 < t → t ≤ t₀ →
        Side n p D j σ ⟨(p (k + 1)).x + t * (q.x - w.x), (p (k + 1)).y + t * (q.y - w.y)⟩) →
        ∃ k σ, (σ = 1 ∨ σ = -1) ∧ ∃ q', Side n p D k σ q' ∧ Linked (cycEdges p 0 n ++ D) q q' := by
      rintro j σ hσ ⟨t₀, t00, ht⟩
      have tp : 0 < min t₀ 1 := lt_min t00 one_pos
      refine ⟨j, σ, hσ, _, ht (min t₀ 1) tp (min_le_left _ _), Free.linked ?_⟩
      rintro r ⟨s, s0, s1, sx, sy⟩ hs
      simp only at sx sy
      have h1 : 0 < 1 - s + s * min t₀ 1 := by
        rcases s0.eq_or_lt with h | h
        · rw [← h]; norm_num
        · have := mul_pos h tp; linarith
      have h2 : 1 - s + s * min t₀ 1 ≤ 1 := by
        have := mul_le_mul_of_nonneg_left (min_le_right t₀ 1) s0
        linarith
      refine onPath _ h1 h2 ?_
      have : (⟨w.x + (1 - s + s * min t₀ 1) * (q.x - w.x), w.y + (1 - s + s * min t₀ 1) * (q.y - w.y)⟩ : Point) =
          r := by
        refine Point.ext' ?_ ?_
        · simp only; rw [sx, ← hwk]; ring
        · simp only; rw [sy, ← hwk]; ring
      rw [this]; exact hs
    set u := p k
    set v := p (k + 1)
    set z := p (k + 2)
    set dx := q.x - w.x
    set dy := q.y - w.y
    set κ := (v.x - u.x) * (z.y - v.y) - (v.y - u.y) * (z.x - v.x) with hκ
    set A := (v.x - u.x) * dy - (v.y - u.y) * dx with hA
    set B := (z.x - v.x) * dy - (z.y - v.y) * dx with hB
    -- does the following edge hide the preceding one?
    by_cases hide : A ≠ 0 ∧ ∀ s μ : ℚ, 0 < s → s ≤ 1 → 0 ≤ μ →
        (s - 1) * (v.x - u.x) + s * dx = μ * (z.x - v.x) → (s - 1) * (v.y - u.y) + s * dy ≠ μ * (z.y - v.y)
    · obtain ⟨σ, hσ, hs⟩ := sign A hide.1
      exact finish k σ hσ (cb hs hide.2)
    · -- then the following edge is seen
      have seen : B ≠ 0 ∧ ∀ s μ : ℚ, 0 < s → s ≤ 1 → 0 ≤ μ →
          (1 - s) * (z.x - v.x) + s * dx = - μ * (v.x - u.x) → (1 - s) * (z.y - v.y) + s * dy ≠ - μ * (v.y - u.y) := by
        by_cases hA0 : A = 0
        · have hκ0 : κ ≠ 0 := by
            intro h0
            obtain ⟨c, c0, cx, cy⟩ := st h0
            -- `q` is on the line of both edges
            have : ∃ l : ℚ, dx = l * (v.x - u.x) ∧ dy = l * (v.y - u.y) := by
              by_cases hx : v.x - u.x = 0
              · have hy : v.y - u.y ≠ 0 := fun h => n1 (Point.ext' (by linarith) (by linarith))
                refine ⟨dy / (v.y - u.y), ?_, (div_mul_cancel₀ _ hy).symm⟩
                rw [hA, hx, zero_mul, zero_sub, neg_eq_zero] at hA0
                rw [hx, mul_zero]
                exact (mul_eq_zero.1 hA0).resolve_left hy
              · refine ⟨dx / (v.x - u.x), (div_mul_cancel₀ _ hx).symm, ?_⟩
                have := div_mul_cancel₀ dx hx
                apply mul_left_cancel₀ hx
                linear_combination hA0 - (v.y - u.y) * this
            obtain ⟨l, lx, ly⟩ := this
            rcases le_total l 0 with h | h
            · exact na (-l) (by linarith) (by rw [lx]; ring) (by rw [ly]; ring)
            · refine nb (l / c) (div_nonneg h c0.le) ?_ ?_
              · rw [cx, ← mul_assoc, div_mul_cancel₀ _ c0.ne']; exact lx
              · rw [cy, ← mul_assoc, div_mul_cancel₀ _ c0.ne']; exact ly
          have hdir : ∃ l : ℚ, dx = l * (v.x - u.x) ∧ dy = l * (v.y - u.y) := by
            by_cases hx : v.x - u.x = 0
            · have hy : v.y - u.y ≠ 0 := fun h => n1 (Point.ext' (by linarith) (by linarith))
              refine ⟨dy / (v.y - u.y), ?_, (div_mul_cancel₀ _ hy).symm⟩
              rw [hA, hx, zero_mul, zero_sub, neg_eq_zero] at hA0
              rw [hx, mul_zero]
              exact (mul_eq_zero.1 hA0).resolve_left hy
            · refine ⟨dx / (v.x - u.x), (div_mul_cancel₀ _ hx).symm, ?_⟩
              have := div_mul_cancel₀ dx hx
              apply mul_left_cancel₀ hx
              linear_combination hA0 - (v.y - u.y) * this
          obtain ⟨l, lx, ly⟩ := hdir
          have l0 : 0 < l := by
            by_contra h
            push Not at h
            exact na (-l) (by linarith) (by rw [lx]; ring) (by rw [ly]; ring)
          constructor
          · have : B = - l * κ := by rw [hB, hκ, lx, ly]; ring
            rw [this]
            exact mul_ne_zero (by linarith) hκ0
          · intro s μ s0 s1 μ0 hx hy
            have e : (1 - s) * κ = 0 := by
              rw [hκ]
              rw [lx] at hx
              rw [ly] at hy
              linear_combination (v.x - u.x) * hy - (v.y - u.y) * hx
            have s1' : s = 1 := by
              have := (mul_eq_zero.1 e).resolve_right hκ0
              linarith
            rw [s1'] at hx hy
            exact na μ μ0 (by linarith) (by linarith)
        · push Not at hide
          obtain ⟨s, μ, s0, s1, μ0, hx, hy⟩ := hide hA0
          have e1 : (1 - s) * κ + s * B = 0 := by
            rw [hκ, hB]; linear_combination (z.x - v.x) * hy - (z.y - v.y) * hx
          have e2 : s * A = μ * κ := by
            rw [hκ, hA]; linear_combination (v.x - u.x) * hy - (v.y - u.y) * hx
          have hκ0 : κ ≠ 0 := by
            intro h; rw [h, mul_zero] at e2
            exact (mul_ne_zero s0.ne' hA0) e2
          have s1' : s < 1 := by
            refine lt_of_le_of_ne s1 fun h => ?_
            rw [h] at hx hy
            exact nb μ μ0 (by linarith) (by linarith)
          constructor
          · intro hB0
            rw [hB0, mul_zero, add_zero] at e1
            exact (mul_ne_zero (by linarith : (1 : ℚ) - s ≠ 0) hκ0) e1
          · intro s' μ' s0' s1'' μ0' hx' hy'
            have e3 : (1 - s') * κ + s' * A = 0 := by
              rw [hκ, hA]; linear_combination (v.x - u.x) * hy' - (v.y - u.y) * hx'
            have k1 : 0 ≤ A * κ := by
              have : s * (A * κ) = μ * (κ * κ) := by linear_combination κ * e2
              by_contra hn
              push Not at hn
              have := mul_neg_of_pos_of_neg s0 hn
              have := mul_nonneg μ0 (mul_self_nonneg κ)
              linarith
            have k2 : (1 - s') * (κ * κ) + s' * (A * κ) = 0 := by linear_combination κ * e3
            have k3 := mul_nonneg (sub_nonneg.2 s1'') (mul_self_nonneg κ)
            have k4 := mul_nonneg s0'.le k1
            have k5 : s' * (A * κ) = 0 := by linarith
            exact (mul_ne_zero s0'.ne' (mul_ne_zero hA0 hκ0)) k5
      obtain ⟨σ, hσ, hs⟩ := sign B seen.1
      exact finish (k + 1) σ hσ (ca hs seen.2)
  · -- an inner point of an edge
    have hc : cross (p k) (p (k + 1)) q ≠ 0 := by
      intro hc
      have hp := C.proper k
      obtain ⟨x, x0, x1, xx, xy⟩ := hwe
      simp only at xx xy
      have x0' : 0 < x := by
        refine lt_of_le_of_ne x0 fun h => hend (Or.inl (Point.ext' ?_ ?_))
        · simp only; rw [xx, ← h]; ring
        · simp only; rw [xy, ← h]; ring
      have x1' : x < 1 := by
        refine lt_of_le_of_ne x1 fun h => hend (Or.inr (Point.ext' ?_ ?_))
        · simp only; rw [xx, h]; ring
        · simp only; rw [xy, h]; ring
      have : ∃ f : ℚ, q.x = (p k).x + f * ((p (k + 1)).x - (p k).x) ∧
          q.y = (p k).y + f * ((p (k + 1)).y - (p k).y) := by
        unfold cross at hc
        by_cases hx : (p (k + 1)).x - (p k).x = 0
        · have hy : (p (k + 1)).y - (p k).y ≠ 0 := fun h => hp (Point.ext' (by linarith) (by linarith))
          refine ⟨(q.y - (p k).y) / ((p (k + 1)).y - (p k).y), ?_, ?_⟩
          · rw [hx, zero_mul, zero_sub, neg_eq_zero] at hc
            have := (mul_eq_zero.1 hc).resolve_left hy
            rw [hx, mul_zero]; linarith
          · rw [div_mul_cancel₀ _ hy]; ring
        · refine ⟨(q.x - (p k).x) / ((p (k + 1)).x - (p k).x), ?_, ?_⟩
          · rw [div_mul_cancel₀ _ hx]; ring
          · have := div_mul_cancel₀ (q.x - (p k).x) hx
            apply mul_left_cancel₀ hx
            linear_combination hc - ((p (k + 1)).y - (p k).y) * this
      obtain ⟨f, fx, fy⟩ := this
      obtain ⟨ε, ε0, ε1, hε⟩ := exists_small (lt_min x0' (sub_pos.2 x1')) (abs_nonneg (f - x))
      have b1 := neg_abs_le (f - x)
      have b2 := le_abs_self (f - x)
      have b3 := mul_le_mul_of_nonneg_left b1 ε0.le
      have b4 := mul_le_mul_of_nonneg_left b2 ε0.le
      have b5 := hε.trans_le (min_le_left _ _)
      have b6 := hε.trans_le (min_le_right _ _)
      have := hwr' ⟨w.x + ε * (q.x - w.x), w.y + ε * (q.y - w.y)⟩ ⟨ε, ε0.le, ε1, rfl, rfl⟩
        ((C.segs_one k _).2 (Or.inl ⟨x + ε * (f - x), by linarith, by linarith, ?_, ?_⟩))
      · have hx := congrArg Point.x this
        have hy := congrArg Point.y this
        simp only at hx hy
        have hx : ε * (q.x - w.x) = 0 := by linarith
        have hy : ε * (q.y - w.y) = 0 := by linarith
        have hx := (mul_eq_zero.1 hx).resolve_left ε0.ne'
        have hy := (mul_eq_zero.1 hy).resolve_left ε0.ne'
        exact hqw (Point.ext' (by linarith) (by linarith))
      · simp only; rw [fx, xx]; ring
      · simp only; rw [fy, xy]; ring
    obtain ⟨σ, hσ, hs⟩ := sign _ hc
    exact ⟨k, σ, hσ, q, ⟨w, hwe, hend, hwr', hs⟩, Relation.ReflTransGen.refl⟩

omit O in
/-- The sides of an edge differ. -/
theorem sides_differ {q q' : Point} (h : Side n p [] 0 1 q) (h' : Side n p [] 0 (-1) q') :
    Inside (cycEdges p 0 n) q ↔ ¬ Inside (cycEdges p 0 n) q' := by
  obtain ⟨m, hm, hi⟩ := C.inner 0
  have hn : n = (n - 1) + 1 := by have := C.three; omega
  have off := C.inner_off obstacles_nil 0 hm hi
  rw [List.append_nil] at off
  have hE : cycEdges p 0 n = ⟨p 0, p 1⟩ :: cycEdges p (0 + 1) (n - 1) := by
    conv_lhs => rw [hn, cycEdges_succ]
  have hp := C.all_proper 0 n
  have hd := C.even 0
  have hp' := hp
  have hd' := hd
  rw [hE] at hp' hd'
  obtain ⟨δ, δ0, hδ⟩ := local_sides hp' hd' hm hi off
  rw [← hE] at hδ
  obtain ⟨x, xn, xc⟩ := exists_left_near (e := ⟨p 0, p 1⟩) (C.proper 0) hm δ0
  obtain ⟨y, yn, yc⟩ := exists_left_near (e := ⟨p 1, p 0⟩) (C.proper 0).symm (by rw [Segment.pts_swap]; exact hm) δ0
  simp only at xc yc
  rw [cross_swap] at yc
  have mk : ∀ (σ : ℚ) (z : Point), Near δ m z → 0 < σ * cross (p 0) (p 1) z → Side n p [] 0 σ z := by
    intro σ z hz hc
    refine ⟨m, hm, hi, ?_, hc⟩
    intro r hr hs
    rcases (C.segs_one (D := []) 0 r).1 hs with hs | hs
    · by_contra hne
      obtain ⟨t, t0, t1, tx, ty⟩ := hr
      simp only at tx ty
      have c1 := mem_cross hs
      have c2 := mem_cross hm
      simp only at c1 c2
      have t0' : 0 < t := by
        refine lt_of_le_of_ne t0 fun h => hne (Point.ext' ?_ ?_)
        · rw [tx, ← h]; ring
        · rw [ty, ← h]; ring
      have e : σ * cross (p 0) (p (0 + 1)) r = (1 - t) * (σ * cross (p 0) (p (0 + 1)) m) +
          t * (σ * cross (p 0) (p (0 + 1)) z) := by
        unfold cross; rw [tx, ty]; ring
      rw [c1, c2] at e
      have := mul_pos t0' hc
      simp only [Nat.zero_add] at e
      linarith
    · exact absurd (by simpa using hs) (hδ r (hz.path r hr)).1
  have O : Obstacles n p [] := obstacles_nil
  have lx := C.side_linked O h (mk 1 x xn (by linarith))
  have ly := C.side_linked O h' (mk (-1) y yn (by linarith))
  rw [List.append_nil] at lx ly
  rw [lx.inside_iff hp hd, ly.inside_iff hp hd]
  obtain ⟨-, x1, x2⟩ := hδ x xn
  obtain ⟨-, y1, y2⟩ := hδ y yn
  rcases (Segment.mk (p 0) (p 1)).lo_hi_cases with ⟨e1, e2, -⟩ | ⟨e1, e2, -⟩
  · rw [e1, e2] at x1 y2
    simp only at x1 y2
    rw [x1 xc, y2 (by linarith)]
  · rw [e1, e2] at x2 y1
    simp only at x2 y1
    rw [cross_swap] at x2 y1
    rw [x2 (by linarith), y1 (by linarith)]
    tauto

omit C O in
theorem side_mono {k : ℕ} {σ : ℚ} {q : Point} (h : Side n p D k σ q) : Side n p [] k σ q := by
  obtain ⟨m, h1, h2, h3, h4⟩ := h
  refine ⟨m, h1, h2, fun r hr hs => h3 r hr ?_, h4⟩
  rw [List.append_nil] at hs
  rw [segsPts_append]
  exact Or.inl hs

/-- A path which does not meet the obstacles ends without meeting the curve, or there is a side of the curve at its beginning. -/
theorem reach_path {x y : Point} (hx : x ∉ segsPts (cycEdges p 0 n)) (l : Linked D x y) : Linked (cycEdges p 0 n ++ D) x y ∨
    ∃ k σ, (σ = 1 ∨ σ = -1) ∧ ∃ q', Side n p D k σ q' ∧ Linked (cycEdges p 0 n ++ D) x q' := by
  induction l using Relation.ReflTransGen.head_induction_on with
  | refl => exact Or.inl .refl
  | @head a b hf _ ih =>
    by_cases h : Free (cycEdges p 0 n) a b
    · have f : Free (cycEdges p 0 n ++ D) a b := by
        intro r hr
        rw [segsPts_append]
        exact fun hs => hs.elim (h r hr) (hf r hr)
      rcases ih (h b (Segment.stop_mem _)) with h | ⟨k, σ, hσ, q', h1, h2⟩
      · exact Or.inl (f.linked.trans h)
      · exact Or.inr ⟨k, σ, hσ, q', h1, f.linked.trans h2⟩
    · unfold Free at h
      push Not at h
      obtain ⟨m, hm, hs⟩ := h
      exact Or.inr (C.reach O hx hs (hf.sub hm))

/-- Points which are connected by a path that does not meet the obstacles, and are on the same side of a simple closed curve, are connected by a path
that meets neither the curve nor the obstacles. -/
theorem linked_beside {x y : Point} (hx : x ∉ segsPts (cycEdges p 0 n)) (hy : y ∉ segsPts (cycEdges p 0 n)) (l : Linked D x y)
    (h : Inside (cycEdges p 0 n) x ↔ Inside (cycEdges p 0 n) y) : Linked (cycEdges p 0 n ++ D) x y := by
  have hp := C.all_proper 0 n
  have hd := C.even 0
  rcases C.reach_path O hx l with l' | ⟨k, σ, hσ, x', sx, lx⟩
  · exact l'
  rcases C.reach_path O hy l.symm with l' | ⟨k', σ', hσ', y', sy, ly⟩
  · exact l'.symm
  obtain ⟨a, ha, -⟩ := C.side_succ O 0 (Or.inl rfl : (1 : ℚ) = 1 ∨ (1 : ℚ) = -1)
  obtain ⟨b, hb, -⟩ := C.side_succ O 0 (Or.inr rfl : (-1 : ℚ) = 1 ∨ (-1 : ℚ) = -1)
  have dif := C.sides_differ (side_mono ha) (side_mono hb)
  have base : ∀ {k σ z w}, (σ = 1 ∨ σ = -1) → Side n p D k σ z → Linked (cycEdges p 0 n ++ D) w z →
      (σ = 1 → Linked (cycEdges p 0 n ++ D) w a) ∧ (σ = -1 → Linked (cycEdges p 0 n ++ D) w b) := by
    intro k σ z w hσ sz lz
    constructor
    · rintro rfl; exact lz.trans (C.side_all O hσ k ha sz).symm
    · rintro rfl; exact lz.trans (C.side_all O hσ k hb sz).symm
  have bx := base hσ sx lx
  have hby := base hσ' sy ly
  have same : ∀ {u v}, Linked (cycEdges p 0 n ++ D) u v → (Inside (cycEdges p 0 n) u ↔ Inside (cycEdges p 0 n) v) := by
    intro u v l
    have : Linked (cycEdges p 0 n) u v := l.mono (by rw [segsPts_append]; exact Set.subset_union_left)
    exact this.inside_iff hp hd
  rcases hσ with h1 | h1 <;> rcases hσ' with h2 | h2
  · exact (bx.1 h1).trans (hby.1 h2).symm
  · exfalso
    rw [same (bx.1 h1), same (hby.2 h2)] at h
    tauto
  · exfalso
    rw [same (bx.2 h1), same (hby.1 h2)] at h
    tauto
  · exact (bx.2 h1).trans (hby.2 h2).symm

omit O in
/-- The interior of a simple closed curve is connected, and so is the exterior. -/
theorem linked {x y : Point} (hx : x ∉ segsPts (cycEdges p 0 n)) (hy : y ∉ segsPts (cycEdges p 0 n))
    (h : Inside (cycEdges p 0 n) x ↔ Inside (cycEdges p 0 n) y) : Linked (cycEdges p 0 n) x y := by
  have := C.linked_beside obstacles_nil hx hy (Free.linked fun r _ ⟨_, k, _⟩ => by simp at k) h
  rwa [List.append_nil] at this

end Cyc

/-- Jordan curve theorem for simple contours: points which are not on the contour are connected by a path which
does not meet the contour exactly if both are inside or both are outside. -/
theorem SimpleContour.linked_iff {c : Contour} (h : SimpleContour c) {x y : Point} (hx : x ∉ segsPts c.edges)
    (hy : y ∉ segsPts c.edges) : Linked c.edges x y ↔ (Inside c.edges x ↔ Inside c.edges y) := by
  rw [contour_edges_eq] at hx hy ⊢
  exact ⟨fun l => l.inside_iff (h.cyc.all_proper _ _) (h.cyc.even 0), h.cyc.linked hx hy⟩

/-- Points which are connected by a path that does not meet other edges, and are on the same side of a simple contour which does not meet them, are
connected by a path that meets neither the contour nor the edges. -/
theorem SimpleContour.linked_beside {c : Contour} (h : SimpleContour c) {D : List Segment} (pD : ∀ e ∈ D, e.Proper)
    (hD : ∀ q ∈ segsPts c.edges, q ∉ segsPts D) {x y : Point} (hx : x ∉ segsPts c.edges) (hy : y ∉ segsPts c.edges) (l : Linked D x y)
    (i : Inside c.edges x ↔ Inside c.edges y) : Linked (c.edges ++ D) x y := by
  rw [contour_edges_eq] at hx hy i hD ⊢
  exact h.cyc.linked_beside ⟨pD, hD⟩ hx hy l i

end Clipping

import Verif.Lemmas.Region.Local
import Verif.Lemmas.Bounding
import Mathlib.Logic.Relation

/-!
# Paths which avoid edges
-/

namespace Clipping

open Sweep

/-- The segment with the ends `a` and `b` does not meet the edges. -/
def Free (E : List Segment) (a b : Point) : Prop := ∀ r ∈ (Segment.mk a b).pts, r ∉ segsPts E

/-- There is a polygonal path from `a` to `b` which does not meet the edges. -/
def Linked (E : List Segment) : Point → Point → Prop := Relation.ReflTransGen (Free E)

theorem Free.symm {E : List Segment} {a b : Point} (h : Free E a b) : Free E b a := by
  intro r hr; rw [Segment.pts_swap] at hr; exact h r hr

theorem Free.sub {E : List Segment} {a b c : Point} (h : Free E a b) (hc : c ∈ (Segment.mk a b).pts) : Free E a c :=
  fun r hr => h r (mk_sub (Segment.start_mem _) hc hr)

theorem Free.linked {E : List Segment} {a b : Point} (h : Free E a b) : Linked E a b :=
  Relation.ReflTransGen.single h

theorem Linked.trans {E : List Segment} {a b c : Point} (h : Linked E a b) (h' : Linked E b c) : Linked E a c :=
  Relation.ReflTransGen.trans h h'

theorem Linked.symm {E : List Segment} {a b : Point} (h : Linked E a b) : Linked E b a := by
  induction h with
  | refl => exact Relation.ReflTransGen.refl
  | tail _ g ih => exact (Free.linked g.symm).trans ih

theorem Linked.mono {E E' : List Segment} {a b : Point} (h : Linked E a b) (hs : segsPts E' ⊆ segsPts E) :
    Linked E' a b := by
  induction h with
  | refl => exact Relation.ReflTransGen.refl
  | tail _ g ih => exact ih.tail fun r hr h => g r hr (hs h)

theorem Linked.inside_iff {E : List Segment} (hp : ∀ e ∈ E, e.Proper) (hd : ∀ q, Even (degree E q)) {a b : Point}
    (h : Linked E a b) : Inside E a ↔ Inside E b := by
  induction h with
  | refl => rfl
  | tail _ g ih => exact ih.trans (inside_const hp hd (s := ⟨_, _⟩) g)

theorem Near.symm {δ : ℚ} {m q : Point} (h : Near δ m q) : Near δ q m :=
  ⟨by rw [abs_sub_comm]; exact h.1, by rw [abs_sub_comm]; exact h.2⟩

theorem abs_scale {k a δ : ℚ} (h0 : 0 ≤ k) (h1 : k ≤ 1) (ha : |a| < δ) : |k * a| < δ := by
  rw [abs_mul, abs_of_nonneg h0]
  exact (mul_le_of_le_one_left (abs_nonneg a) h1).trans_lt ha

theorem mem_antisymm {q r w : Point} (hr : r ∈ (Segment.mk q w).pts) (hw : w ∈ (Segment.mk q r).pts) : r = w := by
  have h1 := Segment.lo_le_of_mem hr
  have h2 := Segment.le_hi_of_mem hr
  have h3 := Segment.lo_le_of_mem hw
  have h4 := Segment.le_hi_of_mem hw
  have e1 : min q w ≤ r := h1
  have e2 : r ≤ max q w := h2
  have e3 : min q r ≤ w := h3
  have e4 : w ≤ max q r := h4
  rcases le_total q r with a | a <;> rcases le_total q w with b | b
  · rw [max_eq_right b] at e2; rw [max_eq_right a] at e4; exact le_antisymm e2 e4
  · rw [max_eq_left b] at e2; rw [min_eq_left a] at e3
    exact (le_antisymm e2 a).trans (le_antisymm e3 b)
  · rw [min_eq_left b] at e1; rw [max_eq_left a] at e4
    exact (le_antisymm a e1).trans (le_antisymm b e4)
  · rw [min_eq_right b] at e1; rw [min_eq_right a] at e3; exact le_antisymm e3 e1

/-- Disjoint segments have a positive distance. -/
theorem clearance {s t : Segment} (hs : s.Proper) (ht : t.Proper) (hd : ∀ q ∈ s.pts, q ∉ t.pts) :
    ∃ δ > 0, ∀ r ∈ s.pts, ∀ q, Near δ r q → q ∉ t.pts := by
  obtain ⟨d1, p1, g1⟩ := exists_near_off ht (hd _ s.start_mem)
  obtain ⟨d2, p2, g2⟩ := exists_near_off ht (hd _ s.stop_mem)
  obtain ⟨d3, p3, g3⟩ := exists_near_off hs (m := t.start) (fun h => hd _ h t.start_mem)
  obtain ⟨d4, p4, g4⟩ := exists_near_off hs (m := t.stop) (fun h => hd _ h t.stop_mem)
  refine ⟨min (min d1 d2) (min d3 d4), lt_min (lt_min p1 p2) (lt_min p3 p4), ?_⟩
  rintro r ⟨l, l0, l1, lx, ly⟩ q hn ⟨u, u0, u1, ux, uy⟩
  set δ := min (min d1 d2) (min d3 d4) with hδ
  have e1 : δ ≤ d1 := (min_le_left _ _).trans (min_le_left _ _)
  have e2 : δ ≤ d2 := (min_le_left _ _).trans (min_le_right _ _)
  have e3 : δ ≤ d3 := (min_le_right _ _).trans (min_le_left _ _)
  have e4 : δ ≤ d4 := (min_le_right _ _).trans (min_le_right _ _)
  -- move along both segments
  obtain ⟨α, β, κ, k0, k1, hx, hy, hout⟩ : ∃ α β κ : ℚ, 0 ≤ κ ∧ κ ≤ 1 ∧
      β * (t.stop.x - t.start.x) - α * (s.stop.x - s.start.x) = - κ * (q.x - r.x) ∧
      β * (t.stop.y - t.start.y) - α * (s.stop.y - s.start.y) = - κ * (q.y - r.y) ∧
      (⟨l + α, u + β⟩ : Point) ∉ (Box.mk 0 1 0 1).pts := by
    by_cases hD : (s.stop.x - s.start.x) * (t.stop.y - t.start.y) - (s.stop.y - s.start.y) * (t.stop.x - t.start.x) = 0
    · -- parallel
      by_cases hx : s.stop.x - s.start.x = 0
      · have hy : s.stop.y - s.start.y ≠ 0 := fun h => hs (Point.ext' (by linarith) (by linarith))
        have tx : t.stop.x - t.start.x = 0 := by
          rw [hx, zero_mul, zero_sub, neg_eq_zero] at hD
          exact (mul_eq_zero.1 hD).resolve_left hy
        refine ⟨2 * ((t.stop.y - t.start.y) / (s.stop.y - s.start.y)), 2, 0, le_rfl, zero_le_one, ?_, ?_, ?_⟩
        · rw [hx, tx]; ring
        · have := div_mul_cancel₀ (t.stop.y - t.start.y) hy
          linear_combination -2 * this
        · rintro ⟨-, -, -, h⟩; simp only at h; linarith
      · refine ⟨2 * ((t.stop.x - t.start.x) / (s.stop.x - s.start.x)), 2, 0, le_rfl, zero_le_one, ?_, ?_, ?_⟩
        · have := div_mul_cancel₀ (t.stop.x - t.start.x) hx
          linear_combination -2 * this
        · set c := (t.stop.x - t.start.x) / (s.stop.x - s.start.x) with hc
          have h1 : c * (s.stop.x - s.start.x) = t.stop.x - t.start.x := div_mul_cancel₀ _ hx
          have : (s.stop.x - s.start.x) * ((t.stop.y - t.start.y) - c * (s.stop.y - s.start.y)) = 0 := by
            linear_combination hD - (s.stop.y - s.start.y) * h1
          have := (mul_eq_zero.1 this).resolve_left hx
          linear_combination 2 * this
        · rintro ⟨-, -, -, h⟩; simp only at h; linarith
    · set D := (s.stop.x - s.start.x) * (t.stop.y - t.start.y) -
        (s.stop.y - s.start.y) * (t.stop.x - t.start.x) with hDdef
      set α := (((q.x - r.x) * (t.stop.y - t.start.y) - (q.y - r.y) * (t.stop.x - t.start.x))) / D with hα
      set β := (((q.x - r.x) * (s.stop.y - s.start.y) - (q.y - r.y) * (s.stop.x - s.start.x))) / D with hβ
      have hα' : α * D = (q.x - r.x) * (t.stop.y - t.start.y) - (q.y - r.y) * (t.stop.x - t.start.x) :=
        div_mul_cancel₀ _ hD
      have hβ' : β * D = (q.x - r.x) * (s.stop.y - s.start.y) - (q.y - r.y) * (s.stop.x - s.start.x) :=
        div_mul_cancel₀ _ hD
      have x1 : β * (t.stop.x - t.start.x) - α * (s.stop.x - s.start.x) = - 1 * (q.x - r.x) := by
        apply mul_right_cancel₀ hD
        linear_combination (t.stop.x - t.start.x) * hβ' - (s.stop.x - s.start.x) * hα' +
          (q.x - r.x) * hDdef
      have y1 : β * (t.stop.y - t.start.y) - α * (s.stop.y - s.start.y) = - 1 * (q.y - r.y) := by
        apply mul_right_cancel₀ hD
        linear_combination (t.stop.y - t.start.y) * hβ' - (s.stop.y - s.start.y) * hα' +
          (q.y - r.y) * hDdef
      refine ⟨α, β, 1, zero_le_one, le_rfl, x1, y1, ?_⟩
      rintro ⟨b1, b2, b3, b4⟩
      simp only at b1 b2 b3 b4
      refine hd ⟨s.start.x + (l + α) * (s.stop.x - s.start.x), s.start.y + (l + α) * (s.stop.y - s.start.y)⟩
        ⟨l + α, b1, b2, rfl, rfl⟩ ⟨u + β, b3, b4, ?_, ?_⟩
      · simp only; linear_combination - lx + ux - x1
      · simp only; linear_combination - ly + uy - y1
  obtain ⟨θ, θ0, θ1, hw, he, -⟩ := exit_point (b := ⟨0, 1, 0, 1⟩) (p := ⟨l, u⟩) ⟨l0, l1, u0, u1⟩ hout
  dsimp only at hw he
  obtain ⟨w1, w2, w3, w4⟩ := hw
  simp only [add_sub_cancel_left] at w1 w2 w3 w4 he
  set R : Point := ⟨s.start.x + (l + θ * α) * (s.stop.x - s.start.x),
    s.start.y + (l + θ * α) * (s.stop.y - s.start.y)⟩ with hR
  set Q : Point := ⟨t.start.x + (u + θ * β) * (t.stop.x - t.start.x),
    t.start.y + (u + θ * β) * (t.stop.y - t.start.y)⟩ with hQ
  have hRs : R ∈ s.pts := ⟨_, w1, w2, rfl, rfl⟩
  have hQt : Q ∈ t.pts := ⟨_, w3, w4, rfl, rfl⟩
  have fx : Q.x - R.x = (1 - θ * κ) * (q.x - r.x) := by
    simp only [hQ, hR]; linear_combination θ * hx - ux + lx
  have fy : Q.y - R.y = (1 - θ * κ) * (q.y - r.y) := by
    simp only [hQ, hR]; linear_combination θ * hy - uy + ly
  have hk : 0 ≤ 1 - θ * κ ∧ 1 - θ * κ ≤ 1 := by
    have h1 := mul_nonneg θ0 k0
    have h2 := mul_le_one₀ θ1.le k0 k1
    exact ⟨by linarith, by linarith⟩
  have near : Near δ R Q := by
    constructor
    · rw [fx]; exact abs_scale hk.1 hk.2 hn.1
    · rw [fy]; exact abs_scale hk.1 hk.2 hn.2
  rcases he with h | h | h | h
  · have : R = s.start := by
      refine Point.ext' ?_ ?_ <;> simp only [hR, h] <;> ring
    exact g1 Q (by rw [← this]; exact near.mono e1) hQt
  · have : R = s.stop := by
      refine Point.ext' ?_ ?_ <;> simp only [hR, h] <;> ring
    exact g2 Q (by rw [← this]; exact near.mono e2) hQt
  · have : Q = t.start := by
      refine Point.ext' ?_ ?_ <;> simp only [hQ, h] <;> ring
    exact g3 R (by rw [← this]; exact near.symm.mono e3) hRs
  · have : Q = t.stop := by
      refine Point.ext' ?_ ?_ <;> simp only [hQ, h] <;> ring
    exact g4 R (by rw [← this]; exact near.symm.mono e4) hRs

theorem clearance_all {s : Segment} {E : List Segment} (hs : s.Proper) (hp : ∀ e ∈ E, e.Proper)
    (hd : ∀ q ∈ s.pts, q ∉ segsPts E) : ∃ δ > 0, ∀ r ∈ s.pts, ∀ q, Near δ r q → q ∉ segsPts E := by
  induction E with
  | nil => exact ⟨1, by norm_num, fun _ _ q _ => by rw [segsPts_nil]; exact Set.notMem_empty q⟩
  | cons e E ih =>
    obtain ⟨d1, p1, g1⟩ := clearance hs (hp e (by simp)) fun q hq h => hd q hq ⟨e, by simp, h⟩
    obtain ⟨d2, p2, g2⟩ := ih (fun s hs => hp s (by simp [hs])) fun q hq ⟨t, ht, h⟩ => hd q hq ⟨t, by simp [ht], h⟩
    refine ⟨min d1 d2, lt_min p1 p2, ?_⟩
    rintro r hr q hq ⟨t, ht, h⟩
    rcases List.mem_cons.1 ht with rfl | ht
    · exact g1 r hr q (hq.mono (min_le_left _ _)) h
    · exact g2 r hr q (hq.mono (min_le_right _ _)) ⟨t, ht, h⟩

/-- The first common point of a path with a segment. -/
theorem first_hit_one {e : Segment} (he : e.Proper) {q z : Point} (hq : q ∉ e.pts)
    (hz : z ∈ e.pts) : ∃ w ∈ (Segment.mk q z).pts, w ∈ e.pts ∧ ∀ r ∈ (Segment.mk q w).pts, r ∈ e.pts → r = w := by
  by_cases hall : ∀ r ∈ (Segment.mk q z).pts, r ∈ e.pts → r = z
  · exact ⟨z, Segment.stop_mem _, hz, hall⟩
  push Not at hall
  obtain ⟨r, hr, hre, hne⟩ := hall
  -- `q` is on the line of the segment
  obtain ⟨a, a0, a1, ax, ay⟩ := hz
  obtain ⟨b, b0, b1, bx, b_y⟩ := hre
  obtain ⟨c, c0, c1, cx, cy⟩ := hr
  simp only at cx cy
  have c1' : c < 1 := by
    refine lt_of_le_of_ne c1 fun h => hne (Point.ext' ?_ ?_)
    · rw [cx, h]; ring
    · rw [cy, h]; ring
  have hc : 1 - c ≠ 0 := by linarith
  set f := (b - c * a) / (1 - c) with hf
  have hf' : f * (1 - c) = b - c * a := div_mul_cancel₀ _ hc
  have qx : q.x = e.start.x + f * (e.stop.x - e.start.x) := by
    apply mul_left_cancel₀ hc
    linear_combination bx - cx - c * ax - (e.stop.x - e.start.x) * hf'
  have qy : q.y = e.start.y + f * (e.stop.y - e.start.y) := by
    apply mul_left_cancel₀ hc
    linear_combination b_y - cy - c * ay - (e.stop.y - e.start.y) * hf'
  have hne' : ∀ x y : ℚ, x * (e.stop.x - e.start.x) = y * (e.stop.x - e.start.x) →
      x * (e.stop.y - e.start.y) = y * (e.stop.y - e.start.y) → x = y := by
    intro x y h1 h2
    by_contra hxy
    have hxy' : x - y ≠ 0 := sub_ne_zero.2 hxy
    have k1 : (x - y) * (e.stop.x - e.start.x) = 0 := by linear_combination h1
    have k2 : (x - y) * (e.stop.y - e.start.y) = 0 := by linear_combination h2
    have k1 := (mul_eq_zero.1 k1).resolve_left hxy'
    have k2 := (mul_eq_zero.1 k2).resolve_left hxy'
    exact he (Point.ext' (by linarith) (by linarith))
  -- an end of the segment is first
  have key : ∀ g : ℚ, g = 0 ∨ g = 1 → (f < g ∧ g ≤ a ∨ g < f ∧ a ≤ g) →
      (∀ x, 0 ≤ x → x ≤ 1 → (f ≤ x ∧ x ≤ g ∨ g ≤ x ∧ x ≤ f) → x = g) →
      ∃ w ∈ (Segment.mk q z).pts, w ∈ e.pts ∧ ∀ r ∈ (Segment.mk q w).pts, r ∈ e.pts → r = w := by
    intro g hg hfa huniq
    have hfg : a - f ≠ 0 := by
      rcases hfa with h | h
      · linarith [h.1, h.2]
      · have : a - f < 0 := by linarith [h.1, h.2]
        exact this.ne
    have ht := div_mul_cancel₀ (g - f) hfg
    set t := (g - f) / (a - f) with htd
    refine ⟨⟨e.start.x + g * (e.stop.x - e.start.x), e.start.y + g * (e.stop.y - e.start.y)⟩, ⟨t, ?_, ?_, ?_, ?_⟩,
      ⟨g, ?_, ?_, rfl, rfl⟩, ?_⟩
    · rcases hfa with h | h
      · exact div_nonneg (by linarith [h.1]) (by linarith [h.1, h.2])
      · exact div_nonneg_of_nonpos (by linarith [h.1]) (by linarith [h.1, h.2])
    · rcases hfa with h | h
      · rw [htd, div_le_one (by linarith [h.1, h.2])]; linarith [h.2]
      · rw [htd, div_le_one_of_neg (by linarith [h.1, h.2])]; linarith [h.2]
    · simp only; rw [qx, ax]; linear_combination (e.start.x - e.stop.x) * ht
    · simp only; rw [qy, ay]; linear_combination (e.start.y - e.stop.y) * ht
    · rcases hg with h | h <;> rw [h]; norm_num
    · rcases hg with h | h <;> rw [h]; norm_num
    · rintro r ⟨v, v0, v1, vx, vy⟩ ⟨x, x0, x1, xx, xy⟩
      simp only at vx vy
      have : x = f + v * (g - f) := by
        apply hne'
        · linear_combination vx - xx + (1 - v) * qx
        · linear_combination vy - xy + (1 - v) * qy
      have xg := huniq x x0 x1 (by
        rcases hfa with h | h
        · have n1 := mul_nonneg v0 (sub_nonneg.2 h.1.le)
          have n2 := mul_nonneg (sub_nonneg.2 v1) (sub_nonneg.2 h.1.le)
          left; constructor <;> linarith
        · have n1 := mul_nonneg v0 (sub_nonneg.2 h.1.le)
          have n2 := mul_nonneg (sub_nonneg.2 v1) (sub_nonneg.2 h.1.le)
          right; constructor <;> linarith)
      rw [xg] at xx xy
      exact Point.ext' xx xy
  by_cases hf0 : f < 0
  · refine key 0 (Or.inl rfl) (Or.inl ⟨hf0, a0⟩) ?_
    rintro x x0 x1 (h | h)
    · exact le_antisymm h.2 x0
    · exact absurd hf0 (not_lt.2 (x0.trans h.2))
  · by_cases hf1 : 1 < f
    · refine key 1 (Or.inr rfl) (Or.inr ⟨hf1, a1⟩) ?_
      rintro x x0 x1 (h | h)
      · exact absurd hf1 (not_lt.2 (h.1.trans x1))
      · exact le_antisymm x1 h.1
    · exact absurd ⟨f, not_lt.1 hf0, not_lt.1 hf1, qx, qy⟩ hq

/-- The first common point of a path with the edges. -/
theorem first_hit {E : List Segment} (hp : ∀ e ∈ E, e.Proper) {q m : Point} (hq : q ∉ segsPts E) :
    ∃ w ∈ (Segment.mk q m).pts, (w = m ∨ w ∈ segsPts E) ∧ ∀ r ∈ (Segment.mk q w).pts, r ∈ segsPts E → r = w := by
  induction E with
  | nil =>
    refine ⟨m, Segment.stop_mem _, Or.inl rfl, ?_⟩
    intro r _ h; rw [segsPts_nil] at h; exact absurd h (Set.notMem_empty r)
  | cons e E ih =>
    have h1 : q ∉ e.pts := fun h => hq ⟨e, by simp, h⟩
    have h2 : q ∉ segsPts E := fun ⟨s, hs, h⟩ => hq ⟨s, by simp [hs], h⟩
    obtain ⟨w, hw, hwm, hwr⟩ := ih (fun s hs => hp s (by simp [hs])) h2
    by_cases hz : ∃ z ∈ (Segment.mk q w).pts, z ∈ e.pts
    · obtain ⟨z, hzw, hze⟩ := hz
      obtain ⟨w', hw', hwe, hwr'⟩ := first_hit_one (hp e (by simp)) h1 hze
      have hw'w : w' ∈ (Segment.mk q w).pts := mk_sub (Segment.start_mem _) hzw hw'
      refine ⟨w', mk_sub (Segment.start_mem _) hw hw'w, Or.inr ⟨e, by simp, hwe⟩, ?_⟩
      rintro r hr ⟨s, hs, hrs⟩
      rcases List.mem_cons.1 hs with rfl | hs
      · exact hwr' r hr hrs
      · -- the end of the longer path
        have := hwr r (mk_sub (Segment.start_mem _) hw'w hr) ⟨s, hs, hrs⟩
        subst this
        exact mem_antisymm hr hw'w
    · push Not at hz
      refine ⟨w, hw, ?_, ?_⟩
      · rcases hwm with h | ⟨s, hs, h⟩
        · exact Or.inl h
        · exact Or.inr ⟨s, by simp [hs], h⟩
      · rintro r hr ⟨s, hs, hrs⟩
        rcases List.mem_cons.1 hs with rfl | hs
        · exact absurd hrs (hz r hr)
        · exact hwr r hr ⟨s, hs, hrs⟩

/-- A path from a point of the box to a point which is not in the box meets an edge of the box. -/
theorem Linked.leaves {E : List Segment} {b : Box} {p q : Point} (h : Linked E p q) (hp : p ∈ b.pts)
    (hq : q ∉ b.pts) : ∃ w, Linked E p w ∧ w ∉ segsPts E ∧ ∃ e ∈ toEdges b, w ∈ e.pts := by
  induction h with
  | refl => exact absurd hp hq
  | @tail u v huv huv' ih =>
    by_cases hu : u ∈ b.pts
    · obtain ⟨r, r0, r1, hw, he, -⟩ := exit_point hu hq
      have hm : (⟨u.x + r * (v.x - u.x), u.y + r * (v.y - u.y)⟩ : Point) ∈ (Segment.mk u v).pts :=
        ⟨r, r0, r1.le, rfl, rfl⟩
      exact ⟨_, huv.trans (Free.linked (huv'.sub hm)), huv' _ hm, mem_edge hw he⟩
    · exact ih hu

end Clipping

import Verif.Lemmas.Sweep.Shear
import Verif.Model.SweepLine

/-!
# The comparison of the sweep line is the order of the sheared segments
-/

namespace Clipping.Sweep

variable {α : Type}

/-- left event `i` as a segment of the sheared plane -/
def absSeg (ε : ℚ) (h : Heap α) (i : ℕ) : Seg := seg ε (h.start i) (h.stop i) (h.first i)

/-- Orientation of a point of the other segment is the sign of the difference of ordinates. -/
theorem orientation_diff {ε : ℚ} {s e q : Point} {ff : Bool} {V : Seg} (h : sx ε s < sx ε e)
    (hq : V.y (sx ε q) = q.y) :
    ((seg ε s e ff).y (sx ε q) < V.y (sx ε q) → orientation s e q = .counterclockwise) ∧
    (V.y (sx ε q) < (seg ε s e ff).y (sx ε q) → orientation s e q = .clockwise) ∧
    (V.y (sx ε q) = (seg ε s e ff).y (sx ε q) → orientation s e q = .collinear) := by
  rw [orientation_ccw, orientation_cw, orientation_col, cross_pos_iff h q (ff := ff),
    cross_neg_iff h q (ff := ff), cross_zero_iff h q (ff := ff), hq]
  exact ⟨id, id, Eq.symm⟩

/-- sign cases of an affine function at four points, as the comparison uses them -/
theorem affine_cases {d : ℚ → ℚ} {w : ℚ} (hd : ∀ x z, d z - d x = w * (z - x)) {a b a' b' : ℚ}
    (hab : a < b) (hab' : a' < b') (h1 : a' ≤ b) (h2 : a ≤ b') :
    ((0 < d a' → 0 < d b' → 0 < d (max a a')) ∧ (d a' < 0 → d b' < 0 → d (max a a') < 0)) ∧
    ((0 < d a → 0 < d b → 0 < d (max a a')) ∧ (d a < 0 → d b < 0 → d (max a a') < 0)) ∧
    (d a' = 0 → (0 < d b' → 0 < w) ∧ (d b' < 0 → w < 0)) ∧
    (d a = 0 → (0 < d b → 0 < w) ∧ (d b < 0 → w < 0)) ∧
    (d b = 0 → d a' ≠ 0 → (0 < d a → 0 < d (max a a')) ∧ (d a < 0 → d (max a a') < 0)) ∧
    (d b' = 0 → d a ≠ 0 → (0 < d a' → 0 < d (max a a')) ∧ (d a' < 0 → d (max a a') < 0)) ∧
    (d a' = 0 → d a = 0 → w ≠ 0 → a = a') ∧ (d a = 0 → d b = 0 → w = 0) ∧
    (d a' = 0 → (0 < w → 0 ≤ d (max a a')) ∧ (w < 0 → d (max a a') ≤ 0)) ∧
    (d a = 0 → (0 < w → 0 ≤ d (max a a')) ∧ (w < 0 → d (max a a') ≤ 0)) := by
  have le1 : a ≤ max a a' := le_max_left _ _
  have le2 : a' ≤ max a a' := le_max_right _ _
  have le3 : max a a' ≤ b := max_le hab.le h1
  have le4 : max a a' ≤ b' := max_le h2 hab'.le
  have hc := max_choice a a'
  generalize max a a' = m at *
  have e1 := hd a m
  have e2 := hd m b
  have e3 := hd a' m
  have e4 := hd m b'
  have e5 := hd a b
  have e6 := hd a' b'
  have e7 := hd a a'
  refine ⟨⟨fun g1 g2 => ?_, fun g1 g2 => ?_⟩, ⟨fun g1 g2 => ?_, fun g1 g2 => ?_⟩,
    fun g => ⟨fun g' => ?_, fun g' => ?_⟩, fun g => ⟨fun g' => ?_, fun g' => ?_⟩,
    fun g gn => ⟨fun g' => ?_, fun g' => ?_⟩, fun g gn => ⟨fun g' => ?_, fun g' => ?_⟩,
    fun g g' gw => ?_, fun g g' => ?_, fun g => ⟨fun g' => ?_, fun g' => ?_⟩,
    fun g => ⟨fun g' => ?_, fun g' => ?_⟩⟩
  · rcases le_total 0 w with hw | hw <;> nlinarith
  · rcases le_total 0 w with hw | hw <;> nlinarith
  · rcases le_total 0 w with hw | hw <;> nlinarith
  · rcases le_total 0 w with hw | hw <;> nlinarith
  · by_contra hw; push Not at hw; nlinarith
  · by_contra hw; push Not at hw; nlinarith
  · by_contra hw; push Not at hw; nlinarith
  · by_contra hw; push Not at hw; nlinarith
  · have hw : w < 0 := by by_contra hw; push Not at hw; nlinarith
    have hmb : m ≠ b := by
      rintro rfl
      rcases hc with hc | hc
      · linarith
      · rw [← hc] at gn; exact gn g
    have : m < b := lt_of_le_of_ne le3 hmb
    nlinarith
  · have hw : 0 < w := by by_contra hw; push Not at hw; nlinarith
    have hmb : m ≠ b := by
      rintro rfl
      rcases hc with hc | hc
      · linarith
      · rw [← hc] at gn; exact gn g
    have : m < b := lt_of_le_of_ne le3 hmb
    nlinarith
  · have hw : w < 0 := by by_contra hw; push Not at hw; nlinarith
    have hmb : m ≠ b' := by
      rintro rfl
      rcases hc with hc | hc
      · rw [← hc] at gn; exact gn g
      · linarith
    have : m < b' := lt_of_le_of_ne le4 hmb
    nlinarith
  · have hw : 0 < w := by by_contra hw; push Not at hw; nlinarith
    have hmb : m ≠ b' := by
      rintro rfl
      rcases hc with hc | hc
      · rw [← hc] at gn; exact gn g
      · linarith
    have : m < b' := lt_of_le_of_ne le4 hmb
    nlinarith
  · have : w * (a' - a) = 0 := by linarith
    rcases mul_eq_zero.1 this with h | h
    · exact absurd h gw
    · linarith
  · have : w * (b - a) = 0 := by linarith
    rcases mul_eq_zero.1 this with h | h
    · exact h
    · linarith
  all_goals nlinarith

/-- the remaining case: the segments cross properly -/
theorem affine_cross {d : ℚ → ℚ} {w : ℚ} (hd : ∀ x z, d z - d x = w * (z - x)) {a b a' b' : ℚ}
    (hab : a < b) (hab' : a' < b') :
    (0 < d a' → d b' < 0 → (d a < 0 → 0 < d b → False) ∧ (0 < d a → d b < 0 → 0 < d (max a a'))) ∧
    (d a' < 0 → 0 < d b' → (0 < d a → d b < 0 → False) ∧ (d a < 0 → 0 < d b → d (max a a') < 0)) ∧
    (d b' = 0 → 0 < d a' → d a < 0 → 0 < d b → False) ∧
    (d b' = 0 → d a' < 0 → 0 < d a → d b < 0 → False) := by
  have hc := max_choice a a'
  generalize max a a' = m at *
  have e5 := hd a b
  have e6 := hd a' b'
  refine ⟨fun g1 g2 => ⟨fun g3 g4 => ?_, fun g3 g4 => ?_⟩, fun g1 g2 => ⟨fun g3 g4 => ?_, fun g3 g4 => ?_⟩,
    fun g1 g2 g3 g4 => ?_, fun g1 g2 g3 g4 => ?_⟩
  · rcases le_total 0 w with hw | hw <;> nlinarith
  · rcases hc with rfl | rfl <;> assumption
  · rcases le_total 0 w with hw | hw <;> nlinarith
  · rcases hc with rfl | rfl <;> assumption
  · rcases le_total 0 w with hw | hw <;> nlinarith
  · rcases le_total 0 w with hw | hw <;> nlinarith

/-- `BinarySweepLineKey.__lt__` compares by `Lt` while both segments are in the sweep line. -/
theorem lineLt_iff {ε : ℚ} {h : Heap α} {u v : ℕ} (hu : (absSeg ε h u).a < (absSeg ε h u).b)
    (hv : (absSeg ε h v).a < (absSeg ε h v).b) (h1 : (absSeg ε h v).a ≤ (absSeg ε h u).b)
    (h2 : (absSeg ε h u).a ≤ (absSeg ε h v).b) (hne : u ≠ v)
    (hff : Col (absSeg ε h u) (absSeg ε h v) → h.first u ≠ h.first v) :
    lineLt h u v = true ↔ Lt (absSeg ε h u) (absSeg ε h v) := by
  set U := absSeg ε h u with hU
  set V := absSeg ε h v with hV
  have hu' : sx ε (h.start u) < sx ε (h.stop u) := hu
  have hv' : sx ε (h.start v) < sx ε (h.stop v) := hv
  let d : ℚ → ℚ := fun c => V.y c - U.y c
  have hd : ∀ x z, d z - d x = (V.m - U.m) * (z - x) := by
    intro x z; simp only [d, Seg.y]; ring
  have dp : ∀ c, 0 < d c ↔ U.y c < V.y c := fun c => sub_pos
  have dn : ∀ c, d c < 0 ↔ V.y c < U.y c := fun c => sub_neg
  have dz : ∀ c, d c = 0 ↔ V.y c = U.y c := fun c => sub_eq_zero
  have o1 : (0 < d V.a → orientation (h.start u) (h.stop u) (h.start v) = .counterclockwise) ∧
      (d V.a < 0 → orientation (h.start u) (h.stop u) (h.start v) = .clockwise) ∧
      (d V.a = 0 → orientation (h.start u) (h.stop u) (h.start v) = .collinear) := by
    rw [dp, dn, dz]
    exact orientation_diff hu' (seg_y_start (ff := h.first v))
  have o2 : (0 < d V.b → orientation (h.start u) (h.stop u) (h.stop v) = .counterclockwise) ∧
      (d V.b < 0 → orientation (h.start u) (h.stop u) (h.stop v) = .clockwise) ∧
      (d V.b = 0 → orientation (h.start u) (h.stop u) (h.stop v) = .collinear) := by
    rw [dp, dn, dz]
    exact orientation_diff hu' (seg_y_stop (ff := h.first v) hv')
  have o3 : (d U.a < 0 → orientation (h.start v) (h.stop v) (h.start u) = .counterclockwise) ∧
      (0 < d U.a → orientation (h.start v) (h.stop v) (h.start u) = .clockwise) ∧
      (d U.a = 0 → orientation (h.start v) (h.stop v) (h.start u) = .collinear) := by
    rw [dp, dn, dz, eq_comm (a := V.y U.a)]
    exact orientation_diff hv' (seg_y_start (ff := h.first u))
  have o4 : (d U.b < 0 → orientation (h.start v) (h.stop v) (h.stop u) = .counterclockwise) ∧
      (0 < d U.b → orientation (h.start v) (h.stop v) (h.stop u) = .clockwise) ∧
      (d U.b = 0 → orientation (h.start v) (h.stop v) (h.stop u) = .collinear) := by
    rw [dp, dn, dz, eq_comm (a := V.y U.b)]
    exact orientation_diff hv' (seg_y_stop (ff := h.first u) hu')
  have hcol : Col U V ↔ d V.a = 0 ∧ d V.b = 0 := by
    constructor
    · intro hc; simp only [d, hc.y, sub_self, and_self]
    · rintro ⟨g1, g2⟩
      exact col_of_two hv.ne (sub_eq_zero.1 g1).symm (sub_eq_zero.1 g2).symm
  obtain ⟨⟨c1, c2⟩, ⟨c3, c4⟩, c5, c6, c7, c8, -, c9, c10, c11⟩ := affine_cases hd hu hv h1 h2
  obtain ⟨k1, k2, k3, k4⟩ := affine_cross hd hu hv
  have hlt : Lt U V ↔ (Col U V ∧ U.ff = true ∧ V.ff = false) ∨
      (¬ Col U V ∧ (0 < d (max U.a V.a) ∨ (d (max U.a V.a) = 0 ∧ 0 < V.m - U.m))) := by
    unfold Lt
    rw [dp, dz, sub_pos]
    simp only [eq_comm]
  have hw0 : d V.a = 0 → d V.b ≠ 0 → V.m - U.m ≠ 0 := by
    intro g1 g2 g3
    have := hd V.a V.b
    rw [g3, zero_mul, g1, sub_zero] at this
    exact g2 this
  have hw1 : V.m - U.m = 0 → d V.a = d V.b := by
    intro g3
    have := hd V.a V.b
    rw [g3, zero_mul] at this
    linarith
  have fu : U.ff = h.first u := rfl
  have fv : V.ff = h.first v := rfl
  rw [fu, fv] at hlt
  rw [hlt, hcol]
  rw [hcol] at hff
  unfold lineLt
  rw [if_neg hne]
  dsimp only
  generalize d (max U.a V.a) = D at *
  generalize d V.a = x1 at *
  generalize d V.b = x2 at *
  generalize d U.a = x3 at *
  generalize d U.b = x4 at *
  generalize V.m - U.m = w at *
  generalize orientation (h.start u) (h.stop u) (h.start v) = p1 at *
  generalize orientation (h.start u) (h.stop u) (h.stop v) = p2 at *
  generalize orientation (h.start v) (h.stop v) (h.start u) = p3 at *
  generalize orientation (h.start v) (h.stop v) (h.stop u) = p4 at *
  clear hlt hcol hU hV fu fv hd dp dn dz
  clear_value U V d
  clear hu hv h1 h2 hu' hv' d
  have fin : ∀ {P Q : Prop}, P → Q → (P ↔ Q) := fun a b => ⟨fun _ => b, fun _ => a⟩
  rcases lt_trichotomy x1 0 with A1 | A1 | A1 <;> rcases lt_trichotomy x2 0 with A2 | A2 | A2
  case inr.inl.inr.inl =>
    have := hff ⟨A1, A2⟩
    rw [o1.2.2 A1, o2.2.2 A2]
    simp only [A1, A2, and_self, not_true_eq_false, false_and, or_false, true_and, ↓reduceIte,
      ne_eq, this, not_false_eq_true]
    cases h3 : h.first u <;> cases h4 : h.first v <;> simp_all
  all_goals
    rcases lt_trichotomy x3 0 with A3 | A3 | A3 <;> rcases lt_trichotomy x4 0 with A4 | A4 | A4
  all_goals
    first
      | rw [o1.1 A1] | rw [o1.2.1 A1] | rw [o1.2.2 A1]
  all_goals
    first
      | rw [o2.1 A2] | rw [o2.2.1 A2] | rw [o2.2.2 A2]
  all_goals
    first
      | rw [o3.1 A3] | rw [o3.2.1 A3] | rw [o3.2.2 A3]
  all_goals
    first
      | rw [o4.1 A4] | rw [o4.2.1 A4] | rw [o4.2.2 A4]
  all_goals clear o1 o2 o3 o4 hff
  all_goals simp only [reduceCtorEq, not_false_eq_true, ↓reduceIte, decide_true, decide_false, ne_eq,
    true_iff, Bool.false_eq_true, false_iff, not_or, not_and]
  all_goals grind

end Clipping.Sweep

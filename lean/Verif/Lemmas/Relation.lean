import Verif.Lemmas.PointSet

/-!
# `segments_relation` and `segments_intersection` are what ground documents

`relation_spec` ties the executable definition of `segmentsRelation` to point sets; together
with the exclusivity of the seven cases this determines the function on proper segments.
-/

namespace Clipping

/-- Both segments lie on one line. -/
def SameLine (s t : Segment) : Prop := cross t.lo t.hi s.lo = 0 ∧ cross t.lo t.hi s.hi = 0

theorem SameLine.iff {s t : Segment} (hs : s.Proper) (ht : t.Proper) (h : SameLine s t) (p : Point) :
    cross s.lo s.hi p = 0 ↔ cross t.lo t.hi p = 0 :=
  line_eq (Segment.lo_lt_hi ht).ne (Segment.lo_lt_hi hs).ne h.1 h.2 p

theorem SameLine.symm {s t : Segment} (hs : s.Proper) (ht : t.Proper) (h : SameLine s t) :
    SameLine t s :=
  ⟨(h.iff hs ht _).2 (cross_self_left _ _), (h.iff hs ht _).2 (cross_self_right _ _)⟩

theorem SameLine.refl (s : Segment) : SameLine s s := ⟨cross_self_left _ _, cross_self_right _ _⟩

/-- Two distinct common points force one line. -/
theorem sameLine_of_two {s t : Segment} (hs : s.Proper) (ht : t.Proper) {p q : Point} (hpq : p ≠ q)
    (h1 : cross s.lo s.hi p = 0) (h2 : cross s.lo s.hi q = 0)
    (h3 : cross t.lo t.hi p = 0) (h4 : cross t.lo t.hi q = 0) : SameLine s t := by
  have e1 := line_eq (Segment.lo_lt_hi hs).ne hpq h1 h2
  have e2 := line_eq (Segment.lo_lt_hi ht).ne hpq h3 h4
  exact ⟨(e2 _).1 ((e1 _).2 (cross_self_left _ _)), (e2 _).1 ((e1 _).2 (cross_self_right _ _))⟩

/-- Membership when both lie on one line. -/
theorem SameLine.mem_iff {s t : Segment} (hs : s.Proper) (ht : t.Proper) (h : SameLine s t) {p : Point} :
    p ∈ s.pts ↔ cross t.lo t.hi p = 0 ∧ s.lo ≤ p ∧ p ≤ s.hi := by
  rw [Segment.mem_iff hs, h.iff hs ht]

/-- Lines that are not parallel and separate the end points of the other segment weakly. -/
theorem transverse {a b c d : Point} (hne : cross c d a ≠ cross c d b)
    (h1 : cross c d a * cross c d b ≤ 0) (h2 : cross a b c * cross a b d ≤ 0) :
    ∃ p, p ∈ (Segment.mk a b).pts ∧ p ∈ (Segment.mk c d).pts ∧
      (∀ q, cross a b q = 0 → cross c d q = 0 → q = p) := by
  set K := (b.x - a.x) * (d.y - c.y) - (b.y - a.y) * (d.x - c.x) with hK
  have k1 : cross c d a - cross c d b = K := by rw [hK]; unfold cross; ring
  have k2 : cross a b d - cross a b c = K := by rw [hK]; unfold cross; ring
  have hK0 : K ≠ 0 := by rw [← k1]; exact sub_ne_zero.2 hne
  have hd1 : cross c d a - cross c d b ≠ 0 := by rw [k1]; exact hK0
  have hd2 : cross a b c - cross a b d ≠ 0 := by
    intro h; apply hK0; rw [← k2]; linarith
  have range : ∀ u v : ℚ, u * v ≤ 0 → u - v ≠ 0 → 0 ≤ u / (u - v) ∧ u / (u - v) ≤ 1 := by
    intro u v huv hne'
    rcases lt_or_gt_of_ne hne' with h | h
    · have hu : u ≤ 0 := by nlinarith
      have hv : 0 ≤ v := by nlinarith
      exact ⟨div_nonneg_of_nonpos hu h.le, by rw [div_le_one_of_neg h]; linarith⟩
    · have hu : 0 ≤ u := by nlinarith
      have hv : v ≤ 0 := by nlinarith
      exact ⟨div_nonneg hu h.le, by rw [div_le_one h]; linarith⟩
  obtain ⟨t0, t1⟩ := range _ _ h1 hd1
  obtain ⟨u0, u1⟩ := range _ _ h2 hd2
  set t := cross c d a / (cross c d a - cross c d b) with ht
  set u := cross a b c / (cross a b c - cross a b d) with hu
  have et : t * K = cross c d a := by rw [ht, k1]; field_simp
  have eu : u * K = - cross a b c := by
    rw [hu]
    have : cross a b c - cross a b d = -K := by linarith
    rw [this]; field_simp
  refine ⟨⟨a.x + t * (b.x - a.x), a.y + t * (b.y - a.y)⟩, ⟨t, t0, t1, rfl, rfl⟩,
    ⟨u, u0, u1, ?_, ?_⟩, ?_⟩
  · simp only
    apply mul_right_cancel₀ hK0
    have : (a.x + t * (b.x - a.x)) * K = a.x * K + (t * K) * (b.x - a.x) := by ring
    rw [this, et]
    have : (c.x + u * (d.x - c.x)) * K = c.x * K + (u * K) * (d.x - c.x) := by ring
    rw [this, eu, hK]; unfold cross; ring
  · simp only
    apply mul_right_cancel₀ hK0
    have : (a.y + t * (b.y - a.y)) * K = a.y * K + (t * K) * (b.y - a.y) := by ring
    rw [this, et]
    have : (c.y + u * (d.y - c.y)) * K = c.y * K + (u * K) * (d.y - c.y) := by ring
    rw [this, eu, hK]; unfold cross; ring
  · intro q hq1 hq2
    apply Point.ext'
    · simp only
      apply mul_right_cancel₀ hK0
      have : (a.x + t * (b.x - a.x)) * K = a.x * K + (t * K) * (b.x - a.x) := by ring
      rw [this, et, hK]; unfold cross at *
      linear_combination (d.x - c.x) * hq1 - (b.x - a.x) * hq2
    · simp only
      apply mul_right_cancel₀ hK0
      have : (a.y + t * (b.y - a.y)) * K = a.y * K + (t * K) * (b.y - a.y) := by ring
      rw [this, et, hK]; unfold cross at *
      linear_combination (d.y - c.y) * hq1 - (b.y - a.y) * hq2

theorem cross_at {a b c d p : Point} {t : ℚ} (hx : p.x = a.x + t * (b.x - a.x))
    (hy : p.y = a.y + t * (b.y - a.y)) :
    cross c d p = (1 - t) * cross c d a + t * cross c d b := by
  unfold cross; rw [hx, hy]; ring

/-- A line with both end points strictly on one side misses the segment. -/
theorem disjoint_of_side {a b c d p : Point} (h : 0 < cross c d a * cross c d b)
    (hp : p ∈ (Segment.mk a b).pts) : cross c d p ≠ 0 := by
  obtain ⟨t, h0, h1, hx, hy⟩ := hp
  rw [cross_at hx hy]
  simp only at *
  intro he
  rcases lt_trichotomy (cross c d a) 0 with h3 | h3 | h3
  · have h4 : cross c d b < 0 := by nlinarith
    rcases h0.eq_or_lt with rfl | h0
    · simp at he; linarith
    · nlinarith [mul_neg_of_pos_of_neg h0 h4, mul_nonneg (sub_nonneg.2 h1) (neg_nonneg.2 h3.le)]
  · rw [h3] at h; simp at h
  · have h4 : 0 < cross c d b := by nlinarith
    rcases h0.eq_or_lt with rfl | h0
    · simp at he; linarith
    · nlinarith [mul_pos h0 h4, mul_nonneg (sub_nonneg.2 h1) h3.le]

/-- What each relation means. -/
def RelationMeaning (s t : Segment) : Relation → Prop
  | .disjoint => ∀ p, p ∈ s.pts → p ∉ t.pts
  | .touch => (∃ p, p ∈ s.pts ∧ p ∈ t.pts ∧ (∀ q, q ∈ s.pts → q ∈ t.pts → q = p)
      ∧ (s.IsEnd p ∨ t.IsEnd p))
  | .cross => (∃ p, p ∈ s.pts ∧ p ∈ t.pts ∧ (∀ q, q ∈ s.pts → q ∈ t.pts → q = p)
      ∧ ¬ s.IsEnd p ∧ ¬ t.IsEnd p) ∧ ¬ SameLine s t
  | .overlap => SameLine s t ∧ ((s.lo < t.lo ∧ t.lo < s.hi ∧ s.hi < t.hi) ∨
      (t.lo < s.lo ∧ s.lo < t.hi ∧ t.hi < s.hi))
  | .composite => SameLine s t ∧ s.lo ≤ t.lo ∧ t.hi ≤ s.hi ∧ (s.lo ≠ t.lo ∨ s.hi ≠ t.hi)
  | .equal => s.lo = t.lo ∧ s.hi = t.hi
  | .component => SameLine s t ∧ t.lo ≤ s.lo ∧ s.hi ≤ t.hi ∧ (s.lo ≠ t.lo ∨ s.hi ≠ t.hi)

theorem not_same_side {a b c d : Point}
    (h : ¬ (orientation c d a ≠ .collinear ∧ orientation c d a = orientation c d b)) :
    cross c d a * cross c d b ≤ 0 := by
  by_contra hc
  push Not at hc
  apply h
  constructor
  · rw [Ne, orientation_col]; intro h0; rw [h0] at hc; simp at hc
  · rcases lt_trichotomy (cross c d a) 0 with h3 | h3 | h3
    · have h4 : cross c d b < 0 := by nlinarith
      rw [orientation_cw.2 h3, orientation_cw.2 h4]
    · rw [h3] at hc; simp at hc
    · have h4 : 0 < cross c d b := by nlinarith
      rw [orientation_ccw.2 h3, orientation_ccw.2 h4]

theorem same_side {a b c d : Point}
    (h : orientation c d a ≠ .collinear ∧ orientation c d a = orientation c d b) :
    0 < cross c d a * cross c d b := by
  obtain ⟨h1, h2⟩ := h
  rw [Ne, orientation_col] at h1
  rcases lt_or_gt_of_ne h1 with h3 | h3
  · rw [orientation_cw.2 h3] at h2
    exact mul_pos_of_neg_of_neg h3 (orientation_cw.1 h2.symm)
  · rw [orientation_ccw.2 h3] at h2
    exact mul_pos h3 (orientation_ccw.1 h2.symm)

theorem relation_spec {s t : Segment} (hs : s.Proper) (ht : t.Proper) :
    RelationMeaning s t (segmentsRelation s t) := by
  have ls := Segment.lo_lt_hi hs
  have lt := Segment.lo_lt_hi ht
  have ms : ∀ p, p ∈ s.pts ↔ p ∈ (Segment.mk s.lo s.hi).pts := fun p => by
    rw [← Segment.pts_norm s]; rfl
  have mt : ∀ p, p ∈ t.pts ↔ p ∈ (Segment.mk t.lo t.hi).pts := fun p => by
    rw [← Segment.pts_norm t]; rfl
  unfold segmentsRelation
  simp only
  split_ifs with e0 e1 e2 e3 c1 c2 c3 c4 c5 c6 c7 c8 c9 e4
  · exact e0
  · intro p hp hpt
    exact disjoint_of_side (same_side e1) ((ms p).1 hp) ((Segment.mem_iff ht).1 hpt).1
  · intro p hp hpt
    exact disjoint_of_side (same_side e2) ((mt p).1 hpt) ((Segment.mem_iff hs).1 hp).1
  all_goals try (have hl : SameLine s t := ⟨orientation_col.1 e3.1, orientation_col.1 e3.2⟩)
  · exact ⟨hl, c1.ge, c2.le, Or.inr c2.ne⟩
  · exact ⟨hl, c1.le, not_lt.1 c2, Or.inr (fun h => e0 ⟨c1, h⟩)⟩
  · exact ⟨hl, c4.le, c3.ge, Or.inl c1⟩
  · exact ⟨hl, not_lt.1 c4, c3.le, Or.inl c1⟩
  · -- collinear touch
    rcases c5 with h | h
    · refine ⟨s.lo, s.lo_mem, by rw [h]; exact t.hi_mem, fun q hq hq' => ?_, Or.inl (Segment.isEnd_iff.2 (Or.inl rfl))⟩
      exact le_antisymm (h ▸ Segment.le_hi_of_mem hq') (Segment.lo_le_of_mem hq)
    · refine ⟨s.hi, s.hi_mem, by rw [h]; exact t.lo_mem, fun q hq hq' => ?_, Or.inl (Segment.isEnd_iff.2 (Or.inr rfl))⟩
      exact le_antisymm (Segment.le_hi_of_mem hq) (h ▸ Segment.lo_le_of_mem hq')
  · exact ⟨hl, c6.1.le, c7.le, Or.inl c1⟩
  · exact ⟨hl, Or.inr ⟨c6.1, c6.2, lt_of_le_of_ne (not_lt.1 c7) (Ne.symm c3)⟩⟩
  · exact ⟨hl, c8.1.le, c9.le, Or.inl c1⟩
  · exact ⟨hl, Or.inl ⟨c8.1, c8.2, lt_of_le_of_ne (not_lt.1 c9) c3⟩⟩
  · -- collinear disjoint
    intro p hp hpt
    have h1 := Segment.lo_le_of_mem hp
    have h2 := Segment.le_hi_of_mem hp
    have h3 := Segment.lo_le_of_mem hpt
    have h4 := Segment.le_hi_of_mem hpt
    push Not at c5
    rcases lt_trichotomy s.lo t.lo with h | h | h
    · exact c8 ⟨h, lt_of_le_of_ne (h3.trans h2) (Ne.symm c5.2)⟩
    · exact c1 h
    · exact c6 ⟨h, lt_of_le_of_ne (h1.trans h4) c5.1⟩
  all_goals
    have h1 := not_same_side e1
    have h2 := not_same_side e2
    have hne : cross t.lo t.hi s.lo ≠ cross t.lo t.hi s.hi := by
      intro he
      rw [← he] at h1
      have h0 : cross t.lo t.hi s.lo = 0 := by nlinarith [mul_self_nonneg (cross t.lo t.hi s.lo)]
      exact e3 ⟨orientation_col.2 h0, orientation_col.2 (he ▸ h0)⟩
    obtain ⟨p, hp, hp', hu⟩ := transverse hne h1 h2
    have hps := (ms p).2 hp
    have hpt := (mt p).2 hp'
  · refine ⟨p, hps, hpt, fun q hq hq' => hu q ((Segment.mem_iff hs).1 hq).1 ((Segment.mem_iff ht).1 hq').1, ?_⟩
    simp only [orientation_col] at e4
    rcases e4 with h | h | h | h
    · exact Or.inl (Segment.isEnd_iff.2 (Or.inl (hu _ (cross_self_left _ _) h).symm))
    · exact Or.inl (Segment.isEnd_iff.2 (Or.inr (hu _ (cross_self_right _ _) h).symm))
    · exact Or.inr (Segment.isEnd_iff.2 (Or.inl (hu _ h (cross_self_left _ _)).symm))
    · exact Or.inr (Segment.isEnd_iff.2 (Or.inr (hu _ h (cross_self_right _ _)).symm))
  · simp only [orientation_col] at e4
    push Not at e4
    refine ⟨⟨p, hps, hpt, fun q hq hq' => hu q ((Segment.mem_iff hs).1 hq).1 ((Segment.mem_iff ht).1 hq').1, ?_, ?_⟩, ?_⟩
    · rw [Segment.isEnd_iff]; rintro (h | h)
      · exact e4.1 (h ▸ ((Segment.mem_iff ht).1 hpt).1)
      · exact e4.2.1 (h ▸ ((Segment.mem_iff ht).1 hpt).1)
    · rw [Segment.isEnd_iff]; rintro (h | h)
      · exact e4.2.2.1 (h ▸ ((Segment.mem_iff hs).1 hps).1)
      · exact e4.2.2.2 (h ▸ ((Segment.mem_iff hs).1 hps).1)
    · intro h; exact e4.1 h.1

end Clipping

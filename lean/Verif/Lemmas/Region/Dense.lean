import Verif.Lemmas.Region.Polygon
import Verif.Lemmas.Region.Jordan
import Verif.Spec.Touch

/-!
# Points near regions which are on no edges
-/

namespace Clipping

theorem Near.refl {δ : ℚ} (h : 0 < δ) (q : Point) : Near δ q q := by
  unfold Near; simp [h]

theorem Near.trans {δ ε : ℚ} {a b c : Point} (h : Near δ a b) (h' : Near ε b c) : Near (δ + ε) a c := by
  unfold Near at *
  have h1 := abs_lt.1 h.1
  have h2 := abs_lt.1 h.2
  have h3 := abs_lt.1 h'.1
  have h4 := abs_lt.1 h'.2
  constructor <;> rw [abs_lt] <;> constructor <;> linarith [h1.1, h1.2, h2.1, h2.2, h3.1, h3.2, h4.1, h4.2]

/-- Points near a point in the direction of another one. -/
theorem exists_toward {δ : ℚ} (hδ : 0 < δ) {q m : Point} (hne : q ≠ m) :
    ∃ z ∈ (Segment.mk q m).pts, Near δ q z ∧ z ≠ q := by
  obtain ⟨ε, ε0, ε1, hε⟩ := exists_small hδ (M := |m.x - q.x| + |m.y - q.y|) (by positivity)
  refine ⟨⟨q.x + ε * (m.x - q.x), q.y + ε * (m.y - q.y)⟩, ⟨ε, ε0.le, ε1, rfl, rfl⟩, ⟨?_, ?_⟩, ?_⟩
  · simp only [add_sub_cancel_left]
    rw [abs_mul, abs_of_pos ε0]
    have := mul_nonneg ε0.le (abs_nonneg (m.y - q.y))
    linarith
  · simp only [add_sub_cancel_left]
    rw [abs_mul, abs_of_pos ε0]
    have := mul_nonneg ε0.le (abs_nonneg (m.x - q.x))
    linarith
  · intro e
    have hx := congrArg Point.x e
    have hy := congrArg Point.y e
    simp only at hx hy
    have hx : ε * (m.x - q.x) = 0 := by linarith
    have hy : ε * (m.y - q.y) = 0 := by linarith
    have hx := (mul_eq_zero.1 hx).resolve_left ε0.ne'
    have hy := (mul_eq_zero.1 hy).resolve_left ε0.ne'
    exact hne (Point.ext' (by linarith) (by linarith))

/-- Near every point there are points on none of the segments. -/
theorem exists_off {X : List Segment} (hp : ∀ s ∈ X, s.Proper) (q : Point) {δ : ℚ} (hδ : 0 < δ) :
    ∃ z, Near δ q z ∧ z ∉ segsPts X := by
  induction X with
  | nil => exact ⟨q, Near.refl hδ q, by rw [segsPts_nil]; exact Set.notMem_empty q⟩
  | cons e X ih =>
    obtain ⟨z, hz, hoff⟩ := ih fun s hs => hp s (by simp [hs])
    have strict : ∃ η > 0, ∀ w, Near η z w → Near δ q w := by
      have h1 := abs_lt.1 hz.1
      have h2 := abs_lt.1 hz.2
      refine ⟨min (δ - |z.x - q.x|) (δ - |z.y - q.y|), lt_min (by linarith [hz.1]) (by linarith [hz.2]), ?_⟩
      intro w hw
      have a1 := hw.1.trans_le (min_le_left _ _)
      have a2 := hw.2.trans_le (min_le_right _ _)
      constructor
      · calc |w.x - q.x| = |(w.x - z.x) + (z.x - q.x)| := by ring_nf
          _ ≤ |w.x - z.x| + |z.x - q.x| := abs_add_le _ _
          _ < δ := by linarith
      · calc |w.y - q.y| = |(w.y - z.y) + (z.y - q.y)| := by ring_nf
          _ ≤ |w.y - z.y| + |z.y - q.y| := abs_add_le _ _
          _ < δ := by linarith
    obtain ⟨η, η0, hη⟩ := strict
    obtain ⟨η', η0', hη'⟩ := exists_near_off_all (fun s hs => hp s (by simp [hs])) hoff
    by_cases hze : z ∈ e.pts
    · obtain ⟨w, hw, hc⟩ := exists_left_near (hp e (by simp)) hze (lt_min η0 η0')
      refine ⟨w, hη w (hw.mono (min_le_left _ _)), ?_⟩
      rintro ⟨s, hs, hws⟩
      rcases List.mem_cons.1 hs with rfl | hs
      · rw [mem_cross hws] at hc; exact lt_irrefl _ hc
      · exact hη' w (hw.mono (min_le_right _ _)) ⟨s, hs, hws⟩
    · refine ⟨z, hz, ?_⟩
      rintro ⟨s, hs, hws⟩
      rcases List.mem_cons.1 hs with rfl | hs
      · exact hze hws
      · exact hoff ⟨s, hs, hws⟩

def middle' (a b : Point) : Point := ⟨(a.x + b.x) / 2, (a.y + b.y) / 2⟩

theorem middle'_mem (a b : Point) : middle' a b ∈ (Segment.mk a b).pts :=
  ⟨1 / 2, by norm_num, by norm_num, by simp only [middle']; ring, by simp only [middle']; ring⟩

theorem middle'_eq {a b : Point} (h : middle' a b = a) : b = a := by
  have e1 := congrArg Point.x h
  have e2 := congrArg Point.y h
  simp only [middle'] at e1 e2
  exact Point.ext' (by linarith) (by linarith)

theorem middle'_eq' {a b : Point} (h : middle' a b = b) : b = a := by
  have e1 := congrArg Point.x h
  have e2 := congrArg Point.y h
  simp only [middle'] at e1 e2
  exact Point.ext' (by linarith) (by linarith)

/-- Near every point of an edge there are points of it which are on no other edge. -/
theorem exists_alone {e : Segment} (he : e.Proper) {X : List Segment} (hp : ∀ s ∈ X, s.Proper)
    (no : ∀ s ∈ X, ¬ Overlapping e s) {q : Point} (hq : q ∈ e.pts) {δ : ℚ} (hδ : 0 < δ) :
    ∃ m ∈ e.pts, ¬ e.IsEnd m ∧ Near δ q m ∧ m ∉ segsPts X := by
  induction X generalizing δ with
  | nil =>
    obtain ⟨m₀, hm₀, hi₀⟩ := exists_inner he
    by_cases hqi : e.IsEnd q
    · have hne : q ≠ m₀ := fun h => hi₀ (h ▸ hqi)
      obtain ⟨z, hz, hn, hzq⟩ := exists_toward hδ hne
      exact ⟨z, mk_sub hq hm₀ hz, fun hend => hzq (end_between he hm₀ hi₀ hq hz hend), hn,
        by rw [segsPts_nil]; exact Set.notMem_empty z⟩
    · exact ⟨q, hq, hqi, Near.refl hδ q, by rw [segsPts_nil]; exact Set.notMem_empty q⟩
  | cons t X ih =>
    obtain ⟨m, hm, hi, hn, hoff⟩ := ih (fun s hs => hp s (by simp [hs])) (fun s hs => no s (by simp [hs])) (half_pos hδ)
    by_cases hmt : m ∈ t.pts
    · obtain ⟨η, η0, hη⟩ := exists_near_off_all (fun s hs => hp s (by simp [hs])) hoff
      have hne : m ≠ e.start := fun h => hi (Or.inl h)
      obtain ⟨z, hz, hzn, hzm⟩ := exists_toward (lt_min η0 (half_pos hδ)) hne
      -- from the start back to the inner point
      have hze := mk_sub hm (Segment.start_mem e) hz
      by_cases hend : e.IsEnd z
      · -- the point is an end: go the half way
        have hmid : middle' m z ∈ (Segment.mk m z).pts := middle'_mem m z
        have hme := mk_sub hm hze hmid
        have hmm : middle' m z ≠ m := fun h => hzm (middle'_eq h)
        have hmn : Near (min η (δ / 2)) m (middle' m z) := hzn.path _ hmid
        refine ⟨middle' m z, hme, ?_, ?_, ?_⟩
        · intro hh
          have h1 : middle' m z ∈ (Segment.mk z m).pts := by
            have := Segment.swap_pts (Segment.mk m z)
            unfold Segment.swap at this
            rw [this]; exact hmid
          have := end_between he hm hi hze h1 hh
          exact hzm (middle'_eq' this)
        · have := hn.trans (hmn.mono (min_le_right _ _))
          rwa [add_halves] at this
        · rintro ⟨s, hs, hws⟩
          rcases List.mem_cons.1 hs with rfl | hs
          · exact no s (by simp) ⟨m, _, Ne.symm hmm, hm, hme, hmt, hws⟩
          · exact hη _ (hmn.mono (min_le_left _ _)) ⟨s, hs, hws⟩
      · refine ⟨z, hze, hend, ?_, ?_⟩
        · have := hn.trans (hzn.mono (min_le_right _ _))
          rwa [add_halves] at this
        · rintro ⟨s, hs, hws⟩
          rcases List.mem_cons.1 hs with rfl | hs
          · exact no s (by simp) ⟨m, _, Ne.symm hzm, hm, hze, hmt, hws⟩
          · exact hη _ (hzn.mono (min_le_left _ _)) ⟨s, hs, hws⟩
    · refine ⟨m, hm, hi, hn.mono (by linarith), ?_⟩
      rintro ⟨s, hs, hws⟩
      rcases List.mem_cons.1 hs with rfl | hs
      · exact hmt hws
      · exact hoff ⟨s, hs, hws⟩

theorem IsBoundary.near_inside {E : List Segment} (h : IsBoundary E) {q : Point} (hq : q ∈ regionPts E) {X : List Segment}
    (hX : ∀ s ∈ X, s.Proper) {δ : ℚ} (hδ : 0 < δ) : ∃ z, Near δ q z ∧ z ∉ segsPts X ∧ Inside E z ∧ z ∉ segsPts E := by
  classical
  -- near a point off the edges
  have off : ∀ q, q ∉ segsPts E → Inside E q → ∀ δ > 0, ∃ z, Near δ q z ∧ z ∉ segsPts X ∧ Inside E z ∧ z ∉ segsPts E := by
    intro q hq hin δ hδ
    obtain ⟨η, η0, hη⟩ := exists_near_off_all h.noOverlap.1 hq
    obtain ⟨z, hz, hzx⟩ := exists_off hX q (lt_min hδ η0)
    have hzn := hz.mono (min_le_right δ η)
    refine ⟨z, hz.mono (min_le_left _ _), hzx, ?_, hη z hzn⟩
    exact (inside_const h.noOverlap.1 h.even (s := ⟨q, z⟩) fun r hr => hη r (hzn.path r hr)).1 hin
  by_cases hqE : q ∈ segsPts E
  · obtain ⟨e, he, hqe⟩ := hqE
    have perm := List.perm_cons_erase he
    have no := h.noOverlap.perm perm
    have no2 := (List.pairwise_cons.1 no.2).1
    obtain ⟨m, hm, hi, hn, hoff⟩ := exists_alone (h.noOverlap.1 e he) (X := E.erase e)
      (fun s hs => h.noOverlap.1 s (List.mem_of_mem_erase hs)) (fun s hs => no2 s hs) hqe (half_pos hδ)
    obtain ⟨η, η0, hη⟩ := h.sides he hm hi fun e' he' hme => by
      by_contra hne
      exact hoff ⟨e', (List.mem_erase_of_ne hne).2 he', hme⟩
    obtain ⟨w, hw, hc⟩ := exists_left_near (h.noOverlap.1 e he) hm (lt_min η0 (half_pos (half_pos hδ)))
    obtain ⟨w1, w2⟩ := (hη w (hw.mono (min_le_left _ _))).1 hc
    obtain ⟨z, hz, z1, z2⟩ := off w w2 w1 (δ / 2 / 2) (half_pos (half_pos hδ))
    have := hn.trans ((hw.mono (min_le_right _ _)).trans hz)
    rw [add_halves, add_halves] at this
    exact ⟨z, this, z1, z2⟩
  · refine off q hqE ?_ δ hδ
    rcases hq with hh | hh
    · exact absurd hh hqE
    · exact hh

end Clipping

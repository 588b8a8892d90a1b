import Verif.Lemmas.Length.Valuation
import Verif.Lemmas.LinearLaws
import Verif.Lemmas.Region.Affine
import Verif.Spec.Length

/-!
# Lengths of nested operations
-/

namespace Clipping

open Sweep Classical

theorem pointExt {p q : Point} (h : p.x = q.x) (h' : p.y = q.y) : p = q := by
  cases p; cases q; cases h; cases h'; rfl

theorem overlapping_parallel {s t : Segment} (h : Overlapping s t) : ∃ r : ℚ, s.stop.x - s.start.x = r * (t.stop.x - t.start.x) ∧
    s.stop.y - s.start.y = r * (t.stop.y - t.start.y) := by
  obtain ⟨p, q, ne, ⟨a, -, -, a1, a2⟩, ⟨b, -, -, b1, b2⟩, ⟨c, -, -, c1, c2⟩, ⟨d, -, -, d1, d2⟩⟩ := h
  have hab : a - b ≠ 0 := fun k => ne (pointExt (by rw [a1, b1, sub_eq_zero.1 k]) (by rw [a2, b2, sub_eq_zero.1 k]))
  refine ⟨(c - d) / (a - b), ?_, ?_⟩
  · rw [div_mul_eq_mul_div, eq_div_iff hab]
    linarith
  · rw [div_mul_eq_mul_div, eq_div_iff hab]
    linarith

theorem width_abs (s : Segment) : s.hi.x - s.lo.x = |s.stop.x - s.start.x| := by
  have := lo_x_le_hi_x s
  rcases lo_start_or s with ⟨k1, k2⟩ | ⟨k1, k2⟩
  · rw [k1, k2] at this ⊢
    rw [abs_of_nonneg (by linarith)]
  · rw [k1, k2] at this ⊢
    rw [abs_of_nonpos (by linarith)]
    ring

/-- a direction which is not the one of any of the segments -/
theorem exists_direction (A : List Segment) (hA : ∀ s ∈ A, s.Proper) :
    ∃ k : ℚ, ∀ s ∈ A, (s.stop.x - s.start.x) + k * (s.stop.y - s.start.y) ≠ 0 := by
  obtain ⟨k, hk⟩ := (A.map fun s => - (s.stop.x - s.start.x) / (s.stop.y - s.start.y)).finite_toSet.exists_notMem
  refine ⟨k, fun s hs z => ?_⟩
  by_cases hy : s.stop.y - s.start.y = 0
  · rw [hy, mul_zero, add_zero] at z
    exact hA s hs (pointExt (by linarith) (by linarith))
  · exact hk (List.mem_map.2 ⟨s, hs, by rw [div_eq_iff hy]; linarith⟩)

namespace Length

variable (N : Length)

/-- **Lengths of segments add up as the segments do.** -/
theorem valuation {F : List (ℝ × List Segment)} (hF : ∀ p ∈ F, NoOverlap p.2) {Z : Set Point} (hZ : Z.Finite)
    (h : ∀ q, q ∉ Z → 0 ≤ (F.map fun p => p.1 * if q ∈ segsPts p.2 then 1 else 0).sum) :
    0 ≤ (F.map fun p => p.1 * N.total p.2).sum := by
  have hA : ∀ s ∈ F.flatMap Prod.snd, s.Proper := fun s hs => by
    obtain ⟨p, hp, hs⟩ := List.mem_flatMap.1 hs
    exact (hF p hp).1 s hs
  obtain ⟨k, hk⟩ := exists_direction _ hA
  let T : Affine := ⟨1, k, 0, 1, 0, 0, by norm_num⟩
  let c : Segment → ℝ := fun s => N.of (s.stop.x - s.start.x - k * (s.stop.y - s.start.y)) (s.stop.y - s.start.y) /
    |((s.stop.x - s.start.x : ℚ) : ℝ)|
  have dx : ∀ s, (T.segment s).stop.x - (T.segment s).start.x = (s.stop.x - s.start.x) + k * (s.stop.y - s.start.y) := fun s => by
    simp only [T, Affine.segment, Affine.point]; ring
  have dy : ∀ s, (T.segment s).stop.y - (T.segment s).start.y = s.stop.y - s.start.y := fun s => by
    simp only [T, Affine.segment, Affine.point]; ring
  have key := widths_valuation (F := F.map fun p => (p.1, p.2.map T.segment)) (fun p hp => by
      obtain ⟨p, hp', rfl⟩ := List.mem_map.1 hp
      exact T.noOverlap (hF p hp')) c (fun s => div_nonneg (N.nonneg _ _) (abs_nonneg _)) (fun s hs t ht o => by
      rw [List.flatMap_map, ] at hs ht
      obtain ⟨r, r1, r2⟩ := overlapping_parallel o
      have nz : ∀ s ∈ F.flatMap (fun p => p.2.map T.segment), s.stop.x - s.start.x ≠ 0 := fun s hs => by
        obtain ⟨p, hp, hs⟩ := List.mem_flatMap.1 hs
        obtain ⟨s, hs', rfl⟩ := List.mem_map.1 hs
        rw [dx]
        exact hk s (List.mem_flatMap.2 ⟨p, hp, hs'⟩)
      have n1 := nz s hs
      have n2 := nz t ht
      have hr : r ≠ 0 := fun e => n1 (by rw [r1, e, zero_mul])
      change _ / _ = _ / _
      rw [r1, r2, show r * (t.stop.x - t.start.x) - k * (r * (t.stop.y - t.start.y)) =
        r * (t.stop.x - t.start.x - k * (t.stop.y - t.start.y)) by ring, N.scale]
      rw [Rat.cast_mul, abs_mul]
      exact mul_div_mul_left _ _ (abs_ne_zero.2 (by exact_mod_cast hr)))
    (hZ.image T.point) fun q hq => by
      obtain ⟨q, rfl⟩ := T.surjective q
      rw [T.mem_image] at hq
      have := h q hq
      rw [List.map_map]
      convert this using 4
      rename_i p
      simp only [Function.comp]
      congr 1
      rw [T.segsPts_map, T.mem_image]
  rw [List.map_map] at key
  refine key.trans_eq (congrArg List.sum (List.map_congr_left fun p hp => ?_))
  simp only [Function.comp]
  congr 1
  unfold total
  rw [List.map_map]
  refine congrArg List.sum (List.map_congr_left fun s hs => ?_)
  have nz := hk s (List.mem_flatMap.2 ⟨p, hp, hs⟩)
  simp only [Function.comp, c]
  rw [width_abs, dx, dy, Rat.cast_abs, div_mul_cancel₀ _ (abs_ne_zero.2 (by exact_mod_cast nz))]
  unfold segment
  congr 1
  ring

theorem valuation_eq {F : List (ℝ × List Segment)} (hF : ∀ p ∈ F, NoOverlap p.2) {Z : Set Point} (hZ : Z.Finite)
    (h : ∀ q, q ∉ Z → (F.map fun p => p.1 * if q ∈ segsPts p.2 then 1 else 0).sum = 0) :
    (F.map fun p => p.1 * N.total p.2).sum = 0 := by
  refine le_antisymm ?_ (N.valuation hF hZ fun q hq => (h q hq).ge)
  have k := N.valuation (F := F.map fun p => (-1 * p.1, p.2)) (fun p hp => by
    obtain ⟨p, hp', rfl⟩ := List.mem_map.1 hp
    exact hF p hp') hZ fun q hq => by
      rw [List.map_map, show ((fun p : ℝ × List Segment => p.1 * if q ∈ segsPts p.2 then 1 else 0) ∘
        fun p : ℝ × List Segment => (-1 * p.1, p.2)) = fun p => -1 * (p.1 * if q ∈ segsPts p.2 then 1 else 0) from
          funext fun p => by simp only [Function.comp]; ring, mul_sum, h q hq]
      norm_num
  rw [List.map_map, show ((fun p : ℝ × List Segment => p.1 * N.total p.2) ∘ fun p : ℝ × List Segment => (-1 * p.1, p.2)) =
    fun p => -1 * (p.1 * N.total p.2) from funext fun p => by simp only [Function.comp]; ring, mul_sum] at k
  linarith

end Length

/-- Lengths of nested operations. -/
theorem linearExpression_valuation (N : Length) {o : Orient} (ok : OrientOk o) {tb : TieBreak} {v : ℕ → List Segment} {w : ℕ → List Polygon}
    (hv : ∀ i, ValidSegments (v i)) (hw : ∀ j, ValidPolygons (w j)) {F : List (ℝ × LinearExpression × List Segment)}
    (hF : ∀ t ∈ F, t.2.1.Yields o tb v w t.2.2)
    (h : ∀ p q : ℕ → Bool, 0 ≤ (F.map fun t => t.1 * if t.2.1.holds p q then 1 else 0).sum) :
    0 ≤ (F.map fun t => t.1 * N.total t.2.2).sum := by
  have sp : ∀ t ∈ F, _ := fun t ht => (hF t ht).spec ok hv hw
  have := N.valuation (F := F.map fun t => (t.1, t.2.2)) (fun p hp => by
      obtain ⟨t, ht, rfl⟩ := List.mem_map.1 hp
      exact (sp t ht).1.noOverlap)
    (Z := ⋃ t ∈ {t | t ∈ F}, {q | ¬ (q ∈ segsPts t.2.2 ↔ q ∈ t.2.1.points (fun i => segsPts (v i)) fun j => polysPts (w j))})
    (F.finite_toSet.biUnion fun t ht => (sp t ht).2) fun q hq => by
      have k := h (fun i => decide (q ∈ segsPts (v i))) fun j => decide (q ∈ polysPts (w j))
      refine k.trans_eq ?_
      rw [List.map_map]
      refine congrArg List.sum (List.map_congr_left fun t ht => ?_)
      simp only [Function.comp]
      congr 1
      refine if_congr ?_ rfl rfl
      rw [← LinearExpression.mem_points]
      by_contra k
      exact hq (Set.mem_biUnion ht fun k' => k k'.symm)
  rw [List.map_map] at this
  exact this

theorem linearExpression_valuation_eq (N : Length) {o : Orient} (ok : OrientOk o) {tb : TieBreak} {v : ℕ → List Segment} {w : ℕ → List Polygon}
    (hv : ∀ i, ValidSegments (v i)) (hw : ∀ j, ValidPolygons (w j)) {F : List (ℝ × LinearExpression × List Segment)}
    (hF : ∀ t ∈ F, t.2.1.Yields o tb v w t.2.2)
    (h : ∀ p q : ℕ → Bool, (F.map fun t => t.1 * if t.2.1.holds p q then 1 else 0).sum = 0) :
    (F.map fun t => t.1 * N.total t.2.2).sum = 0 := by
  refine le_antisymm ?_ (linearExpression_valuation N ok hv hw hF fun p q => (h p q).ge)
  have k := linearExpression_valuation N ok hv hw (F := F.map fun t => (-1 * t.1, t.2)) (fun t ht => by
    obtain ⟨t, ht', rfl⟩ := List.mem_map.1 ht
    exact hF t ht') fun p q => by
      rw [List.map_map, show ((fun t : ℝ × LinearExpression × List Segment => t.1 * if t.2.1.holds p q then 1 else 0) ∘
        fun t : ℝ × LinearExpression × List Segment => (-1 * t.1, t.2)) = fun t => -1 * (t.1 * if t.2.1.holds p q then 1 else 0) from
          funext fun t => by simp only [Function.comp]; ring, mul_sum, h p q]
      norm_num
  rw [List.map_map, show ((fun t : ℝ × LinearExpression × List Segment => t.1 * N.total t.2.2) ∘
    fun t : ℝ × LinearExpression × List Segment => (-1 * t.1, t.2)) = fun t => -1 * (t.1 * N.total t.2.2) from
      funext fun t => by simp only [Function.comp]; ring, mul_sum] at k
  linarith

end Clipping

import Verif.Lemmas.Area.Valuation
import Mathlib.Data.Real.Basic

/-!
# Lengths of segments add up as the segments do
-/

namespace Clipping

open Sweep Classical

theorem sum_single {K : Type} [CommSemiring K] {Y : List ℚ} (hY : Y.Pairwise (· < ·)) {y : ℚ} (hy : y ∈ Y) (g : ℚ → K) :
    (Y.map fun z => if y = z then g z else 0).sum = g y := by
  induction Y with
  | nil => simp at hy
  | cons z Y ih =>
    rw [List.pairwise_cons] at hY
    rw [List.map_cons, List.sum_cons]
    rcases List.mem_cons.1 hy with rfl | hy
    · rw [if_pos rfl, List.map_congr_left (g := fun _ => (0 : K)) fun z hz => if_neg (hY.1 z hz).ne]
      simp
    · rw [if_neg (hY.1 y hy).ne', ih hY.2 hy, zero_add]

/-- Segments without common points on a vertical line meet it once in each of their points. -/
theorem sum_at {L : List Segment} {x y : ℚ} (gen : Generic L x)
    (h : L.Pairwise fun s t => ¬ ((⟨x, y⟩ : Point) ∈ s.pts ∧ (⟨x, y⟩ : Point) ∈ t.pts)) (c : ℝ) :
    (L.map fun s => if Active s x ∧ height s x = y then c else 0).sum = c * if (⟨x, y⟩ : Point) ∈ segsPts L then 1 else 0 := by
  have iff : ∀ s ∈ L, (Active s x ∧ height s x = y ↔ (⟨x, y⟩ : Point) ∈ s.pts) := fun s hs =>
    ⟨fun k => by rw [← k.2]; exact k.1.mem, fun k => mem_active (m := ⟨x, y⟩) (gen.ends hs).1 (gen.ends hs).2 k⟩
  induction L with
  | nil => simp [segsPts]
  | cons s L ih =>
    rw [List.pairwise_cons] at h
    have ih := ih (fun e he => gen e (List.mem_cons_of_mem _ he)) h.2 fun e he => iff e (List.mem_cons_of_mem _ he)
    rw [List.map_cons, List.sum_cons, ih]
    by_cases k : (⟨x, y⟩ : Point) ∈ s.pts
    · rw [if_pos ((iff s List.mem_cons_self).2 k), if_neg (by rintro ⟨t, ht, k'⟩; exact h.1 t ht ⟨k, k'⟩),
        if_pos ⟨s, List.mem_cons_self, k⟩]
      ring
    · rw [if_neg fun k' => k ((iff s List.mem_cons_self).1 k'), zero_add]
      congr 1
      refine if_congr ⟨fun ⟨t, ht, k'⟩ => ⟨t, List.mem_cons_of_mem _ ht, k'⟩, ?_⟩ rfl rfl
      rintro ⟨t, ht, k'⟩
      rcases List.mem_cons.1 ht with rfl | ht
      · exact (k k').elim
      · exact ⟨t, ht, k'⟩

/-- a segment, column by column -/
theorem width_eq {e : Segment} {X : List ℚ} (hX : X.Pairwise (· < ·)) (h1 : e.lo.x ∈ X) (h2 : e.hi.x ∈ X) (c : ℝ) :
    c * ((e.hi.x - e.lo.x : ℚ) : ℝ) = ((gaps X).map fun u => ((u.2 - u.1 : ℚ) : ℝ) * if Active e (mid u) then c else 0).sum := by
  rw [← gaps_between (fun x => x) hX h1 h2 (lo_x_le_hi_x e)]
  generalize gaps X = U
  induction U with
  | nil => simp
  | cons u U ih =>
    rw [List.map_cons, List.sum_cons, List.map_cons, List.sum_cons, ← ih]
    have : (if Active e (mid u) then c else 0) = c * ((if e.lo.x < mid u ∧ mid u < e.hi.x then 1 else 0 : ℚ) : ℝ) := by
      by_cases k : Active e (mid u)
      · have k' : e.lo.x < mid u ∧ mid u < e.hi.x := k
        rw [if_pos k, if_pos k']; norm_num
      · have k' : ¬ (e.lo.x < mid u ∧ mid u < e.hi.x) := k
        rw [if_neg k, if_neg k']; norm_num
    rw [this]
    push_cast
    split_ifs <;> push_cast <;> ring

/-- abscissas of the points in which segments meet without overlapping -/
theorem meets_finite (A : List Segment) :
    {x | ∃ s ∈ A, ∃ t ∈ A, ¬ Overlapping s t ∧ ∃ m : Point, m.x = x ∧ m ∈ s.pts ∧ m ∈ t.pts}.Finite := by
  have b : (⋃ s ∈ {e | e ∈ A}, ⋃ t ∈ {e | e ∈ A}, {x | ¬ Overlapping s t ∧ ∃ m : Point, m.x = x ∧ m ∈ s.pts ∧ m ∈ t.pts}).Finite := by
    refine A.finite_toSet.biUnion fun s hs => A.finite_toSet.biUnion fun t ht => Set.Subsingleton.finite ?_
    rintro x ⟨no, m, rfl, h1, h2⟩ y ⟨-, n, rfl, h3, h4⟩
    by_contra k
    exact no ⟨m, n, fun k' => k (by rw [k']), h1, h3, h2, h4⟩
  refine b.subset ?_
  rintro x ⟨s, hs, t, ht, k⟩
  exact Set.mem_biUnion hs (Set.mem_biUnion ht k)

/-- If the weights of the segments in a point never add up to something negative, up to finitely many points, then the weighted lengths
do not.  Lengths are widths times factors, which are the same for overlapping segments. -/
theorem widths_valuation {F : List (ℝ × List Segment)} (hF : ∀ p ∈ F, NoOverlap p.2) (c : Segment → ℝ) (c0 : ∀ s, 0 ≤ c s)
    (hc : ∀ s ∈ F.flatMap Prod.snd, ∀ t ∈ F.flatMap Prod.snd, Overlapping s t → c s = c t) {Z : Set Point} (hZ : Z.Finite)
    (h : ∀ q, q ∉ Z → 0 ≤ (F.map fun p => p.1 * if q ∈ segsPts p.2 then 1 else 0).sum) :
    0 ≤ (F.map fun p => p.1 * (p.2.map fun s => c s * ((s.hi.x - s.lo.x : ℚ) : ℝ)).sum).sum := by
  have sub : ∀ p ∈ F, ∀ s ∈ p.2, s ∈ F.flatMap Prod.snd := fun p hp s hs => List.mem_flatMap.2 ⟨p, hp, hs⟩
  generalize hA : F.flatMap Prod.snd = A at hc sub
  obtain ⟨X, hX, mX⟩ := exists_ascending (S := {x | ∃ e ∈ A, e.start.x = x ∨ e.stop.x = x} ∪
    {x | ∃ s ∈ A, ∃ t ∈ A, ¬ Overlapping s t ∧ ∃ m : Point, m.x = x ∧ m ∈ s.pts ∧ m ∈ t.pts} ∪ Point.x '' Z)
    (((ends_finite A).union (meets_finite A)).union (hZ.image _))
  have generic : ∀ u ∈ gaps X, Generic A (mid u) := fun u hu e he =>
    ⟨fun k => gaps_mid hX hu ((mX _).2 (.inl (.inl ⟨e, he, .inl k⟩))), fun k => gaps_mid hX hu ((mX _).2 (.inl (.inl ⟨e, he, .inr k⟩)))⟩
  have meet : ∀ u ∈ gaps X, ∀ s ∈ A, ∀ t ∈ A, ∀ y, (⟨mid u, y⟩ : Point) ∈ s.pts → (⟨mid u, y⟩ : Point) ∈ t.pts → Overlapping s t :=
    fun u hu s hs t ht y h1 h2 => by
      by_contra k
      exact gaps_mid hX hu ((mX _).2 (.inl (.inr ⟨s, hs, t, ht, k, _, rfl, h1, h2⟩)))
  have off : ∀ u ∈ gaps X, ∀ y, (⟨mid u, y⟩ : Point) ∉ Z := fun u hu y k => gaps_mid hX hu ((mX _).2 (.inr ⟨_, k, rfl⟩))
  have hY : ∀ x, ∃ Y : List ℚ, Y.Pairwise (· < ·) ∧ ∀ y, y ∈ Y ↔ y ∈ {y | ∃ e ∈ A, height e x = y} := fun x =>
    exists_ascending (heights_finite A x)
  choose Y aY mY using hY
  -- the factor in a point
  have hg : ∀ x y, ∃ g : ℝ, 0 ≤ g ∧ ((∃ u ∈ gaps X, mid u = x) → ∀ s ∈ A, (⟨x, y⟩ : Point) ∈ s.pts → c s = g) := by
    intro x y
    by_cases k : (∃ u ∈ gaps X, mid u = x) ∧ ∃ s ∈ A, (⟨x, y⟩ : Point) ∈ s.pts
    · obtain ⟨⟨u, hu, rfl⟩, s, hs, hm⟩ := k
      exact ⟨c s, c0 s, fun _ t ht hm' => hc t ht s hs (meet u hu t ht s hs y hm' hm)⟩
    · exact ⟨0, le_rfl, fun k' s hs hm => (k ⟨k', s, hs, hm⟩).elim⟩
  choose g g0 hg using hg
  have t : ∀ p ∈ F, p.1 * (p.2.map fun s => c s * ((s.hi.x - s.lo.x : ℚ) : ℝ)).sum = ((gaps X).map fun u => ((u.2 - u.1 : ℚ) : ℝ) *
      ((Y (mid u)).map fun y => g (mid u) y * (p.1 * if (⟨mid u, y⟩ : Point) ∈ segsPts p.2 then 1 else 0)).sum).sum := by
    intro p hp
    have e1 : (p.2.map fun s => c s * ((s.hi.x - s.lo.x : ℚ) : ℝ)) = p.2.map fun s => ((gaps X).map fun u => ((u.2 - u.1 : ℚ) : ℝ) *
        if Active s (mid u) then c s else 0).sum := List.map_congr_left fun s hs => by
      have m1 : s.start.x ∈ X := (mX _).2 (.inl (.inl ⟨s, sub p hp s hs, .inl rfl⟩))
      have m2 : s.stop.x ∈ X := (mX _).2 (.inl (.inl ⟨s, sub p hp s hs, .inr rfl⟩))
      rcases lo_start_or s with ⟨k1, k2⟩ | ⟨k1, k2⟩
      · exact width_eq hX (by rw [k1]; exact m1) (by rw [k2]; exact m2) _
      · exact width_eq hX (by rw [k1]; exact m2) (by rw [k2]; exact m1) _
    rw [e1, sum_swap, ← mul_sum]
    congr 1
    refine List.map_congr_left fun u hu => ?_
    rw [mul_sum, mul_left_comm]
    congr 1
    have gen : Generic p.2 (mid u) := fun e he => generic u hu e (sub p hp e he)
    have e2 : (p.2.map fun s => if Active s (mid u) then c s else 0) = p.2.map fun s => ((Y (mid u)).map fun y =>
        if Active s (mid u) ∧ height s (mid u) = y then g (mid u) y else 0).sum := List.map_congr_left fun s hs => by
      by_cases k : Active s (mid u)
      · rw [if_pos k, hg (mid u) (height s (mid u)) ⟨u, hu, rfl⟩ s (sub p hp s hs) k.mem,
          ← sum_single (aY (mid u)) ((mY _ _).2 ⟨s, sub p hp s hs, rfl⟩) fun y => g (mid u) y]
        congr 1
        exact List.map_congr_left fun y _ => if_congr ⟨fun e => ⟨k, e⟩, fun e => e.2⟩ rfl rfl
      · rw [if_neg k, List.map_congr_left (g := fun _ => (0 : ℝ)) fun y _ => if_neg fun e => k e.1]
        simp
    rw [e2, sum_swap, ← mul_sum]
    congr 1
    refine List.map_congr_left fun y _ => ?_
    rw [sum_at gen ?_, mul_left_comm]
    exact (hF p hp).2.imp_of_mem fun hs ht no k => no (meet u hu _ (sub p hp _ hs) _ (sub p hp _ ht) y k.1 k.2)
  rw [List.map_congr_left t, sum_swap]
  refine sum_mul_nonneg _ _ fun u hu => ?_
  rw [mul_sum, sum_swap]
  refine mul_nonneg (by exact_mod_cast (by linarith [(gaps_spec hX hu).1] : (0 : ℚ) ≤ u.2 - u.1)) (sum_mul_nonneg _ _ fun y hy => ?_)
  rw [mul_sum]
  exact mul_nonneg (g0 _ _) (h _ (off u hu y))

end Clipping

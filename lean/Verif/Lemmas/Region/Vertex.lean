import Verif.Lemmas.Region.Union

/-!
# The even-odd rule near a vertex
-/

namespace Clipping

open Sweep

/-- The edge to `w` is below the one to `u`, and both are on the same side of `v`. -/
def TurnBelow (u v w : Point) : Prop := (v < u ∧ v < w ∧ cross v u w < 0) ∨ (u < v ∧ w < v ∧ 0 < cross v u w)

/-- the edges to `u` and `w` and the edges which are not incident to the vertex `v` -/
theorem vertex_parity {E : List Segment} (hp : ∀ e ∈ E, e.Proper) {u v w m : Point} (huv : u ≠ v) (hwv : w ≠ v)
    (hm : m ∈ (Segment.mk v u).pts) (hmv : m ≠ v) (hmu : m ≠ u) (deg : ∀ q, Even (degree (⟨u, w⟩ :: E) q))
    (off : ∀ q ∈ (Segment.mk v m).pts, q ∉ segsPts E)
    (hc : v < u ∧ v < w ∨ u < v ∧ w < v → cross v u w ≠ 0) :
    ind (Inside (⟨u, v⟩ :: ⟨v, w⟩ :: E) m) = ind (Inside E v) + ind (TurnBelow u v w) := by
  have dbl : ∀ z : ZMod 2, z + z = 0 := CharTwo.add_self_eq_zero
  obtain ⟨t, t0, t1, tx, ty⟩ := hm
  simp only at tx ty
  have tpos : 0 < t := by
    rcases t0.eq_or_lt with h | h
    · exfalso; apply hmv
      rw [← h] at tx ty
      exact Point.ext' (by linarith) (by linarith)
    · exact h
  have tlt : t < 1 := by
    rcases t1.eq_or_lt with h | h
    · exfalso; apply hmu
      rw [h] at tx ty
      exact Point.ext' (by linarith) (by linarith)
    · exact h
  have cm : ∀ q, cross v m q = t * cross v u q := by
    intro q; unfold cross; rw [tx, ty]; ring
  have sum : ind (Inside (⟨u, v⟩ :: ⟨v, w⟩ :: E) m) = ind (IsBelow ⟨v, w⟩ m) + ind (Inside E m) := by
    rw [inside_sum, inside_sum, List.map_cons, List.map_cons, List.sum_cons, List.sum_cons]
    have : ¬ IsBelow ⟨u, v⟩ m := by
      rintro ⟨-, -, h⟩
      have e : cross u v m = 0 := by
        unfold cross; rw [tx, ty]; ring
      rcases Segment.lo_hi_cases ⟨u, v⟩ with ⟨h1, h2, -⟩ | ⟨h1, h2, -⟩ <;> rw [h1, h2] at h
      · simp only at h; linarith
      · simp only at h; rw [cross_swap] at h; linarith
    rw [ind_neg this, zero_add]
  have hne : (Segment.mk v m).Proper := fun h => hmv h.symm
  have ch := inside_change hp hne off
  set lo := (Segment.mk v m).lo with hlo
  set hi := (Segment.mk v m).hi with hhi
  have se := sum_ends_list deg (fun q => lo < q ∧ q ≤ hi ∧ cross lo hi q < 0)
  rw [List.map_cons, List.sum_cons] at se
  simp only at se
  rw [← ch] at se
  have inE : ind (Inside E lo) + ind (Inside E hi) = ind (Inside E v) + ind (Inside E m) := by
    rcases Segment.lo_hi_cases ⟨v, m⟩ with ⟨h1, h2, -⟩ | ⟨h1, h2, -⟩
    · rw [hlo, hhi, h1, h2]
    · rw [hlo, hhi, h1, h2, add_comm]
  rw [inE] at se
  have xu : ¬ (lo < u ∧ u ≤ hi ∧ cross lo hi u < 0) := by
    rintro ⟨-, -, h⟩
    have e : cross v m u = 0 := by rw [cm]; unfold cross; ring
    rcases Segment.lo_hi_cases ⟨v, m⟩ with ⟨h1, h2, -⟩ | ⟨h1, h2, -⟩ <;> rw [hlo, hhi, h1, h2] at h
    · simp only at h; linarith
    · simp only at h; rw [cross_swap] at h; linarith
  rw [ind_neg xu, zero_add] at se
  have key : ind (IsBelow ⟨v, w⟩ m) + ind (lo < w ∧ w ≤ hi ∧ cross lo hi w < 0) = ind (TurnBelow u v w) := by
    rcases lt_or_gt_of_ne huv with hu | hu
    · -- the edge comes from the left
      have hmv' : m < v := by
        rw [Point.lt_def] at hu ⊢
        rcases hu with h | ⟨h1, h2⟩
        · left; nlinarith
        · right; exact ⟨by rw [tx, h1]; ring, by nlinarith⟩
      have e1 : lo = m := min_eq_right hmv'.le
      have e2 : hi = v := max_eq_left hmv'.le
      rw [e1, e2]
      have cmv : cross m v w = - (t * cross v u w) := by rw [cross_swap, cm]
      rcases lt_or_gt_of_ne hwv with hw | hw
      · have hc' := hc (Or.inr ⟨hu, hw⟩)
        have el : (Segment.mk v w).lo = w := min_eq_right hw.le
        have eh : (Segment.mk v w).hi = v := max_eq_left hw.le
        have cw : cross w v m = t * cross v u w := by rw [← cm, cross_rot]
        have T : TurnBelow u v w ↔ 0 < cross v u w := by
          unfold TurnBelow
          constructor
          · rintro (⟨h, -⟩ | ⟨-, -, h⟩)
            · exact absurd h hu.asymm
            · exact h
          · intro h; exact Or.inr ⟨hu, hw, h⟩
        rw [ind_congr T]
        by_cases hmw : m < w
        · have : ¬ IsBelow ⟨v, w⟩ m := by
            unfold IsBelow
            rw [el, eh]
            rintro ⟨h1, h2, h3⟩
            rw [Point.lt_def] at hmw
            have hx : m.x = w.x := by
              rcases hmw with h | h
              · linarith
              · exact h.1
            have hy : m.y < w.y := by rcases hmw with h | h; exacts [absurd h (by linarith), h.2]
            unfold cross at h3
            rw [hx] at h3 h2
            nlinarith
          rw [ind_neg this, zero_add]
          apply ind_congr
          rw [cmv]
          constructor
          · rintro ⟨-, -, h⟩; exact (pos_iff_pos_of_mul_pos (by linarith : 0 < t * cross v u w)).1 tpos
          · intro h; exact ⟨hmw, hw.le, by nlinarith [mul_pos tpos h]⟩
        · have hwm : w < m := by
            rcases lt_trichotomy m w with h | h | h
            · exact absurd h hmw
            · exfalso
              apply hc'
              rw [← h] at cw ⊢
              have : cross m v m = 0 := by unfold cross; ring
              rw [this] at cw
              rcases mul_eq_zero.1 cw.symm with h | h
              · exact absurd h tpos.ne'
              · exact h
            · exact h
          rw [ind_neg (P := m < w ∧ _) (fun h => hmw h.1), add_zero]
          apply ind_congr
          unfold IsBelow
          rw [el, eh]
          constructor
          · rintro ⟨-, -, h⟩
            rw [cw] at h
            exact (pos_iff_pos_of_mul_pos h).1 tpos
          · intro h
            have h3 : 0 < cross w v m := by rw [cw]; exact mul_pos tpos h
            have wx : w.x ≤ m.x := by
              rw [Point.lt_def] at hwm; rcases hwm with h | h; exacts [h.le, h.1.le]
            refine ⟨wx, ?_, h3⟩
            rw [Point.lt_def] at hmv'
            rcases hmv' with h' | ⟨h1, h2⟩
            · exact h'
            · exfalso
              unfold cross at h3
              rw [h1] at h3 wx
              nlinarith
      · have el : (Segment.mk v w).lo = v := min_eq_left hw.le
        have eh : (Segment.mk v w).hi = w := max_eq_right hw.le
        rw [ind_neg (P := m < w ∧ _) (fun h => absurd h.2.1 (not_le.2 hw)), ind_neg (P := IsBelow _ _),
          ind_neg (P := TurnBelow _ _ _), zero_add]
        · rintro (⟨h, -⟩ | ⟨-, h, -⟩)
          · exact absurd h hu.asymm
          · exact absurd h hw.asymm
        · unfold IsBelow
          rw [el, eh]
          rintro ⟨h1, h2, h3⟩
          rw [Point.lt_def] at hmv'
          rcases hmv' with h' | ⟨h4, h5⟩
          · linarith
          · unfold cross at h3
            rw [h4] at h3 h2
            nlinarith
    · have hmv' : v < m := by
        have hu' : v < u := hu
        rw [Point.lt_def] at hu' ⊢
        rcases hu' with h | ⟨h1, h2⟩
        · left; nlinarith
        · right; exact ⟨by rw [tx, ← h1]; ring, by nlinarith⟩
      have e1 : lo = v := min_eq_left hmv'.le
      have e2 : hi = m := max_eq_right hmv'.le
      rw [e1, e2]
      rcases lt_or_gt_of_ne hwv with hw | hw
      · have el : (Segment.mk v w).lo = w := min_eq_right hw.le
        have eh : (Segment.mk v w).hi = v := max_eq_left hw.le
        rw [ind_neg (P := v < w ∧ _) (fun h => absurd h.1 hw.asymm), ind_neg (P := IsBelow _ _),
          ind_neg (P := TurnBelow _ _ _), zero_add]
        · rintro (⟨-, h, -⟩ | ⟨h, -⟩)
          · exact absurd h hw.asymm
          · exact absurd h (show v < u from hu).asymm
        · unfold IsBelow
          rw [el, eh]
          rintro ⟨h1, h2, h3⟩
          rw [Point.lt_def] at hmv'
          rcases hmv' with h | h
          · linarith
          · linarith [h.1]
      · have hc' := hc (Or.inl ⟨hu, hw⟩)
        have el : (Segment.mk v w).lo = v := min_eq_left (le_of_lt hw)
        have eh : (Segment.mk v w).hi = w := max_eq_right (le_of_lt hw)
        have cw : cross v w m = - (t * cross v u w) := by
          rw [← cm]; unfold cross; ring
        have T : TurnBelow u v w ↔ cross v u w < 0 := by
          unfold TurnBelow
          constructor
          · rintro (⟨-, -, h⟩ | ⟨h, -⟩)
            · exact h
            · exact absurd h (show v < u from hu).asymm
          · intro h; exact Or.inl ⟨hu, hw, h⟩
        rw [ind_congr T]
        by_cases hwm : w ≤ m
        · have : ¬ IsBelow ⟨v, w⟩ m := by
            unfold IsBelow
            rw [el, eh]
            rintro ⟨h1, h2, h3⟩
            rw [Point.le_def] at hwm
            rcases hwm with h | h
            · linarith
            · linarith [h.1]
          rw [ind_neg this, zero_add]
          apply ind_congr
          rw [cm]
          constructor
          · rintro ⟨-, -, h⟩
            by_contra hn
            push Not at hn
            have := mul_nonneg tpos.le hn
            linarith
          · intro h; exact ⟨hw, hwm, mul_neg_of_pos_of_neg tpos h⟩
        · have hmw : m < w := not_le.1 hwm
          rw [ind_neg (P := v < w ∧ _) (fun h => hwm h.2.1), add_zero]
          apply ind_congr
          unfold IsBelow
          rw [el, eh]
          constructor
          · rintro ⟨-, -, h⟩
            rw [cw] at h
            by_contra hn
            push Not at hn
            have := mul_nonneg tpos.le hn
            linarith
          · intro h
            have h3 : 0 < cross v w m := by rw [cw]; have := mul_neg_of_pos_of_neg tpos h; linarith
            have vx : v.x ≤ m.x := by
              rw [Point.lt_def] at hmv'; rcases hmv' with h | h; exacts [h.le, h.1.le]
            refine ⟨vx, ?_, h3⟩
            rw [Point.lt_def] at hmw
            rcases hmw with h' | ⟨h1, h2⟩
            · exact h'
            · exfalso
              unfold cross at h3
              rw [h1] at h3 vx
              nlinarith
  rw [sum]
  have k2 := dbl (ind (Inside E v))
  have k3 := dbl (ind (lo < w ∧ w ≤ hi ∧ cross lo hi w < 0))
  linear_combination key + se - k3 - k2

end Clipping

import Verif.Lemmas.Region.Dense
import Verif.Lemmas.Region.OverlayBoundary

/-!
# Regions given by edges are closed and have points of both sides near their edges
-/

namespace Clipping

open Sweep

variable {E X : List Segment}

/-- Near a point of an edge there are points of the inside and of the outside. -/
theorem near_both (no : NoOverlap E) (hd : ∀ q, Even (degree E q)) {q : Point} (hq : q ∈ segsPts E)
    (hX : ∀ s ∈ X, s.Proper) {δ : ℚ} (hδ : 0 < δ) :
    (∃ z, Near δ q z ∧ z ∉ segsPts X ∧ z ∉ segsPts E ∧ Inside E z) ∧
      ∃ z, Near δ q z ∧ z ∉ segsPts X ∧ z ∉ segsPts E ∧ ¬ Inside E z := by
  classical
  obtain ⟨e, he, hqe⟩ := hq
  have perm := List.perm_cons_erase he
  have no' := no.perm perm
  have no2 := (List.pairwise_cons.1 no'.2).1
  obtain ⟨m, hm, hi, hn, hoff⟩ := exists_alone (no.1 e he) (X := E.erase e)
    (fun s hs => no.1 s (List.mem_of_mem_erase hs)) (fun s hs => no2 s hs) hqe (half_pos hδ)
  have hp : ∀ s ∈ e :: E.erase e, s.Proper := fun s hs => no.1 s (perm.mem_iff.2 hs)
  have hd' : ∀ q, Even (degree (e :: E.erase e) q) := fun q => by
    rw [← degree_perm perm]; exact hd q
  have ins : ∀ z, Inside (e :: E.erase e) z ↔ Inside E z := fun z => by
    unfold Inside; rw [perm.countP_eq]
  obtain ⟨η, η0, hη⟩ := local_sides hp hd' hm hi hoff
  have lo : e.lo ∈ e.pts := e.lo_mem
  have hlh : (⟨e.lo, e.hi⟩ : Segment).pts = e.pts := pts_lo_hi e
  have step : ∀ w, Near (min η (δ / 2 / 2)) m w → cross e.lo e.hi w ≠ 0 → ∃ z, Near δ q z ∧ z ∉ segsPts X ∧
      z ∉ segsPts E ∧ (Inside E z ↔ Inside E w) := by
    intro w hw hc
    have hwE : w ∉ segsPts E := by
      rintro ⟨s, hs, hws⟩
      by_cases hse : s = e
      · subst hse
        exact hc ((Segment.mem_iff (no.1 s hs)).1 hws).1
      · exact (hη w (hw.mono (min_le_left _ _))).1 ⟨s, (List.mem_erase_of_ne hse).2 hs, hws⟩
    obtain ⟨κ, κ0, hκ⟩ := exists_near_off_all no.1 hwE
    obtain ⟨z, hz, hzx⟩ := exists_off hX w (lt_min κ0 (half_pos (half_pos hδ)))
    have hzn := hz.mono (min_le_left κ _)
    have := hn.trans ((hw.mono (min_le_right _ _)).trans (hz.mono (min_le_right _ _)))
    rw [add_halves, add_halves] at this
    exact ⟨z, this, hzx, hκ z hzn, (inside_const no.1 hd (s := ⟨w, z⟩) fun r hr => hκ r (hzn.path r hr)).symm⟩
  have pr : (⟨e.lo, e.hi⟩ : Segment).Proper := (lo_lt_hi (no.1 e he)).ne
  obtain ⟨w, hw, hwc⟩ := exists_left_near (e := ⟨e.lo, e.hi⟩) pr (by rw [hlh]; exact hm)
    (lt_min η0 (half_pos (half_pos hδ)))
  obtain ⟨v, hv, hvc⟩ := exists_left_near (e := ⟨e.hi, e.lo⟩) (Ne.symm pr)
    (by rw [Segment.pts_swap, hlh]; exact hm) (lt_min η0 (half_pos (half_pos hδ)))
  simp only at hwc hvc
  rw [cross_swap] at hvc
  obtain ⟨z, z1, z2, z3, z4⟩ := step w hw hwc.ne'
  obtain ⟨y, y1, y2, y3, y4⟩ := step v hv (by intro h; rw [h] at hvc; simp at hvc)
  have g1 := (hη w (hw.mono (min_le_left _ _))).2.1 hwc
  have g2 := (hη v (hv.mono (min_le_left _ _))).2.2 (by linarith)
  rw [ins, ins] at g1 g2
  by_cases hmi : Inside E m
  · exact ⟨⟨y, y1, y2, y3, y4.2 (g2.2 hmi)⟩, z, z1, z2, z3, fun h => (g1.1 (z4.1 h)) hmi⟩
  · exact ⟨⟨z, z1, z2, z3, z4.2 (g1.2 hmi)⟩, y, y1, y2, y3, fun h => hmi (g2.1 (y4.1 h))⟩

/-- A region is the closure of its inside. -/
theorem mem_region_iff (no : NoOverlap E) (hd : ∀ q, Even (degree E q)) (hX : ∀ s ∈ X, s.Proper) {q : Point} :
    q ∈ regionPts E ↔ ∀ δ > 0, ∃ z, Near δ q z ∧ z ∉ segsPts X ∧ z ∉ segsPts E ∧ Inside E z := by
  constructor
  · intro hq δ hδ
    by_cases hqE : q ∈ segsPts E
    · exact (near_both no hd hqE hX hδ).1
    · have hin : Inside E q := by
        rcases hq with h | h
        · exact absurd h hqE
        · exact h
      obtain ⟨κ, κ0, hκ⟩ := exists_near_off_all no.1 hqE
      obtain ⟨z, hz, hzx⟩ := exists_off hX q (lt_min κ0 hδ)
      have hzn := hz.mono (min_le_left κ _)
      exact ⟨z, hz.mono (min_le_right _ _), hzx, hκ z hzn,
        (inside_const no.1 hd (s := ⟨q, z⟩) fun r hr => hκ r (hzn.path r hr)).1 hin⟩
  · intro h
    by_contra hq
    have hqE : q ∉ segsPts E := fun hh => hq (Or.inl hh)
    obtain ⟨κ, κ0, hκ⟩ := exists_near_off_all no.1 hqE
    obtain ⟨z, hz, -, -, hin⟩ := h κ κ0
    exact hq (Or.inr ((inside_const no.1 hd (s := ⟨q, z⟩) fun r hr => hκ r (hz.path r hr)).2 hin))

end Clipping

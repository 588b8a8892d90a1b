import Verif.Lemmas.Shaped.Graph
import Verif.Lemmas.Plane.Traced
import Verif.Model.Holey

/-!
# The contours of the result
-/

namespace Clipping

namespace Selected

open Darts

variable {h : Heap ShapedData} {events : List Ev}

theorem darts_opp (S : Selected h events) (i : ℕ) :
    S.darts.opp i = eventId (sortEvents h events) (h.opposite (ev h events i)) := rfl

theorem darts_key (S : Selected h events) (i : ℕ) : S.darts.key i = h.evStart (ev h events i) := rfl

theorem darts_stop (S : Selected h events) {i : ℕ} (hi : i < S.darts.n) :
    S.darts.key (S.darts.opp i) = h.evStop (ev h events i) := by
  have hm := ev_mem hi
  rw [darts_key, darts_opp]
  unfold ev at hm ⊢
  rw [getD_eventId (sort_perm.mem_iff.2 (S.opposite _ hm))]
  rfl

/-- The steps of the tracing -/
theorem exists_steps (S : Selected h events) {processed : ℕ → Bool} {F : Finset ℕ} (hF : S.darts.Closed F)
    (even : ∀ q, Even (degree (S.darts.edges F) q)) (hp : ∀ i < S.darts.n, i ∈ F ↔ processed i = false) :
    ∃ nx, S.darts.Steps F nx ∧ ∀ i ∈ F, nextEventId (eventsToConnectivity h (sortEvents h events)) processed
      (S.darts.opp i) (sortEvents h events).length (S.darts.opp i) = .ok (some (nx i)) := by
  classical
  have key : ∀ i, ∃ j, i ∈ F → nextEventId (eventsToConnectivity h (sortEvents h events)) processed
      (S.darts.opp i) (sortEvents h events).length (S.darts.opp i) = .ok (some j) ∧ S.darts.Next F (S.darts.opp i) j := by
    intro i
    by_cases hi : i ∈ F
    · have ho := hF.opp i hi
      obtain ⟨j, hj⟩ := S.next hF hp (hF.lt _ ho) (hF.another even ho)
      exact ⟨j, fun _ => hj⟩
    · exact ⟨0, fun h => absurd h hi⟩
  choose nx hnx using key
  exact ⟨nx, ⟨hF, even, fun i hi => (hnx i hi).2⟩, fun i hi => (hnx i hi).1⟩

theorem contourEventsLoop_traced (S : Selected h events) {processed : ℕ → Bool} {F : Finset ℕ} {nx : ℕ → ℕ}
    (N : S.darts.Steps F nx)
    (hnx : ∀ i ∈ F, nextEventId (eventsToConnectivity h (sortEvents h events)) processed
      (S.darts.opp i) (sortEvents h events).length (S.darts.opp i) = .ok (some (nx i))) {d : ℕ} (hd : d ∈ F) :
    ∀ (fuel k : ℕ) (R : List ℕ) (pos : Point → Option ℕ), S.darts.Walk nx d R pos k → F.card ≤ fuel + k →
      ∃ R', contourEventsLoop h (sortEvents h events) (eventsToConnectivity h (sortEvents h events)) processed
        (S.darts.key d) fuel (ev h events (nx^[k] d)) (S.darts.opp (nx^[k] d)) pos (R.map (ev h events)) =
          .ok (R'.map (ev h events)) ∧ S.darts.Traced F d R' := by
  intro fuel
  induction fuel with
  | zero =>
    intro k R pos W hf
    have := W.bound N hd
    omega
  | succ fuel ih =>
    intro k R pos W hf
    have hk := N.mem hd k
    have lk := N.closed.lt _ hk
    have hstop := S.darts_stop lk
    rw [contourEventsLoop]
    dsimp only
    rw [← hstop, hnx _ hk]
    split_ifs with he
    · exact ⟨R, rfl, W.finish N hd he⟩
    · dsimp only
      have step : ∀ (R₁ : List ℕ) (pos₁ : Point → Option ℕ), S.darts.Walk nx d (R₁ ++ [nx (nx^[k] d)]) pos₁ (k + 1) →
          ∃ R', contourEventsLoop h (sortEvents h events) (eventsToConnectivity h (sortEvents h events)) processed
            (S.darts.key d) fuel ((sortEvents h events).getD (nx (nx^[k] d)) (.left 0))
            (eventId (sortEvents h events) (h.opposite ((sortEvents h events).getD (nx (nx^[k] d)) (.left 0)))) pos₁
            (R₁.map (ev h events) ++ [(sortEvents h events).getD (nx (nx^[k] d)) (.left 0)]) =
              .ok (R'.map (ev h events)) ∧ S.darts.Traced F d R' := by
        intro R₁ pos₁ W₁
        obtain ⟨R', h1, h2⟩ := ih (k + 1) _ pos₁ W₁ (by omega)
        refine ⟨R', ?_, h2⟩
        rw [List.map_append, Function.iterate_succ_apply'] at h1
        exact h1
      cases hpos : pos (S.darts.key (S.darts.opp (nx^[k] d))) with
      | none =>
        dsimp only
        rw [List.length_map]
        exact step _ _ (W.extend N hd he hpos)
      | some p =>
        obtain ⟨p0, W₁⟩ := W.cut N hd he hpos
        obtain ⟨p, rfl⟩ : ∃ p', p = p' + 1 := ⟨p - 1, by omega⟩
        dsimp only
        rw [← List.map_take]
        exact step _ _ W₁

/-- `_to_contour_events` traces a contour. -/
theorem toContourEvents_traced (S : Selected h events) {processed : ℕ → Bool} {F : Finset ℕ} (hF : S.darts.Closed F)
    (even : ∀ q, Even (degree (S.darts.edges F) q)) (hp : ∀ i < S.darts.n, i ∈ F ↔ processed i = false) {d : ℕ}
    (hd : d ∈ F) :
    ∃ R, toContourEvents h (sortEvents h events) (eventsToConnectivity h (sortEvents h events)) processed
      (ev h events d) = .ok (R.map (ev h events)) ∧ S.darts.Traced F d R := by
  obtain ⟨nx, N, hnx⟩ := S.exists_steps hF even hp
  have := S.contourEventsLoop_traced N hnx hd (sortEvents h events).length 0 [d] _ Walk.init (by
    have hs : F ⊆ Finset.range S.darts.n := fun i hi => Finset.mem_range.2 (hF.lt i hi)
    have := Finset.card_le_card hs
    rw [Finset.card_range] at this
    exact this)
  exact this

end Selected

end Clipping

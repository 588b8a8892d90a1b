import Verif.Lemmas.Below.Run
import Verif.Lemmas.Shaped.Tracing

/-!
# Events below at the end of the sweep
-/

namespace Clipping

open Sweep

variable {rule : ShapedRule} {op : Bool → Bool → Bool} {tb : TieBreak} {xmax : Option ℚ} {A B : List Segment}
  {h : Heap ShapedData} {events : List Ev}

/-- The last state of a sweep. -/
theorem shapedSweep_reach {O : Ops ShapedData} (hA : IsBoundary A) (hB : IsBoundary B)
    (e : shapedSweep O tb xmax A B = .ok (h, events)) :
    ∃ s log, Reach O tb (initState O.toPayload ⟨false, false, .none, false, none⟩ A B) s log ∧ h = s.store.heap ∧
      ∀ e, e ∈ events ↔ e ∈ log.map Prod.fst := by
  have ok := operandsOk_marked hA.noOverlap hB.noOverlap
  obtain ⟨s, log, e', r, -⟩ := sweep_final O ⟨false, false, .none, false, none⟩ tb (stopAt xmax) ok (stopAt_mono xmax)
  unfold shapedSweep at e
  rw [e'] at e
  simp only [Except.ok.injEq, Prod.mk.injEq] at e
  refine ⟨s, log, r, e.1.symm, fun e' => ?_⟩
  rw [← e.2, List.map_reverse, List.mem_reverse]

/-- The events below belong to the result and precede the events above them. -/
theorem holey_belowOk (hr : RuleOk rule) (hA : IsBoundary A) (hB : IsBoundary B)
    (e : shapedSweep (holeyOps rule) tb xmax A B = .ok (h, events))
    (E : ShapedEnd op h events (stopAt xmax) A B) : Selected.BelowOk h (events.filter (fromResult h)) := by
  obtain ⟨s, log, r, rfl, hm⟩ := shapedSweep_reach hA hB e
  have ok := operandsOk_marked hA.noOverlap hB.noOverlap
  have fr := fresh_init (holeyOps rule).toPayload ⟨false, false, .none, false, none⟩ A B
  obtain ⟨ε, Y, p, -, S0, -⟩ := fr.stX ok []
  obtain ⟨F, p', S, l, -, I⟩ := below_reach hr (init := initState (holeyOps rule).toPayload _ A B) S0 rfl (by
    intro k hk
    change k < (initStore _ _ A B).heap.count at hk
    rw [fr.count] at hk
    exact ⟨_, init_data (holeyOps rule).toPayload _ A B k _ (List.getElem?_eq_getElem hk)⟩) r
  intro i hi b hb
  have hi' := List.mem_filter.1 hi
  obtain ⟨m1, m2, m3, -⟩ := I.main i (by rw [List.mem_append, ← l.left, ← hm]; exact hi'.1) b hb
  rw [List.mem_append, ← l.left, ← hm] at m1
  have hbm : Ev.left b ∈ events.filter (fromResult s.store.heap) := List.mem_filter.2 ⟨m1, m2⟩
  refine ⟨hbm, ?_⟩
  have hin : i < s.store.heap.count := ((E.mem _).1 hi'.1).1
  have hbn : b < s.store.heap.count := ((E.mem _).1 m1).1
  have pi := S.pts.mem i hin
  have pb := S.pts.mem b hbn
  have pr := S.inv'.proper
  rcases m3 with m3 | ⟨m3, m4⟩
  · left
    exact (S.pts.ord.lt_iff pb.1 pi.1).2 m3
  · right
    have hs : s.store.heap.start b = s.store.heap.start i := (S.pts.ord.eq_iff pb.1 pi.1).2 m3
    have hbi : Ev.left b ≠ Ev.left i := by
      rintro hh
      cases hh
      rcases m4 with h | ⟨-, h1, h2⟩
      · exact lt_irrefl _ h
      · rw [h1] at h2; cases h2
    refine ⟨hs, Or.inr (Or.inr ⟨rfl, rfl, ?_⟩)⟩
    obtain ⟨o1, o2⟩ := orientation_left (pr b hbn) (pr i hin) hs
    have hc : cross (s.store.heap.start b) (s.store.heap.stop b) (s.store.heap.stop i) =
        det (evDir s.store.heap (.left b)) (evDir s.store.heap (.left i)) := by
      rw [cross_eq_det]
      change _ = det (vec (s.store.heap.start b) (s.store.heap.stop b)) (vec (s.store.heap.start i) (s.store.heap.stop i))
      rw [← hs]
    rw [orientation_ccw, hc] at o1
    rw [orientation_col, hc] at o2
    rcases m4 with m4 | ⟨m4, -⟩
    · exact o1.2 m4
    · exact absurd (o2.2 m4) (E.selected.det_ne hbm hi hbi hs rfl)

end Clipping

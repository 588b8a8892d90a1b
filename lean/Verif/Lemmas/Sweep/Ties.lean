import Verif.Lemmas.Flags.Left
import Verif.Lemmas.Sweep.Final

/-!
# No two events of the queue are equal for its order

While two valid operands are swept no two events of the queue agree in the point, the side, the
slope and the operand.  So it does not matter how the queue orders equal events.
-/

namespace Clipping.Sweep

variable {α : Type} {ε : ℚ} {Pt : List Point} {Y : ℚ → ℚ} {s : Store α} {L F : List ℕ} {p : ℚ}

theorem precedes_total (S : St ε Pt Y s L F p NoEx) {e f : Ev} (he : EvOk s.heap e) (hf : EvOk s.heap f)
    (h1 : precedes s.heap f e = false) (h2 : precedes s.heap e f = false) : e = f := by
  have I := S.inv'
  have pr : ∀ i < s.heap.count, (absSeg ε s.heap i).a < (absSeg ε s.heap i).b := I.proper
  have n1 := mt (precedes_iff S.ok S.pts pr he hf).2 (by simp [h1])
  have n2 := mt (precedes_iff S.ok S.pts pr hf he).2 (by simp [h2])
  have ex : evX ε s.heap e = evX ε s.heap f := by
    rcases lt_trichotomy (evX ε s.heap e) (evX ε s.heap f) with h | h | h
    · exact absurd (Or.inl h) n2
    · exact h
    · exact absurd (Or.inl h) n1
  have es : evSide e = evSide f := by
    rcases lt_trichotomy (evSide e) (evSide f) with h | h | h
    · exact absurd (Or.inr ⟨ex, Or.inl h⟩) n2
    · exact h
    · exact absurd (Or.inr ⟨ex.symm, Or.inl h⟩) n1
  have em : evSlope ε s.heap e = evSlope ε s.heap f := by
    rcases lt_trichotomy (evSlope ε s.heap e) (evSlope ε s.heap f) with h | h | h
    · exact absurd (Or.inr ⟨ex, Or.inr ⟨es, Or.inl h⟩⟩) n2
    · exact h
    · exact absurd (Or.inr ⟨ex.symm, Or.inr ⟨es.symm, Or.inl h⟩⟩) n1
  have ef : s.heap.evFirst e = s.heap.evFirst f := by
    cases h : s.heap.evFirst e <;> cases h' : s.heap.evFirst f
    · rfl
    · exact absurd (Or.inr ⟨ex, Or.inr ⟨es, Or.inr ⟨em, h, h'⟩⟩⟩) n2
    · exact absurd (Or.inr ⟨ex.symm, Or.inr ⟨es.symm, Or.inr ⟨em.symm, h', h⟩⟩⟩) n1
    · rfl
  cases e with
  | left i =>
    cases f with
    | right k => exact absurd es (by simp [evSide])
    | left k =>
      by_contra hne
      have hne' : i ≠ k := fun h => hne (by rw [h])
      have ha : (absSeg ε s.heap i).a = (absSeg ε s.heap k).a := ex
      have hm : (absSeg ε s.heap i).m = (absSeg ε s.heap k).m := em
      have y1 := (I.endsY i he).1
      have y2 := (I.endsY k hf).1
      have col : Col (absSeg ε s.heap i) (absSeg ε s.heap k) := by
        refine ⟨hm, ?_⟩
        unfold Seg.y at y1 y2
        rw [ha, hm] at y1
        linarith
      have p1 := I.proper i he
      have p2 := I.proper k hf
      rcases I.noOv i he k hf hne' col ef with h | h <;> linarith
  | right j =>
    cases f with
    | left k => exact absurd es (by simp [evSide])
    | right k =>
      have hj := S.ok.llt j he
      have hk := S.ok.llt k hf
      by_contra hne
      have hne' : (s.heap.rights j).left ≠ (s.heap.rights k).left := fun h => hne (by
        rw [← S.ok.rl j he, ← S.ok.rl k hf, h])
      have hb : (absSeg ε s.heap (s.heap.rights j).left).b = (absSeg ε s.heap (s.heap.rights k).left).b := by
        have := ex
        unfold evX at this
        rw [evStart_right S.ok he, evStart_right S.ok hf] at this
        exact this
      have hm : (absSeg ε s.heap (s.heap.rights j).left).m = (absSeg ε s.heap (s.heap.rights k).left).m :=
        neg_injective em
      have y1 := (I.endsY _ hj).2
      have y2 := (I.endsY _ hk).2
      have col : Col (absSeg ε s.heap (s.heap.rights j).left) (absSeg ε s.heap (s.heap.rights k).left) := by
        refine ⟨hm, ?_⟩
        unfold Seg.y at y1 y2
        rw [hb, hm] at y1
        linarith
      have p1 := I.proper _ hj
      have p2 := I.proper _ hk
      rcases I.noOv _ hj _ hk hne' col ef with h | h <;> linarith

/-- The next event does not depend on how equal events are ordered. -/
theorem pop_tie (S : St ε Pt Y s L F p NoEx) (tb tb' : TieBreak) : pop tb s = pop tb' s := by
  have p1 := pop_spec (tb := tb) S.ok S.pts S.inv'.proper S.queue.evOk
  have p2 := pop_spec (tb := tb') S.ok S.pts S.inv'.proper S.queue.evOk
  rcases h1 : pop tb s with _ | ⟨e, q⟩
  · rw [p2.1.2 (p1.1.1 h1)]
  · rcases h2 : pop tb' s with _ | ⟨e', q'⟩
    · rw [p1.1.2 (p2.1.1 h2)] at h1
      exact absurd h1 (by simp)
    · obtain ⟨a1, a2, a3⟩ := p1.2 e q h1
      obtain ⟨b1, b2, b3⟩ := p2.2 e' q' h2
      have : e = e' := precedes_total S (S.queue.evOk e a1) (S.queue.evOk e' b1) (a3 e' b1) (b3 e a1)
      rw [a2, b2, this]

end Clipping.Sweep

namespace Clipping

open Sweep

variable {α : Type}

theorem sweepLoop_tie (O : Ops α) (tb tb' : TieBreak) (stop : Point → Bool) {init : SweepState α}
    (h : ∀ s log, Reach O tb init s log → pop tb s.store = pop tb' s.store) :
    ∀ fuel s log, Reach O tb init s log → sweepLoop O tb stop fuel s log = sweepLoop O tb' stop fuel s log := by
  intro fuel
  induction fuel with
  | zero => intro s log _; rfl
  | succ fuel ih =>
    intro s log r
    unfold sweepLoop
    rw [← h s log r]
    rcases hp : pop tb s.store with _ | ⟨e, q⟩
    · rfl
    · dsimp only
      split_ifs with hs
      · rfl
      · rcases hpr : processEvent O { s with store := { s.store with queue := q } } e with err | s'
        · rfl
        · exact ih s' _ (r.step hp hpr)

/-- A sweep does not depend on how the queue orders equal events: there are none. -/
theorem sweep_tie (O : Ops α) (d : α) (tb tb' : TieBreak) (stop : Point → Bool) {first second : List Segment}
    (ok : OperandsOk (marked first second)) :
    sweep O d tb stop first second = sweep O d tb' stop first second := by
  obtain ⟨ε, Pt, Y, h, -, -⟩ := reach_ok O d tb ok
  refine sweepLoop_tie O tb tb' stop (fun s log r => ?_) _ _ _ .init
  obtain ⟨F, p, S, -⟩ := h s log r
  exact pop_tie S tb tb'

end Clipping

import Verif.Lemmas.Below.Under

/-!
# Events below which are up to date
-/

namespace Clipping

open Sweep

variable {rule : ShapedRule} {ε : ℚ} {Pt : List Point} {Y : ℚ → ℚ} {L F L' F' M : List ℕ} {p p' : ℚ}
  {s s' : Store ShapedData}

/-- The event below an event whose next segment below is the given one. -/
def freshBw (h : Heap ShapedData) (b : ℕ) : Option ℕ :=
  if (h.lefts b).data.fromShapedResult && !h.isVertical b then some b else Bw h b

theorem bwFrom_fresh {h : Heap ShapedData} {b : ℕ} (d : Decided rule h b) : bwFrom rule h b = freshBw h b := by
  unfold bwFrom freshBw
  rw [d]
  cases (h.lefts b).data.fromShapedResult <;> cases h.isVertical b <;> rfl

theorem freshBw_congr {h h' : Heap ShapedData} {b : ℕ}
    (h1 : (h'.lefts b).data.fromShapedResult = (h.lefts b).data.fromShapedResult)
    (h2 : h'.isVertical b = h.isVertical b) (h3 : Bw h' b = Bw h b) : freshBw h' b = freshBw h b := by
  unfold freshBw
  rw [h1, h2, h3]

/-- An event waits for an overlapping one, has nothing below, or refers to what is next below. -/
def IsFresh (ε : ℚ) (s : Store ShapedData) (L F : List ℕ) (i : ℕ) : Prop :=
  Pend (absSeg ε s.heap) s.heap.count L F i ∨ Lowest (absSeg ε s.heap) s.heap.count i ∨
  ∃ b ∈ L ++ F, Under (absSeg ε s.heap) s.heap.count i b ∧
    (∀ k < s.heap.count, k ∉ L → k ∉ F → ¬ Hot ε s.heap k b) ∧
    (s.heap.isVertical b = true → Hot ε s.heap b i) ∧ Bw s.heap i = freshBw s.heap b

/-- Processed segments have started. -/
theorem Sweep.Inv.le_p {A : ℕ → Seg} {n : ℕ} {Ex : ℕ → ℕ → Prop} (I : Inv Y A n L F p Ex) {i : ℕ} (hi : i ∈ L ++ F) :
    (A i).a ≤ p := by
  rcases List.mem_append.1 hi with h | h
  · exact (I.act i h).1
  · exact (I.proper i (I.bound i hi)).le.trans (I.fin i h)

end Clipping

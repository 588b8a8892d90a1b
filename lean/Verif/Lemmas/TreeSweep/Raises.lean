import Verif.Lemmas.TreeSweep.ShapedExact

/-!
# Sweeps of polygons raise `ValueError` only if edges of one operand overlap
-/

namespace Clipping.TreeSweep

open Sweep

variable {B : Balancing} {O : Ops ShapedData} {tb : TieBreak} {stop : Point → Bool} {a b : List Segment}

/-- A loop which is not stopped raises what a loop raises which might be stopped. -/
theorem treeShapedLoop_raises {x : Err} : ∀ (fuel : ℕ) {s : TreeState ShapedData} {log : List (Ev × Bool)},
    treeShapedLoop B O tb stop fuel s log = .error x → treeShapedLoop B O tb (fun _ => false) fuel s log = .error x := by
  intro fuel
  induction fuel with
  | zero => intro s log h; exact h
  | succ fuel ih =>
    intro s log h
    unfold treeShapedLoop at h ⊢
    cases hp : pop tb s.store with
    | none => rw [hp] at h; cases h
    | some y =>
      obtain ⟨e, q⟩ := y
      rw [hp] at h
      dsimp only at h ⊢
      rw [if_neg (by simp)]
      by_cases hst : stop (s.store.heap.evStart e) = true
      · rw [if_pos hst] at h; cases h
      · rw [if_neg hst] at h
        cases ht : treeProcess B O { s with store := { s.store with queue := q } } e with
        | error y => rw [ht] at h; exact h
        | ok s' => rw [ht] at h; exact ih h

theorem treeShapedSweep_noOverlap (h : treeShapedSweep B O tb (fun _ => false) a b = .error .sameOperandOverlap) :
    ¬ (NoOverlap a ∧ NoOverlap b) := by
  rintro ⟨na, nb⟩
  have ok := operandsOk_marked na nb
  obtain ⟨s, log, e, -⟩ := sweep_final O ⟨false, false, .none, false, none⟩ tb (fun _ => false) ok (by simp)
  obtain ⟨tree, et⟩ := treeShapedSweep_eq (B := B) ok e
  rw [et] at h
  cases h

/-- The sweep of core/holeless.py -/
theorem treeShapedSweep_raises (h : treeShapedSweep B O tb stop a b = .error .sameOperandOverlap) : ¬ (NoOverlap a ∧ NoOverlap b) :=
  treeShapedSweep_noOverlap (B := B) (O := O) (tb := tb) (treeShapedLoop_raises _ h)

/-- The sweep of core/holey.py -/
theorem treeShapedSweepFirst_raises (h : treeShapedSweepFirst B O tb stop a b = .error .sameOperandOverlap) :
    ¬ (NoOverlap a ∧ NoOverlap b) := by
  refine treeShapedSweep_noOverlap (B := B) (O := O) (tb := tb) ?_
  have hfuel : sweepFuel (a.length + b.length) = (sweepFuel (a.length + b.length) - 1) + 1 := by
    unfold sweepFuel; omega
  unfold treeShapedSweep
  rw [hfuel]
  unfold treeShapedSweepFirst at h
  unfold treeShapedLoop
  dsimp only at h
  cases hp : pop tb (treeShapedInit O a b).store with
  | none => rw [hp] at h; cases h
  | some y =>
    obtain ⟨e, q⟩ := y
    rw [hp] at h
    dsimp only at h ⊢
    rw [if_neg (by simp)]
    cases ht : treeProcess B O { treeShapedInit O a b with store := { (treeShapedInit O a b).store with queue := q } } e with
    | error y => rw [ht] at h; exact h
    | ok s' => rw [ht] at h; exact treeShapedLoop_raises _ h

end Clipping.TreeSweep

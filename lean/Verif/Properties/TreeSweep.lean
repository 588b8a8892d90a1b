import Verif.Lemmas.TreeSweep.Exact
import Verif.Properties.Sweep

/-!
# C74: the sweep line as a search tree

The sweep line of the code is a self-balancing search tree.  A search in it sees only the events on a way from the root, so what it finds
may depend on how the tree is balanced.  With valid operands it does not: the tree holds the events of the ordered sweep line, every
search, every neighbour, every insertion and removal agrees with it, and the whole sweep is the same for every way of balancing.
-/

namespace Clipping

open TreeSweep

variable {α : Type} {a b : List Segment}

/-- **C74** However the tree is balanced, the sweep ends with the same events in the same order, the same segments and the same marks as
the sweep with an ordered list, and its tree holds this list. -/
theorem sweep_any_tree (B : Balancing) (O : Ops α) (d : α) (tb : TieBreak) (stop : Point → Bool) (na : NoOverlap a) (nb : NoOverlap b) :
    ∃ s log tree, sweep O d tb stop a b = .ok (s, log) ∧ treeSweep B O d tb stop a b = .ok (⟨s.store, tree⟩, log) ∧ tree.inorder = s.line := by
  obtain ⟨⟨s, log⟩, e, -⟩ := (sweep_terminates O d tb na nb _ rfl).2 stop
  obtain ⟨tree, h1, h2⟩ := treeSweep_eq B O d tb stop (operandsOk_marked na nb) e
  exact ⟨s, log, tree, e, h1, h2⟩

/-- **C74** The events which the operations on segments read do not depend on the tree. -/
theorem linear_any_tree (B : Balancing) (tb : TieBreak) (xmax : Option ℚ) (na : NoOverlap a) (nb : NoOverlap b) :
    treeLinearSweep B tb xmax a b = linearSweep tb xmax a b := by
  obtain ⟨s, log, tree, e, h, -⟩ := sweep_any_tree B linearOps () tb (stopAt xmax) na nb
  unfold treeLinearSweep linearSweep
  rw [e, h]

/-- **C74** The results of the operations on multisegments do not depend on the tree. -/
theorem multisegments_any_tree (B : Balancing) (tb : TieBreak) (na : NoOverlap a) (nb : NoOverlap b) :
    treeLinearDifference B tb (multisegmentOperand a) (multisegmentOperand b) = subtractMultisegments tb a b ∧
    treeLinearIntersection B tb (multisegmentOperand a) (multisegmentOperand b) = intersectMultisegments tb a b ∧
    treeLinearSymmetricDifference B tb (multisegmentOperand a) (multisegmentOperand b) = symmetricSubtractMultisegments tb a b ∧
    treeLinearUnion B tb (multisegmentOperand a) (multisegmentOperand b) = uniteMultisegments tb a b ∧
    treeLinearCompleteIntersection B tb (multisegmentOperand a) (multisegmentOperand b) = completeIntersectMultisegments tb a b := by
  have sw : ∀ {a' b' : List Segment} (xmax), a'.Sublist a → b'.Sublist b → treeLinearSweep B tb xmax a' b' = linearSweep tb xmax a' b' :=
    fun xmax h1 h2 => linear_any_tree B tb xmax (na.sublist h1) (nb.sublist h2)
  have sa : ∀ {a' b' : List Segment} (xmax), a'.Sublist a → b'.Sublist b → treeLinearSweepAll B tb xmax a' b' = linearSweepAll tb xmax a' b' := by
    intro a' b' xmax h1 h2
    obtain ⟨s, log, tree, e, h, -⟩ := sweep_any_tree B linearOps () tb (stopAt (some xmax)) (na.sublist h1) (nb.sublist h2)
    unfold treeLinearSweepAll linearSweepAll
    rw [e, h]
  refine ⟨?_, ?_, ?_, ?_, ?_⟩
  · unfold treeLinearDifference subtractMultisegments linearDifference multisegmentOperand
    simp only [fun m box => sw (a' := a) (b' := toCoupledSegments box b) m (List.Sublist.refl _) List.filter_sublist]
  · unfold treeLinearIntersection intersectMultisegments linearIntersection multisegmentOperand
    simp only [fun m box box' => sw (a' := toCoupledSegments box a) (b' := toCoupledSegments box' b) m List.filter_sublist List.filter_sublist]
  · unfold treeLinearSymmetricDifference symmetricSubtractMultisegments linearSymmetricDifference multisegmentOperand
    simp only [sw none (List.Sublist.refl a) (List.Sublist.refl b)]
  · unfold treeLinearUnion uniteMultisegments linearUnion multisegmentOperand
    simp only [sw none (List.Sublist.refl a) (List.Sublist.refl b)]
  · unfold treeLinearCompleteIntersection completeIntersectMultisegments linearCompleteIntersection multisegmentOperand
    simp only [fun m box box' => sa (a' := toIntersectingSegments box a) (b' := toIntersectingSegments box' b) m List.filter_sublist
      List.filter_sublist]

example : NoOverlap exA ∧ NoOverlap exB ∧
    (treeLinearSweep redBlack .id none exA exB).map (fun r => r.2.map r.1.segment) =
      (linearSweep .id none exA exB).map (fun r => r.2.map r.1.segment) ∧
    treeLinearUnion redBlack .id (multisegmentOperand exA) (multisegmentOperand exB) = uniteMultisegments .id exA exB ∧
    (linearSweep .id none exA exB).map (fun r => decide (exA.length + exB.length < r.2.length)) = .ok true :=
  ⟨exA_valid.noOverlap, exB_valid.noOverlap, by decide +kernel, by decide +kernel, by decide +kernel⟩

end Clipping

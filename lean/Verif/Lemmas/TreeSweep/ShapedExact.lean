import Verif.Lemmas.TreeSweep.Exact
import Verif.Lemmas.TreeSweep.Checked

/-!
# The sweep of polygons with a tree and with a list

For valid operands the sweep with a tree processes the same events as the one with a list, and no event is skipped.
-/

namespace Clipping.TreeSweep

open Sweep Nary

variable {ε : ℚ} {Pt : List Point} {Y : ℚ → ℚ} {B : Balancing} {O : Ops ShapedData} {tb : TieBreak} {stop : Point → Bool}

/-- No left event is on the sweep line already. -/
theorem notSkipped {s : Store ShapedData} {L F : List ℕ} {p : ℚ} {tree : RTree} (S : St ε Pt Y s L F p NoEx) {e : Ev} (he : e ∈ s.queue)
    (hmin : ∀ f ∈ s.queue, precedes s.heap f e = false) (ht : tree.inorder = L) : isSkipped ⟨s, tree⟩ e = false := by
  cases e with
  | right j => rfl
  | left t =>
    obtain ⟨hcon, l₁, l₂, hL, hadd, heq, htL, S1⟩ := S.pushed he hmin
    obtain ⟨h1, h2⟩ := line_around S1
    obtain ⟨g1, g2⟩ := search_place (ht.trans hL) h1 h2
    unfold isSkipped
    dsimp only
    have : treeSearch s.heap tree t = none := g1
    rw [this]; rfl

/-- One event. -/
theorem treeProcess_sim {s s₁ : SweepState ShapedData} {F : List ℕ} {p : ℚ} {tree : RTree} {e : Ev} {q : List Ev}
    (S : St ε Pt Y s.store s.line F p NoEx) (ht : tree.inorder = s.line) (hp : pop tb s.store = some (e, q))
    (e₁ : processEvent O { s with store := { s.store with queue := q } } e = .ok s₁) :
    isSkipped ⟨s.store, tree⟩ e = false ∧ ∃ tree', treeProcess B O ⟨{ s.store with queue := q }, tree⟩ e = .ok ⟨s₁.store, tree'⟩ ∧
      tree'.inorder = s₁.line := by
  obtain ⟨A, r, I⟩ := S.inv
  have pr : ∀ i < s.store.heap.count, (absSeg ε s.store.heap i).a < (absSeg ε s.store.heap i).b := by
    intro i hi; rw [← r i hi]; exact I.proper i hi
  obtain ⟨hem, rfl, hmin⟩ := (pop_spec tb S.ok S.pts pr S.queue.evOk).2 e q hp
  refine ⟨notSkipped S hem hmin ht, ?_⟩
  cases e with
  | left t => exact treeLeft_sim S hem hmin ht e₁
  | right j => exact treeRight_sim S hem hmin ht e₁

/-- The whole loop. -/
theorem treeShapedLoop_sim : ∀ (fuel : ℕ) {tree : RTree} {s s' : SweepState ShapedData}
    {F : List ℕ} {p : ℚ} {log log' : List (Ev × ℕ)}, St ε Pt Y s.store s.line F p NoEx → LogOk ε s.store s.line F p log →
    tree.inorder = s.line → sweepLoop O tb stop fuel s log = .ok (s', log') →
    ∃ tree', treeShapedLoop B O tb stop fuel ⟨s.store, tree⟩ (log.map fun x => (x.1, true)) =
      .ok (⟨s'.store, tree'⟩, log'.map fun x => (x.1, true)) := by
  intro fuel
  induction fuel with
  | zero => intro tree s s' F p log log' _ _ _ h; cases h
  | succ fuel ih =>
    intro tree s s' F p log log' S lo ht h
    unfold sweepLoop at h
    unfold treeShapedLoop
    dsimp only
    cases hp : pop tb s.store with
    | none =>
      rw [hp] at h
      simp only [Except.ok.injEq, Prod.mk.injEq] at h
      obtain ⟨rfl, rfl⟩ := h
      exact ⟨tree, by rw [List.map_reverse]⟩
    | some x =>
      obtain ⟨e, q⟩ := x
      rw [hp] at h
      dsimp only at h ⊢
      by_cases hst : stop (s.store.heap.evStart e) = true
      · rw [if_pos hst] at h ⊢
        simp only [Except.ok.injEq, Prod.mk.injEq] at h
        obtain ⟨rfl, rfl⟩ := h
        exact ⟨tree, by rw [List.map_reverse]⟩
      · rw [if_neg hst] at h ⊢
        obtain ⟨s₁, F₁, e₁, S₁, lo₁, -⟩ := S.step O lo hp
        rw [e₁] at h
        dsimp only at h
        obtain ⟨sk, tree', e₂, ht'⟩ := treeProcess_sim (B := B) S ht hp e₁
        rw [e₂, sk]
        exact ih S₁ lo₁ ht' h

theorem treeShapedSweep_eq {a b : List Segment} (ok : OperandsOk (marked a b)) {s : SweepState ShapedData} {log : List (Ev × ℕ)}
    (e : sweep O ⟨false, false, .none, false, none⟩ tb stop a b = .ok (s, log)) :
    ∃ tree, treeShapedSweep B O tb stop a b = .ok (⟨s.store, tree⟩, log.map fun x => (x.1, true)) := by
  obtain ⟨ε, Y, p, -, S, -, -⟩ := (fresh_init O.toPayload ⟨false, false, .none, false, none⟩ a b).stX ok []
  exact treeShapedLoop_sim _ (s := ⟨initStore O.toPayload _ a b, []⟩) (tree := .nil) (log := []) S (by constructor <;> simp) rfl e

theorem treeShapedSweepFirst_eq {a b : List Segment} (ok : OperandsOk (marked a b)) {s : SweepState ShapedData} {log : List (Ev × ℕ)}
    (e : sweepFirst O ⟨false, false, .none, false, none⟩ tb stop a b = .ok (s, log)) :
    ∃ tree, treeShapedSweepFirst B O tb stop a b = .ok (⟨s.store, tree⟩, log.map fun x => (x.1, true)) := by
  obtain ⟨ε, Y, p, -, S, -, -⟩ := (fresh_init O.toPayload ⟨false, false, .none, false, none⟩ a b).stX ok []
  have lo : LogOk ε (initStore O.toPayload ⟨false, false, .none, false, none⟩ a b) [] [] p [] := by constructor <;> simp
  unfold sweepFirst at e
  unfold treeShapedSweepFirst
  dsimp only at e ⊢
  change (match pop tb (initStore O.toPayload ⟨false, false, .none, false, none⟩ a b) with | _ => _) = _ at e
  cases hp : pop tb (initStore O.toPayload ⟨false, false, .none, false, none⟩ a b) with
  | none => 
    exfalso
    unfold initStore at hp
    rw [hp] at e
    cases e
  | some x =>
    obtain ⟨x, q⟩ := x
    obtain ⟨s₁, F₁, e₁, S₁, lo₁, -⟩ := St.step (s := ⟨initStore O.toPayload ⟨false, false, .none, false, none⟩ a b, []⟩) (tb := tb) O S lo hp
    obtain ⟨sk, tree', e₂, ht'⟩ := treeProcess_sim (B := B) (s := ⟨initStore O.toPayload _ a b, []⟩) (tree := .nil) S rfl hp e₁
    unfold treeShapedInit
    unfold initStore at hp e₁ e₂ sk
    rw [hp] at e ⊢
    dsimp only at e ⊢
    rw [e₁] at e
    rw [e₂, sk]
    exact treeShapedLoop_sim _ (log := [(x, s₁.store.heap.primary x)]) S₁ lo₁ ht' e

theorem processedEvents_all (log : List (Ev × ℕ)) : processedEvents (log.map fun x => (x.1, true)) = log.map Prod.fst := by
  unfold processedEvents
  induction log with
  | nil => rfl
  | cons x log ih => simpa using ih

end Clipping.TreeSweep

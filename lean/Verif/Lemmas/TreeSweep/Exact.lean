import Verif.Lemmas.Nary.Exact
import Verif.Model.TreeSweep

/-!
# With valid operands the tree holds the sweep line in order, and the sweep is the same
-/

namespace Clipping.TreeSweep

open Sweep Nary

variable {α : Type} {ε : ℚ} {Pt : List Point} {Y : ℚ → ℚ} {F : List ℕ} {p : ℚ}

section line
variable {s : Store α} {l₁ l₂ : List ℕ} {t : ℕ} {Ex : ℕ → ℕ → Prop}

/-- The tree of a sorted sweep line with `t`. -/
theorem line_around (S : St ε Pt Y s (l₁ ++ t :: l₂) F p Ex) :
    (∀ x ∈ l₁, lineLt s.heap x t = true ∧ lineLt s.heap t x = false) ∧ ∀ x ∈ l₂, lineLt s.heap t x = true := by
  obtain ⟨A, r, I⟩ := S.inv
  have nd := (List.nodup_append.1 I.nodup).1
  have o := I.ord
  rw [List.pairwise_append, List.pairwise_cons] at o
  rw [List.nodup_append, List.nodup_cons] at nd
  have ht : t ∈ l₁ ++ t :: l₂ := by simp
  constructor
  · intro x hx
    have hx' : x ∈ l₁ ++ t :: l₂ := by simp [hx]
    exact line_lt r I hx' ht (nd.2.2 x hx t (by simp)) (o.2.2 x hx t (by simp))
  · intro x hx
    have hx' : x ∈ l₁ ++ t :: l₂ := by simp [hx]
    exact (line_lt r I ht hx' (fun e => nd.2.1.1 (e ▸ hx)) (o.2.1.1 x hx)).1

theorem lineLt_self (h : Heap α) (i : ℕ) : lineLt h i i = false := by
  unfold lineLt; simp

theorem treeSearch_append {tree : RTree} (S : St ε Pt Y s (l₁ ++ t :: l₂) F p Ex) (ht : tree.inorder = l₁ ++ t :: l₂) :
    treeSearch s.heap tree t = some l₁.length := by
  obtain ⟨h1, h2⟩ := line_around S
  exact search_append (lineLt_self _ _) (lineLt_self _ _) ht h1 h2

theorem treeAbove_append {tree : RTree} (S : St ε Pt Y s (l₁ ++ t :: l₂) F p Ex) (ht : tree.inorder = l₁ ++ t :: l₂) :
    treeAbove s.heap tree t = l₂.head? := by
  unfold treeAbove
  rw [treeSearch_append S ht, ht]
  cases l₂ <;> simp

theorem treeBelow_append {tree : RTree} (S : St ε Pt Y s (l₁ ++ t :: l₂) F p Ex) (ht : tree.inorder = l₁ ++ t :: l₂) :
    treeBelow s.heap tree t = l₁.getLast? := by
  unfold treeBelow
  rw [treeSearch_append S ht, ht]
  rcases List.eq_nil_or_concat l₁ with rfl | ⟨l, x, rfl⟩
  · rfl
  · simp

theorem lineEq_around (S : St ε Pt Y s (l₁ ++ t :: l₂) F p Ex) : ∀ x ∈ l₁, lineEq s.heap t x = false := by
  intro x hx
  obtain ⟨h1, -⟩ := line_around S
  unfold lineEq
  rw [(h1 x hx).1]
  simp

theorem treeBelow_line {L : List ℕ} {tree : RTree} (S : St ε Pt Y s L F p Ex) (ht : tree.inorder = L) {b : ℕ} (hb : b ∈ L) :
    treeBelow s.heap tree b = lineBelow s.heap L b := by
  obtain ⟨l₁, l₂, rfl⟩ := List.append_of_mem hb
  rw [treeBelow_append S ht, lineBelow_append (lineEq_around S)]

end line

section step
variable {B : Balancing} {O : Ops α} {s : Store α} {tree : RTree} {L : List ℕ}

/-- A left event. -/
theorem treeLeft_sim (S : St ε Pt Y s L F p NoEx) {t : ℕ} (he : Ev.left t ∈ s.queue)
    (hmin : ∀ f ∈ s.queue, precedes s.heap f (.left t) = false) (ht : tree.inorder = L) {s' : SweepState α}
    (e : processLeft O ⟨{ s with queue := s.queue.erase (.left t) }, L⟩ t = .ok s') :
    ∃ tree', treeLeft B O ⟨{ s with queue := s.queue.erase (.left t) }, tree⟩ t = .ok ⟨s'.store, tree'⟩ ∧
      tree'.inorder = s'.line := by
  obtain ⟨hcon, l₁, l₂, hL, hadd, heq, htL, S1⟩ := S.pushed he hmin
  set s0 : Store α := { s with queue := s.queue.erase (.left t) } with hs0
  have hh : s0.heap = s.heap := rfl
  obtain ⟨h1, h2⟩ := line_around S1
  obtain ⟨g1, g2⟩ := search_place (ht.trans hL) h1 h2
  have hse : treeSearch s0.heap tree t = none := g1
  have hi : (treeAdd B s0.heap tree t).inorder = l₁ ++ t :: l₂ := by
    unfold treeAdd
    rw [hse]
    dsimp only
    rw [B.inorder_insert _ _ _ place_le, g2, ht, hL]
    exact insertIdx_length l₁ l₂ t
  have htm : t ∈ l₁ ++ t :: l₂ := by simp
  have ndt : ∀ x ∈ l₁ ++ l₂, x ≠ t := by
    rintro x hx rfl
    exact htL (hL ▸ hx)
  have S2 := (computeFields_geo O s0 t l₁.getLast?).1.st (computeFields_geo O s0 t l₁.getLast?).2 S1
  obtain ⟨s2, e2, S3, -⟩ := checkAbove_spec O S2 htm (above := l₂.head?) (below := l₁.getLast?) (by
    intro a ha
    have : a ∈ l₂ := List.mem_of_mem_head? ha
    exact ⟨by simp [this], (ndt a (by simp [this])).symm⟩)
  have hb : ∀ a, l₁.getLast? = some a → a ∈ l₁ ++ t :: l₂ ∧ a ≠ t := by
    intro a ha
    have : a ∈ l₁ := List.mem_of_getLast? ha
    exact ⟨by simp [this], ndt a (by simp [this])⟩
  have key : treeCheckBelow O (treeAdd B s0.heap tree t) s2 t l₁.getLast? = checkBelow O (l₁ ++ t :: l₂) s2 t l₁.getLast? := by
    cases hl : l₁.getLast? with
    | none => rfl
    | some b =>
      obtain ⟨hbL, hbt⟩ := hb b hl
      obtain ⟨s3, c, e3, S4, -⟩ := S3.detect (O := O) hbL htm hbt
      unfold treeCheckBelow checkBelow
      dsimp only
      rw [e3]
      cases c with
      | false => rfl
      | true =>
        dsimp only
        rw [treeBelow_line S4 hi hbL]
  refine ⟨treeAdd B s0.heap tree t, ?_⟩
  unfold processLeft at e
  dsimp only at e
  rw [hh, hcon, Bool.and_false, if_neg (by simp), hadd, lineAbove_append heq, lineBelow_append heq, e2] at e
  dsimp only at e
  unfold treeLeft
  dsimp only
  rw [hse, Option.isSome_none, Bool.and_false, if_neg (by simp), treeAbove_append S1 hi, treeBelow_append S1 hi, e2]
  dsimp only
  rw [key]
  obtain ⟨s3, e3, -, -⟩ := checkBelow_spec O S3 htm hb (l₁ ++ t :: l₂)
  rw [e3] at e ⊢
  injection e with e
  subst e
  exact ⟨rfl, hi⟩

/-- A right event. -/
theorem treeRight_sim (S : St ε Pt Y s L F p NoEx) {j : ℕ} (he : Ev.right j ∈ s.queue)
    (hmin : ∀ f ∈ s.queue, precedes s.heap f (.right j) = false) (ht : tree.inorder = L) {s' : SweepState α}
    (e : processRight O ⟨{ s with queue := s.queue.erase (.right j) }, L⟩ (s.heap.rights j).left = .ok s') :
    ∃ tree', treeRight B O ⟨{ s with queue := s.queue.erase (.right j) }, tree⟩ (s.heap.rights j).left = .ok ⟨s'.store, tree'⟩ ∧
      tree'.inorder = s'.line := by
  obtain ⟨l₁, l₂, rfl, heq, hj, S1⟩ := S.pulled he hmin
  set i := (s.heap.rights j).left with hi
  set s0 : Store α := { s with queue := s.queue.erase (.right j) } with hs0
  have hse : treeSearch s.heap tree i = some l₁.length := treeSearch_append S ht
  have hab : treeAbove s.heap tree i = l₂.head? := treeAbove_append S ht
  have hbe : treeBelow s.heap tree i = l₁.getLast? := treeBelow_append S ht
  have hr : (B.remove tree l₁.length).inorder = l₁ ++ l₂ := by
    rw [B.inorder_remove _ _ (by rw [← RTree.length_inorder, ht]; simp), ht]
    exact eraseIdx_length l₁ l₂ i
  refine ⟨B.remove tree l₁.length, ?_⟩
  have hh : s0.heap = s.heap := rfl
  unfold processRight at e
  dsimp only at e
  rw [hh, lineContains_append, if_pos rfl, lineAbove_append heq, lineBelow_append heq, lineRemove_append heq] at e
  unfold treeRight
  dsimp only
  rw [hh, hse]
  dsimp only
  rw [hab, hbe]
  revert e
  cases l₁.getLast? with
  | none => intro e; injection e with e; subst e; exact ⟨rfl, hr⟩
  | some b =>
    cases l₂.head? with
    | none => intro e; injection e with e; subst e; exact ⟨rfl, hr⟩
    | some a =>
      dsimp only
      cases detectIntersection O.toPayload s0 b a with
      | error _ => intro e; cases e
      | ok r => intro e; injection e with e; subst e; exact ⟨rfl, hr⟩

end step

/-- The whole loop. -/
theorem treeLoop_sim {B : Balancing} {O : Ops α} {tb : TieBreak} {stop : Point → Bool} : ∀ (fuel : ℕ) {tree : RTree} {s s' : SweepState α}
    {F : List ℕ} {p : ℚ} {log log' : List (Ev × ℕ)}, St ε Pt Y s.store s.line F p NoEx → LogOk ε s.store s.line F p log →
    tree.inorder = s.line → sweepLoop O tb stop fuel s log = .ok (s', log') →
    ∃ tree', treeLoop B O tb stop fuel ⟨s.store, tree⟩ log = .ok (⟨s'.store, tree'⟩, log') ∧ tree'.inorder = s'.line := by
  intro fuel
  induction fuel with
  | zero => intro tree s s' F p log log' _ _ _ h; cases h
  | succ fuel ih =>
    intro tree s s' F p log log' S lo ht h
    unfold sweepLoop at h
    unfold treeLoop
    dsimp only
    cases hp : pop tb s.store with
    | none =>
      rw [hp] at h
      simp only [Except.ok.injEq, Prod.mk.injEq] at h
      obtain ⟨rfl, rfl⟩ := h
      exact ⟨tree, rfl, ht⟩
    | some x =>
      obtain ⟨e, q⟩ := x
      rw [hp] at h
      dsimp only at h ⊢
      by_cases hst : stop (s.store.heap.evStart e) = true
      · rw [if_pos hst] at h ⊢
        simp only [Except.ok.injEq, Prod.mk.injEq] at h
        obtain ⟨rfl, rfl⟩ := h
        exact ⟨tree, rfl, ht⟩
      · rw [if_neg hst] at h ⊢
        obtain ⟨s₁, F₁, e₁, S₁, lo₁, -⟩ := S.step O lo hp
        rw [e₁] at h
        dsimp only at h
        obtain ⟨A, r, I⟩ := S.inv
        have pr : ∀ i < s.store.heap.count, (absSeg ε s.store.heap i).a < (absSeg ε s.store.heap i).b := by
          intro i hi; rw [← r i hi]; exact I.proper i hi
        obtain ⟨hem, rfl, hmin⟩ := (pop_spec tb S.ok S.pts pr S.queue.evOk).2 e q hp
        have key : ∃ tree', treeProcess B O ⟨{ s.store with queue := s.store.queue.erase e }, tree⟩ e = .ok ⟨s₁.store, tree'⟩ ∧
            tree'.inorder = s₁.line := by
          cases e with
          | left t => exact treeLeft_sim S hem hmin ht e₁
          | right j => exact treeRight_sim S hem hmin ht e₁
        obtain ⟨tree', e₂, ht'⟩ := key
        rw [e₂]
        dsimp only
        exact ih S₁ lo₁ ht' h

/-- The sweep with the tree gives what the sweep with the list gives. -/
theorem treeSweep_eq (B : Balancing) (O : Ops α) (d : α) (tb : TieBreak) (stop : Point → Bool) {a b : List Segment}
    (ok : OperandsOk (marked a b)) {s : SweepState α} {log : List (Ev × ℕ)} (e : sweep O d tb stop a b = .ok (s, log)) :
    ∃ tree, treeSweep B O d tb stop a b = .ok (⟨s.store, tree⟩, log) ∧ tree.inorder = s.line := by
  obtain ⟨ε, Y, p, -, S, -, -⟩ := (fresh_init O.toPayload d a b).stX ok []
  exact treeLoop_sim _ (s := ⟨initStore O.toPayload d a b, []⟩) (tree := .nil) S (by constructor <;> simp) rfl e

end Clipping.TreeSweep

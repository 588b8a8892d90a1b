import Verif.Model.SweepLine

/-!
# Binary search trees

The sweep line is kept in a red-black tree (`dendroid.red_black.set_`, core/sweep_line.py:49-50,80-81).
How the tree is balanced is not modelled: any tree with the same values in order will do.  What depends
on the comparison is the way down from the root.
-/

namespace Clipping

/-- Binary trees of events. -/
inductive Tree where
  | nil
  | node (left : Tree) (value : ℕ) (right : Tree)

namespace Tree

/-- Values in order. -/
def inorder : Tree → List ℕ
  | nil => []
  | node l k r => l.inorder ++ k :: r.inorder

/-- Looking for a value with the same key. -/
def find (lt : ℕ → ℕ → Bool) (e : ℕ) : Tree → Option ℕ
  | nil => none
  | node l k r => if lt e k then l.find lt e else if lt k e then r.find lt e else some k

/-- Adding a value at the place the search for it ends at, unless there is one with the same key. -/
def insert (lt : ℕ → ℕ → Bool) (e : ℕ) : Tree → Tree
  | nil => node nil e nil
  | node l k r =>
    if lt e k then node (l.insert lt e) k r else if lt k e then node l k (r.insert lt e) else node l k r

theorem find_of_pairwise {lt : ℕ → ℕ → Bool} {e : ℕ} : ∀ {t : Tree},
    (t.inorder.Pairwise fun i j => lt i j = true ∧ lt j i = false) → (lt e e = false) →
      e ∈ t.inorder → t.find lt e = some e := by
  intro t
  induction t with
  | nil => intro _ _ h; cases h
  | node l k r ihl ihr =>
    intro pw irr h
    simp only [inorder, List.mem_append, List.mem_cons] at h
    simp only [inorder, List.pairwise_append, List.pairwise_cons] at pw
    obtain ⟨p1, ⟨p2, p3⟩, p4⟩ := pw
    unfold find
    rcases h with h | h | h
    · rw [if_pos (p4 e h k (by simp)).1]
      exact ihl p1 irr h
    · subst h
      rw [if_neg (by simp [irr]), if_neg (by simp [irr])]
    · have := p2 e h
      rw [if_neg (by simp [this.2]), if_pos this.1]
      exact ihr p3 irr h

theorem find_none {lt : ℕ → ℕ → Bool} {e : ℕ} : ∀ {t : Tree},
    (∀ x ∈ t.inorder, lt e x = true ∨ lt x e = true) → t.find lt e = none := by
  intro t
  induction t with
  | nil => intro _; rfl
  | node l k r ihl ihr =>
    intro h
    simp only [inorder, List.mem_append, List.mem_cons] at h
    unfold find
    split
    · exact ihl fun x hx => h x (Or.inl hx)
    · rename_i h1
      rw [if_pos ((h k (by simp)).resolve_left h1)]
      exact ihr fun x hx => h x (Or.inr (Or.inr hx))

theorem insert_inorder {lt : ℕ → ℕ → Bool} {e : ℕ} : ∀ {t : Tree} {l₁ l₂ : List ℕ},
    t.inorder = l₁ ++ l₂ → (∀ x ∈ l₁, lt e x = false ∧ lt x e = true) → (∀ x ∈ l₂, lt e x = true) →
      (t.insert lt e).inorder = l₁ ++ e :: l₂ := by
  intro t
  induction t with
  | nil =>
    intro l₁ l₂ h _ _
    obtain ⟨rfl, rfl⟩ := List.append_eq_nil_iff.1 h.symm
    rfl
  | node l k r ihl ihr =>
    intro l₁ l₂ h h1 h2
    unfold inorder at h
    rcases List.append_eq_append_iff.1 h with ⟨m, e1, e2⟩ | ⟨m, e1, e2⟩
    · cases m with
      | nil =>
        simp only [List.append_nil] at e1
        simp only [List.nil_append] at e2
        subst e1
        have hk : lt e k = true := h2 k (by rw [← e2]; simp)
        unfold insert
        rw [if_pos hk]
        simp only [inorder]
        rw [ihl (l₁ := l.inorder) (l₂ := []) (by simp) h1 (by simp), ← e2]
        simp
      | cons x m =>
        simp only [List.cons_append, List.cons.injEq] at e2
        obtain ⟨rfl, e2⟩ := e2
        subst e1
        have hk := h1 k (by simp)
        unfold insert
        rw [if_neg (by simp [hk.1]), if_pos hk.2]
        simp only [inorder]
        rw [ihr e2 (fun y hy => h1 y (by simp [hy])) h2]
        simp
    · have hk : lt e k = true := h2 k (by rw [e2]; simp)
      unfold insert
      rw [if_pos hk]
      simp only [inorder]
      rw [ihl e1 h1 (fun y hy => h2 y (by rw [e2]; simp [hy])), e2]
      simp

end Tree

end Clipping

import Mathlib.Algebra.Order.Field.Rat
import Mathlib.Data.List.Basic
import Mathlib.Data.List.Nodup
import Mathlib.Tactic.Linarith
import Mathlib.Tactic.LinearCombination
import Mathlib.Tactic.Ring
import Mathlib.Tactic.Tauto
import Mathlib.Logic.Function.Basic

/-!
# Abstract plane sweep: segments over a one-dimensional sweep coordinate

The concrete sweep of the model orders points lexicographically.  For a finite set of points the
lexicographic order is the order of `x + ε y` for a small `ε > 0`, so every segment becomes the graph
of an affine function over an interval of the sweep coordinate.  This file has the vocabulary; the
connection with the concrete model is made in `Verif/Lemmas/Sweep/Shear.lean`.
-/

namespace Clipping.Sweep

/-- Graph of `c ↦ m * c + k` over `[a, b]`; `ff` is the `from_first_operand` mark. -/
structure Seg where
  a : ℚ
  b : ℚ
  m : ℚ
  k : ℚ
  ff : Bool

namespace Seg

/-- ordinate at `c` -/
def y (s : Seg) (c : ℚ) : ℚ := s.m * c + s.k

end Seg

/-- on the same line -/
def Col (s t : Seg) : Prop := s.m = t.m ∧ s.k = t.k

/-- `c` is the abscissa of a common point -/
def Com (s t : Seg) (c : ℚ) : Prop := s.a ≤ c ∧ c ≤ s.b ∧ t.a ≤ c ∧ c ≤ t.b ∧ s.y c = t.y c

/-- `c` is the abscissa of an end point -/
def IsEnd (s : Seg) (c : ℚ) : Prop := c = s.a ∨ c = s.b

/-- `c` is strictly inside -/
def Inn (s : Seg) (c : ℚ) : Prop := s.a < c ∧ c < s.b

/-- The order of segments in the sweep line: compare just after the later start; collinear segments
are ordered by operand. -/
def Lt (s t : Seg) : Prop :=
  (Col s t ∧ s.ff = true ∧ t.ff = false) ∨
  (¬ Col s t ∧ (s.y (max s.a t.a) < t.y (max s.a t.a) ∨
    (s.y (max s.a t.a) = t.y (max s.a t.a) ∧ s.m < t.m)))

theorem Col.refl (s : Seg) : Col s s := ⟨rfl, rfl⟩
theorem Col.symm {s t : Seg} (h : Col s t) : Col t s := ⟨h.1.symm, h.2.symm⟩
theorem Col.trans {s t r : Seg} (h : Col s t) (g : Col t r) : Col s r :=
  ⟨h.1.trans g.1, h.2.trans g.2⟩
theorem Col.y {s t : Seg} (h : Col s t) (c : ℚ) : s.y c = t.y c := by
  simp only [Seg.y, h.1, h.2]

theorem Com.symm {s t : Seg} {c : ℚ} (h : Com s t c) : Com t s c :=
  ⟨h.2.2.1, h.2.2.2.1, h.1, h.2.1, h.2.2.2.2.symm⟩

/-- Same slope and a common abscissa/ordinate: the same line. -/
theorem col_of_slope {s t : Seg} {c : ℚ} (h : s.m = t.m) (hy : s.y c = t.y c) : Col s t := by
  refine ⟨h, ?_⟩
  simp only [Seg.y, h] at hy
  linarith

/-- Two lines agreeing at two abscissas coincide. -/
theorem col_of_two {s t : Seg} {c d : ℚ} (hne : c ≠ d) (hc : s.y c = t.y c) (hd : s.y d = t.y d) :
    Col s t := by
  have : s.m = t.m := by
    simp only [Seg.y] at hc hd
    have h1 : (s.m - t.m) * (c - d) = 0 := by linear_combination hc - hd
    rcases mul_eq_zero.1 h1 with h | h
    · linarith
    · exact absurd (by linarith) hne
  exact col_of_slope this hc

/-- `u` is followed by `v` in the list -/
def Adj (L : List ℕ) (u v : ℕ) : Prop := ∃ l₁ l₂, L = l₁ ++ u :: v :: l₂

theorem Adj.mem_left {L : List ℕ} {u v : ℕ} (h : Adj L u v) : u ∈ L := by
  obtain ⟨l₁, l₂, rfl⟩ := h; simp

theorem Adj.mem_right {L : List ℕ} {u v : ℕ} (h : Adj L u v) : v ∈ L := by
  obtain ⟨l₁, l₂, rfl⟩ := h; simp

theorem Adj.cons {L : List ℕ} {u v : ℕ} (x : ℕ) (h : Adj L u v) : Adj (x :: L) u v := by
  obtain ⟨l₁, l₂, rfl⟩ := h
  exact ⟨x :: l₁, l₂, rfl⟩

/-- A transitive relation between neighbours holds between all pairs. -/
theorem pairwise_of_adj {R : ℕ → ℕ → Prop} (tr : ∀ x y z, R x y → R y z → R x z) :
    ∀ {L : List ℕ}, (∀ u v, Adj L u v → R u v) → L.Pairwise R
  | [], _ => List.Pairwise.nil
  | [x], _ => List.pairwise_singleton _ _
  | x :: y :: l, h => by
    have ih := pairwise_of_adj tr (L := y :: l) (fun u v huv => h u v (huv.cons x))
    have hxy : R x y := h x y ⟨[], l, rfl⟩
    refine List.pairwise_cons.2 ⟨?_, ih⟩
    intro z hz
    rcases List.mem_cons.1 hz with rfl | hz
    · exact hxy
    · exact tr _ _ _ hxy ((List.pairwise_cons.1 ih).1 z hz)

theorem Adj.pairwise {R : ℕ → ℕ → Prop} {L : List ℕ} {u v : ℕ} (h : Adj L u v) (hp : L.Pairwise R) :
    R u v := by
  obtain ⟨l₁, l₂, rfl⟩ := h
  have := (List.pairwise_append.1 hp).2.1
  exact (List.pairwise_cons.1 this).1 v (by simp)

/-- Two different members are related one way or the other. -/
theorem pairwise_or {R : ℕ → ℕ → Prop} {L : List ℕ} (hp : L.Pairwise R) {u v : ℕ} (hu : u ∈ L)
    (hv : v ∈ L) (hne : u ≠ v) : R u v ∨ R v u := by
  induction hp with
  | nil => cases hu
  | @cons x l hx _ ih =>
    rcases List.mem_cons.1 hu with h1 | h1 <;> rcases List.mem_cons.1 hv with h2 | h2
    · exact absurd (h1.trans h2.symm) hne
    · exact Or.inl (h1 ▸ hx _ h2)
    · exact Or.inr (h2 ▸ hx _ h1)
    · exact ih h1 h2

/-- neighbours in `l₁ ++ l₂` are neighbours in one part, or meet at the seam -/
theorem adj_append {l₁ l₂ : List ℕ} {u v : ℕ} (h : Adj (l₁ ++ l₂) u v) :
    Adj l₁ u v ∨ Adj l₂ u v ∨ (l₁.getLast? = some u ∧ l₂.head? = some v) := by
  induction l₁ with
  | nil => exact Or.inr (Or.inl h)
  | cons x l ih =>
    obtain ⟨a, b, hab⟩ := h
    cases a with
    | nil =>
      simp only [List.nil_append, List.cons_append, List.cons.injEq] at hab
      obtain ⟨rfl, hab⟩ := hab
      cases l with
      | nil => right; right; simp only [List.nil_append] at hab; subst hab; simp
      | cons y l =>
        simp only [List.cons_append, List.cons.injEq] at hab
        obtain ⟨rfl, hab⟩ := hab
        exact Or.inl ⟨[], l, rfl⟩
    | cons z a =>
      simp only [List.cons_append, List.cons.injEq] at hab
      obtain ⟨rfl, hab⟩ := hab
      rcases ih ⟨a, b, hab⟩ with h | h | ⟨h1, h2⟩
      · exact Or.inl (h.cons x)
      · exact Or.inr (Or.inl h)
      · right; right
        refine ⟨?_, h2⟩
        cases l with
        | nil => simp at h1
        | cons y l => simpa using h1

theorem Adj.append_left {l : List ℕ} {u v : ℕ} (r : List ℕ) (h : Adj l u v) : Adj (r ++ l) u v := by
  obtain ⟨a, b, rfl⟩ := h
  exact ⟨r ++ a, b, by simp⟩

theorem Adj.append_right {l : List ℕ} {u v : ℕ} (r : List ℕ) (h : Adj l u v) : Adj (l ++ r) u v := by
  obtain ⟨a, b, rfl⟩ := h
  exact ⟨a, b ++ r, by simp⟩

end Clipping.Sweep

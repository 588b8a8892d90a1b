import Mathlib.Algebra.Order.Field.Rat
import Mathlib.Algebra.BigOperators.Group.List.Basic
import Mathlib.Algebra.Order.BigOperators.Group.List
import Mathlib.Data.Finset.Sort
import Mathlib.Data.Set.Finite.Basic
import Mathlib.Tactic.Linarith
import Mathlib.Tactic.Ring

/-!
# Sums over the gaps of an ascending list of numbers
-/

namespace Clipping

/-- pairs of consecutive numbers -/
def gaps : List ℚ → List (ℚ × ℚ)
  | x :: y :: l => (x, y) :: gaps (y :: l)
  | _ => []

/-- midpoint -/
def mid (g : ℚ × ℚ) : ℚ := (g.1 + g.2) / 2

theorem gaps_mem {l : List ℚ} {g : ℚ × ℚ} (hg : g ∈ gaps l) : g.1 ∈ l := by
  induction l with
  | nil => simp [gaps] at hg
  | cons x l ih =>
    match l, ih, hg with
    | [], _, hg => simp [gaps] at hg
    | y :: l, ih, hg =>
      rw [gaps, List.mem_cons] at hg
      rcases hg with rfl | hg
      · exact List.mem_cons_self
      · exact List.mem_cons_of_mem _ (ih hg)

theorem gaps_spec {l : List ℚ} (h : l.Pairwise (· < ·)) {g : ℚ × ℚ} (hg : g ∈ gaps l) :
    g.1 < g.2 ∧ ∀ w ∈ l, w ≤ g.1 ∨ g.2 ≤ w := by
  induction l with
  | nil => simp [gaps] at hg
  | cons x l ih =>
    match l, h, ih, hg with
    | [], _, _, hg => simp [gaps] at hg
    | y :: l, h, ih, hg =>
      rw [List.pairwise_cons] at h
      rw [gaps, List.mem_cons] at hg
      rcases hg with rfl | hg
      · refine ⟨h.1 y List.mem_cons_self, fun w hw => ?_⟩
        rcases List.mem_cons.1 hw with rfl | hw
        · exact .inl le_rfl
        · rcases List.mem_cons.1 hw with rfl | hw
          · exact .inr le_rfl
          · exact .inr ((List.pairwise_cons.1 h.2).1 w hw).le
      · obtain ⟨a, b⟩ := ih h.2 hg
        have hg1 := gaps_mem hg
        refine ⟨a, fun w hw => ?_⟩
        rcases List.mem_cons.1 hw with rfl | hw
        · rcases b y List.mem_cons_self with c | c
          · exact .inl ((h.1 y List.mem_cons_self).le.trans c)
          · exact .inl (h.1 _ hg1).le
        · exact b w hw

theorem gaps_mid {l : List ℚ} (h : l.Pairwise (· < ·)) {g : ℚ × ℚ} (hg : g ∈ gaps l) : mid g ∉ l := by
  intro hm
  obtain ⟨a, b⟩ := gaps_spec h hg
  unfold mid at hm
  rcases b _ hm with c | c <;> linarith

theorem gaps_total (F : ℚ → ℚ) {a : ℚ} {x : ℚ} {l : List ℚ} (h : (x :: l).Pairwise (· < ·)) (ha : a ≤ x) :
    ((gaps (x :: l)).map fun g => if a < mid g then F g.2 - F g.1 else 0).sum = F ((x :: l).getLast (by simp)) - F x := by
  induction l generalizing x with
  | nil => simp [gaps]
  | cons y l ih =>
    rw [List.pairwise_cons] at h
    have hxy := h.1 y List.mem_cons_self
    rw [gaps, List.map_cons, List.sum_cons, ih h.2 (ha.trans hxy.le), if_pos (show a < mid (x, y) by unfold mid; dsimp only; linarith),
      List.getLast_cons (List.cons_ne_nil _ _)]
    ring

/-- telescoping sums -/
theorem gaps_from (F : ℚ → ℚ) {a : ℚ} {l : List ℚ} (h : l.Pairwise (· < ·)) (ha : a ∈ l) :
    ((gaps l).map fun g => if a < mid g then F g.2 - F g.1 else 0).sum = F (l.getLast (List.ne_nil_of_mem ha)) - F a := by
  induction l with
  | nil => simp at ha
  | cons x l ih =>
    rcases List.mem_cons.1 ha with rfl | ha
    · exact gaps_total F h le_rfl
    · match l, h, ih, ha with
      | y :: l, h, ih, ha =>
        rw [List.pairwise_cons] at h
        have hxy := h.1 y List.mem_cons_self
        have hya : y ≤ a := by
          rcases List.mem_cons.1 ha with rfl | ha
          · exact le_rfl
          · exact ((List.pairwise_cons.1 h.2).1 a ha).le
        rw [gaps, List.map_cons, List.sum_cons, ih h.2 ha, if_neg (show ¬ a < mid (x, y) by unfold mid; dsimp only; linarith), zero_add]
        congr 1

theorem gaps_between (F : ℚ → ℚ) {a b : ℚ} {l : List ℚ} (h : l.Pairwise (· < ·)) (ha : a ∈ l) (hb : b ∈ l) (hab : a ≤ b) :
    ((gaps l).map fun g => if a < mid g ∧ mid g < b then F g.2 - F g.1 else 0).sum = F b - F a := by
  have e : ∀ g ∈ gaps l, (if a < mid g ∧ mid g < b then F g.2 - F g.1 else 0) =
      (if a < mid g then F g.2 - F g.1 else 0) - if b < mid g then F g.2 - F g.1 else 0 := by
    intro g hg
    have n : mid g ≠ b := fun e => gaps_mid h hg (e ▸ hb)
    rcases lt_or_gt_of_ne n with k | k
    · rw [if_neg (not_lt.2 k.le)]
      simp [k]
    · rw [if_pos k, if_pos (hab.trans_lt k), if_neg (fun k' => absurd k'.2 (not_lt.2 k.le)), sub_self]
  have s : ∀ (L : List (ℚ × ℚ)) (f f' : ℚ × ℚ → ℚ), (L.map fun g => f g - f' g).sum = (L.map f).sum - (L.map f').sum := by
    intro L f f'
    induction L with
    | nil => simp
    | cons g L ih => simp only [List.map_cons, List.sum_cons, ih]; ring
  rw [List.map_congr_left e, s, gaps_from F h ha, gaps_from F h hb]
  ring

theorem sum_swap {K : Type} [CommSemiring K] {α β : Type} (l : List α) (m : List β) (f : α → β → K) :
    (l.map fun a => (m.map fun b => f a b).sum).sum = (m.map fun b => (l.map fun a => f a b).sum).sum := by
  induction l with
  | nil => simp
  | cons a l ih =>
    simp only [List.map_cons, List.sum_cons, ih]
    clear ih
    induction m with
    | nil => simp
    | cons b m ih =>
      simp only [List.map_cons, List.sum_cons] at ih ⊢
      rw [← ih]
      ring

theorem mul_sum {K : Type} [CommSemiring K] {α : Type} (l : List α) (c : K) (f : α → K) : (l.map fun a => c * f a).sum = c * (l.map f).sum := by
  induction l with
  | nil => simp
  | cons a l ih => simp only [List.map_cons, List.sum_cons, ih]; ring

/-- a finite set as an ascending list -/
theorem exists_ascending {S : Set ℚ} (h : S.Finite) : ∃ l : List ℚ, l.Pairwise (· < ·) ∧ ∀ x, x ∈ l ↔ x ∈ S := by
  refine ⟨h.toFinset.sort (· ≤ ·), (Finset.sortedLT_sort _).pairwise, fun x => ?_⟩
  rw [Finset.mem_sort, Set.Finite.mem_toFinset]

end Clipping

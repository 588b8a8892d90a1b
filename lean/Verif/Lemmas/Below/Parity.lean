import Verif.Lemmas.Below.Chain
import Verif.Lemmas.Below.End

/-!
# Parity of sets of selected edges at the end of the sweep
-/

namespace Clipping

open Sweep

/-- A sum over a list of numbers -/
theorem sum_ids {β : Type} (f : ℕ → β) (P : β → Bool) {n : ℕ} {Ks : List ℕ} (nd : Ks.Nodup) (hK : ∀ k ∈ Ks, k < n)
    (Q : ℕ → Prop) (hQ : ∀ k ∈ Ks, (Q k ↔ P (f k) = true)) :
    ∑ k ∈ Finset.range n, ind (k ∈ Ks ∧ Q k) = (((Ks.map f).countP P : ℕ) : ZMod 2) := by
  classical
  induction Ks with
  | nil =>
    simp only [List.not_mem_nil, false_and, List.map_nil, List.countP_nil, Nat.cast_zero]
    exact Finset.sum_eq_zero fun k _ => ind_neg id
  | cons j Ks ih =>
    obtain ⟨h1, h2⟩ := List.nodup_cons.1 nd
    have split : ∀ k ∈ Finset.range n, ind (k ∈ j :: Ks ∧ Q k) = ind (k ∈ Ks ∧ Q k) + ind (k = j ∧ Q j) := by
      intro k _
      rw [← ind_or]
      · apply ind_congr
        rw [List.mem_cons]
        constructor
        · rintro ⟨rfl | h, hq⟩
          · exact Or.inr ⟨rfl, hq⟩
          · exact Or.inl ⟨h, hq⟩
        · rintro (⟨h, hq⟩ | ⟨rfl, hq⟩)
          · exact ⟨Or.inr h, hq⟩
          · exact ⟨Or.inl rfl, hq⟩
      · rintro ⟨⟨h, -⟩, rfl, -⟩
        exact h1 h
    rw [Finset.sum_congr rfl split, Finset.sum_add_distrib, ih h2 (fun k hk => hK k (by simp [hk]))
      (fun k hk => hQ k (by simp [hk])), List.map_cons, List.countP_cons, Nat.cast_add]
    congr 1
    rw [Finset.sum_eq_single j]
    · by_cases hq : Q j
      · rw [ind_pos ⟨rfl, hq⟩, if_pos ((hQ j (by simp)).1 hq)]; rfl
      · rw [ind_neg (fun h => hq h.2), if_neg (fun h => hq ((hQ j (by simp)).2 h))]; rfl
    · intro k _ hne
      exact ind_neg fun h => hne h.1
    · intro h
      exact absurd (Finset.mem_range.2 (hK j (by simp))) h

variable {α : Type} {ε : ℚ} {Pt : List Point} {Y : ℚ → ℚ} {s : Store α} {L F : List ℕ} {p : ℚ}

theorem Sweep.St.kdeg_zero {Ex : ℕ → ℕ → Prop} (S : St ε Pt Y s L F p Ex) {Ks : List ℕ} (nd : Ks.Nodup)
    (hK : ∀ k ∈ Ks, k < s.heap.count) (even : ∀ q, Even (degree (Ks.map s.heap.segment) q)) (x : ℚ) :
    kdeg (absSeg ε s.heap) s.heap.count (fun k => k ∈ Ks) x = 0 := by
  by_cases hq : ∃ q ∈ Pt, sx ε q = x
  · obtain ⟨q, hq, rfl⟩ := hq
    have h2 : ((degree (Ks.map s.heap.segment) q : ℕ) : ZMod 2) = 0 := ZMod.natCast_eq_zero_iff_even.2 (even q)
    rw [← h2]
    unfold kdeg degree
    rw [Nat.cast_add, Finset.sum_add_distrib]
    congr 1
    · refine sum_ids _ _ nd hK _ fun k hk => ?_
      rw [decide_eq_true_eq, abs_a, ← S.pts.ord.eq_iff (S.pts.mem k (hK k hk)).1 hq]
      rfl
    · refine sum_ids _ _ nd hK _ fun k hk => ?_
      rw [decide_eq_true_eq, abs_b, ← S.pts.ord.eq_iff (S.pts.mem k (hK k hk)).2 hq]
      rfl
  · unfold kdeg
    refine Finset.sum_eq_zero fun k hk => ?_
    rw [Finset.mem_range] at hk
    rw [ind_neg, ind_neg, add_zero]
    · rintro ⟨-, h⟩
      exact hq ⟨_, (S.pts.mem k hk).2, h⟩
    · rintro ⟨-, h⟩
      exact hq ⟨_, (S.pts.mem k hk).1, h⟩

/-- Parity of the edges below a point of a segment. -/
theorem Sweep.St.kpar_inside {Ex : ℕ → ℕ → Prop} (S : St ε Pt Y s L F p Ex) {X : List Point} (ho : Orders ε (Pt ++ X))
    {m : Point} (hm : m ∈ X) {Ks : List ℕ} (nd : Ks.Nodup) (hK : ∀ k ∈ Ks, k < s.heap.count) {i : ℕ}
    (hi : i < s.heap.count) (hmi : m ∈ (s.heap.segment i).pts) (hu : ∀ k ∈ Ks, m ∈ (s.heap.segment k).pts → k = i) :
    kpar (absSeg ε s.heap) s.heap.count (fun k => k ∈ Ks) (sx ε m) (absSeg ε s.heap i) =
      ind (Inside (Ks.map s.heap.segment) m) := by
  have I := S.inv'
  have hmX : m ∈ Pt ++ X := by simp [hm]
  have ht := ((mem_segment (I.proper i hi)).1 hmi).2.2
  have lt : ∀ k < s.heap.count, s.heap.start k < s.heap.stop k := fun i hi =>
    (S.pts.ord.lt_iff (S.pts.mem i hi).1 (S.pts.mem i hi).2).2 (I.proper i hi)
  unfold Inside
  rw [← ind_countP]
  refine sum_ids _ _ nd hK _ fun k hkm => ?_
  have hk := hK k hkm
  rw [decide_eq_true_eq]
  have e1 : (s.heap.segment k).lo = s.heap.start k := min_eq_left (lt k hk).le
  have e2 : (s.heap.segment k).hi = s.heap.stop k := max_eq_right (lt k hk).le
  have b1 : IsBelow (s.heap.segment k) m ↔ Act (sx ε m) (absSeg ε s.heap k) ∧ (absSeg ε s.heap k).y (sx ε m) < m.y := by
    have c1 := cross_pos_iff (ε := ε) (ff := s.heap.first k) (I.proper k hk : sx ε (s.heap.start k) < sx ε (s.heap.stop k)) m
    unfold IsBelow
    rw [e1, e2]
    constructor
    · rintro ⟨h1, h2, h3⟩
      obtain ⟨h4, h5⟩ := (between_iff (lt k hk) h3).2 ⟨h1, h2⟩
      exact ⟨⟨(ho.le_iff (by simp [S.pts.mem k hk]) hmX).1 h4, (ho.lt_iff hmX (by simp [S.pts.mem k hk])).1 h5⟩,
        c1.1 h3⟩
    · rintro ⟨⟨h1, h2⟩, h3⟩
      have h3' := c1.2 h3
      obtain ⟨h4, h5⟩ := (between_iff (lt k hk) h3').1 ⟨(ho.le_iff (by simp [S.pts.mem k hk]) hmX).2 h1,
        (ho.lt_iff hmX (by simp [S.pts.mem k hk])).2 h2⟩
      exact ⟨h4, h5, h3'⟩
  rw [b1]
  constructor
  · rintro ⟨h2, h3⟩
    refine ⟨h2, ?_⟩
    rcases h3 with h3 | ⟨h3, h4⟩
    · rw [← ht]; exact h3
    · exfalso
      have hki := hu k hkm ((mem_segment (I.proper k hk)).2 ⟨h2.1, h2.2.le, h3.trans ht⟩)
      subst hki
      exact Bel.irrefl (c := sx ε m) (s := absSeg ε s.heap k) (Or.inr ⟨rfl, h4⟩)
  · rintro ⟨h2, h3⟩
    exact ⟨h2, Or.inl (by rw [ht]; exact h3)⟩

/-- the middle of a segment -/
def Heap.mid (h : Heap α) (i : ℕ) : Point := middle (h.start i) (h.stop i)

/-- The other edges of the set start later or above. -/
def FirstEdge (h : Heap ShapedData) (J : List ℕ) (i : ℕ) : Prop :=
  i ∈ J ∧ ∀ k ∈ J, k ≠ i → h.start i < h.start k ∨
    h.start i = h.start k ∧ 0 < cross (h.start i) (h.stop i) (h.stop k)

end Clipping

import Verif.Lemmas.Below.Left

/-!
# Events below belong to the result and have been processed before
-/

namespace Clipping

open Sweep

/-- order of left events, overlapping ones by operand -/
def Ord (s t : Seg) : Prop :=
  s.a < t.a ∨ (s.a = t.a ∧ (s.m < t.m ∨ (s.m = t.m ∧ s.ff = true ∧ t.ff = false)))

theorem Ord.trans {s t r : Seg} (h : Ord s t) (g : Ord t r) : Ord s r := by
  unfold Ord at *
  rcases h with h | ⟨h, h' | ⟨h', h1, h2⟩⟩ <;> rcases g with g | ⟨g, g' | ⟨g', g1, g2⟩⟩
  · left; linarith
  · left; linarith
  · left; linarith
  · left; linarith
  · right; exact ⟨by linarith, Or.inl (by linarith)⟩
  · right; exact ⟨by linarith, Or.inl (by linarith)⟩
  · left; linarith
  · right; exact ⟨by linarith, Or.inl (by linarith)⟩
  · rw [h2] at g1; cases g1

/-- A segment below the start of another one has been processed before it. -/
theorem ord_of_bel {Y : ℚ → ℚ} {p : ℚ} {s t : Seg} (hs : s.y s.a = Y s.a) (ht : t.y t.a = Y t.a) (h1 : s.a ≤ p)
    (h2 : t.a = p) (h : Bel p s t) : Ord s t := by
  rcases h1.lt_or_eq with h1 | h1
  · left; rw [h2]; exact h1
  · right
    refine ⟨h1.trans h2.symm, ?_⟩
    rw [h1] at hs
    rw [h2] at ht
    rcases h with h | ⟨-, h⟩
    · rw [hs, ht] at h; exact absurd h (lt_irrefl _)
    · exact h

/-- A segment below the start of another one which starts there is less steep, or overlaps. -/
theorem slope_of_bel {Y : ℚ → ℚ} {p : ℚ} {s t : Seg} (hs : s.y s.a = Y s.a) (ht : t.y t.a = Y t.a) (h1 : s.a = p)
    (h2 : t.a = p) (h : Bel p s t) : s.m < t.m ∨ (Col s t ∧ s.a = t.a) := by
  rw [h1] at hs
  rw [h2] at ht
  rcases h with h | ⟨h0, h | ⟨h, -, -⟩⟩
  · rw [hs, ht] at h; exact absurd h (lt_irrefl _)
  · exact Or.inl h
  · exact Or.inr ⟨col_of_slope h h0, h1.trans h2.symm⟩

variable {rule : ShapedRule} {ε : ℚ} {Pt : List Point} {Y : ℚ → ℚ} {L F : List ℕ} {p : ℚ}

/-- What is known of the events below. -/
structure BelowInv (rule : ShapedRule) (ε : ℚ) (s : Store ShapedData) (L F : List ℕ) (p : ℚ) : Prop where
  wait : ∀ k < s.heap.count, k ∉ L → k ∉ F → Bw s.heap k = none
  decided : ∀ i ∈ L ++ F, Decided rule s.heap i
  thru : ∀ b ∈ L, (absSeg ε s.heap b).a = p → ∀ u ∈ L, (absSeg ε s.heap u).a < p → p < (absSeg ε s.heap u).b →
    Col (absSeg ε s.heap u) (absSeg ε s.heap b) → False
  main : ∀ i ∈ L ++ F, ∀ b, Bw s.heap i = some b → b ∈ L ++ F ∧ (s.heap.lefts b).data.fromShapedResult = true ∧
    Ord (absSeg ε s.heap b) (absSeg ε s.heap i) ∧ ∀ k < s.heap.count, k ∉ L → k ∉ F → ¬ Hot ε s.heap k b

/-- Three segments of two operands do not overlap with the same start. -/
theorem Sweep.St.hot_three {α : Type} {s : Store α} {Ex : ℕ → ℕ → Prop} (S : St ε Pt Y s L F p Ex) {u v w : ℕ}
    (hu : u < s.heap.count) (hv : v < s.heap.count) (hw : w < s.heap.count) (huv : u ≠ v) (hvw : v ≠ w) (huw : u ≠ w)
    (h1 : Hot ε s.heap u v) (h2 : Hot ε s.heap v w) : False := by
  have n1 := S.hot_first hu hv huv h1
  have n2 := S.hot_first hv hw hvw h2
  have n3 := S.hot_first hu hw huw ⟨h1.1.trans h2.1, h1.2.trans h2.2⟩
  revert n1 n2 n3
  cases s.heap.first u <;> cases s.heap.first v <;> cases s.heap.first w <;> simp

/-- No segment is cut where an overlapping one starts which has been there before. -/
theorem BelowInv.no_new {O : Ops ShapedData} {s s' : Store ShapedData} {M L' F' : List ℕ} {p' : ℚ} {Ex Ex' : ℕ → ℕ → Prop}
    (B : BelowInv rule ε s L F p) (S : St ε Pt Y s L F p Ex) (S' : St ε Pt Y s' L' F' p' Ex')
    (ev : Evolves O ε Pt M s s') (hp : p ≤ p') {b k : ℕ} (hb : b ∈ L ++ F) (hk : k < s'.heap.count)
    (hn : s.heap.count ≤ k) (k1 : k ∉ L') (k2 : k ∉ F') : ¬ Hot ε s'.heap k b := by
  intro hh
  have I := S.inv'
  have I' := S'.inv'
  have hbn := I.bound b hb
  obtain ⟨ab1, ab2, ab3, -⟩ := ev.abs S S' hbn
  have e1 := I'.wait k hk k1 k2
  have e2 := hh.2
  rw [ab3] at e2
  have hba : (absSeg ε s.heap b).a ≤ p := by
    rcases List.mem_append.1 hb with h | h
    · exact (I.act b h).1
    · exact (I.proper b hbn).le.trans (I.fin b h)
  have hpa : (absSeg ε s.heap b).a = p := le_antisymm hba (by linarith)
  have hbL : b ∈ L := by
    rcases List.mem_append.1 hb with h | h
    · exact h
    · have := I.proper b hbn
      have := I.fin b h
      linarith
  obtain ⟨u, hu, part⟩ := ev.sub k hk
  obtain ⟨h1, h2, h3, h4⟩ := part.abs (I.proper u hu) (I'.proper k hk)
  have pk := I'.proper k hk
  obtain ⟨au1, au2, au3, -⟩ := ev.abs S S' hu
  have hua : (absSeg ε s.heap u).a < p := by
    refine lt_of_le_of_ne (h3.trans (by rw [e2, hpa])) ?_
    intro h
    have hu' := hu.trans_le ev.count
    have pu := I'.proper u hu'
    rcases I'.noOv k hk u hu' (by omega) (h1.trans au1.symm) (h2.trans au2.symm) with h' | h' <;> linarith
  have huL : u ∈ L := by
    by_contra hL
    by_cases hF : u ∈ F
    · have := I.fin u hF
      linarith
    · have := I.wait u hu hL hF
      linarith
  exact B.thru b hbL hpa u huL hua (by linarith) (h1.symm.trans (hh.1.trans ab1))

namespace Sweep.LeftGeo

variable {A : ℕ → Seg} {n : ℕ} {t : ℕ} {l₁ l₂ : List ℕ} (G : LeftGeo Y A n L F p t l₁ l₂)
include G

/-- A collinear segment in the sweep line is a neighbour. -/
theorem col_adj {i : ℕ} (hi : i ∈ L) (hc : Col (A t) (A i)) (hf : (A i).ff ≠ (A t).ff) :
    l₂.head? = some i ∨ l₁.getLast? = some i := by
  cases ht : (A t).ff with
  | true =>
    have hf' : (A i).ff = false := by rw [ht] at hf; simpa using hf
    left
    have hb : Bel p (A t) (A i) := Or.inr ⟨hc.y p, Or.inr ⟨hc.1, ht, hf'⟩⟩
    have hi2 : i ∈ l₂ := by
      have hiL := hi
      rw [G.hL] at hiL
      rcases List.mem_append.1 hiL with h | h
      · exact absurd (G.lo i h) hb.asymm
      · exact h
    cases l₂ with
    | nil => cases hi2
    | cons a l =>
      rcases List.mem_cons.1 hi2 with rfl | hi2
      · rfl
      · exfalso
        have pw := G.inv.belPair G.hne
        rw [G.hL] at pw
        have b1 : Bel p (A a) (A i) := (List.pairwise_cons.1 (List.pairwise_append.1 pw).2.1).1 i hi2
        have b2 : Bel p (A t) (A a) := G.hi a (by simp)
        have hy := hc.y p
        have hm := hc.1
        rcases b1 with b1 | ⟨b1, b1' | ⟨b3, b1', -⟩⟩ <;> rcases b2 with b2 | ⟨b2, b2' | ⟨b4, -, b2'⟩⟩ <;>
          first | linarith | (rw [b1'] at b2'; cases b2')
  | false =>
    have hf' : (A i).ff = true := by rw [ht] at hf; simpa using hf
    right
    have hb : Bel p (A i) (A t) := Or.inr ⟨(hc.y p).symm, Or.inr ⟨hc.1.symm, hf', ht⟩⟩
    have hi1 : i ∈ l₁ := by
      have hiL := hi
      rw [G.hL] at hiL
      rcases List.mem_append.1 hiL with h | h
      · exact h
      · exact absurd (G.hi i h) hb.asymm
    rcases List.eq_nil_or_concat l₁ with rfl | ⟨l, b, rfl⟩
    · cases hi1
    · simp only [List.concat_eq_append, List.mem_append, List.mem_cons, List.not_mem_nil, or_false] at hi1
      rcases hi1 with hi1 | rfl
      · exfalso
        have pw := G.inv.belPair G.hne
        rw [G.hL] at pw
        have pw' := (List.pairwise_append.1 pw).1
        simp only [List.concat_eq_append] at pw'
        have b1 : Bel p (A i) (A b) := (List.pairwise_append.1 pw').2.2 i hi1 b (by simp)
        have b2 : Bel p (A b) (A t) := G.lo b (by simp)
        have hy := hc.y p
        have hm := hc.1
        rcases b1 with b1 | ⟨b1, b1' | ⟨b3, -, b1'⟩⟩ <;> rcases b2 with b2 | ⟨b2, b2' | ⟨b4, b2', -⟩⟩ <;>
          first | linarith | (rw [b1'] at b2'; cases b2')
      · simp

end Sweep.LeftGeo

end Clipping

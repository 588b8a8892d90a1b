import Verif.Lemmas.Below.Run

/-!
# Parts of segments before and after a place
-/

namespace Clipping.Sweep

theorem exists_after (S : Finset ℚ) {c d : ℚ} (h : c < d) : ∃ c', c < c' ∧ c' < d ∧ ∀ x ∈ S, c < x → c' < x := by
  classical
  induction S using Finset.induction_on with
  | empty => exact ⟨(c + d) / 2, by linarith, by linarith, by simp⟩
  | insert a S _ ih =>
    obtain ⟨c', h1, h2, h3⟩ := ih
    by_cases hc : c < a
    · refine ⟨min c' ((c + a) / 2), lt_min h1 (by linarith), (min_le_left _ _).trans_lt h2, ?_⟩
      intro x hx hcx
      rcases Finset.mem_insert.1 hx with rfl | hx
      · exact (min_le_right _ _).trans_lt (by linarith)
      · exact (min_le_left _ _).trans_lt (h3 x hx hcx)
    · refine ⟨c', h1, h2, fun x hx hcx => ?_⟩
      rcases Finset.mem_insert.1 hx with rfl | hx
      · exact absurd hcx hc
      · exact h3 x hx hcx

theorem exists_before (S : Finset ℚ) {c d : ℚ} (h : d < c) : ∃ c', d < c' ∧ c' < c ∧ ∀ x ∈ S, x < c → x < c' := by
  classical
  obtain ⟨e, h1, h2, h3⟩ := exists_after (S.image fun x => -x) (c := -c) (d := -d) (by linarith)
  refine ⟨-e, by linarith, by linarith, fun x hx hxc => ?_⟩
  have := h3 (-x) (Finset.mem_image_of_mem _ hx) (by linarith)
  linarith

variable {α : Type} {O : Ops α} {ε : ℚ} {Pt : List Point} {Y : ℚ → ℚ} {L F : List ℕ} {p : ℚ}

/-- The segments of the second store are parts of the ones of the first and cover them. -/
structure Covers (O : Ops α) (h h' : Heap α) : Prop where
  sub : ∀ i < h'.count, ∃ k < h.count, Part O h h' k i
  cov : ∀ k < h.count, ∀ q ∈ (h.segment k).pts, ∃ i < h'.count, Part O h h' k i ∧ q ∈ (h'.segment i).pts

theorem Covers.refl (h : Heap α) : Covers O h h :=
  ⟨fun i hi => ⟨i, hi, .refl⟩, fun i hi _ hq => ⟨i, hi, .refl, hq⟩⟩

theorem Covers.trans {h h' h'' : Heap α} (a : Covers O h h') (b : Covers O h' h'') : Covers O h h'' where
  sub i hi := by
    obtain ⟨k, hk, h1⟩ := b.sub i hi
    obtain ⟨l, hl, g1⟩ := a.sub k hk
    exact ⟨l, hl, g1.trans h1⟩
  cov k hk q hq := by
    obtain ⟨i, hi, h1, hq'⟩ := a.cov k hk q hq
    obtain ⟨j, hj, g1, hq''⟩ := b.cov i hi q hq'
    exact ⟨j, hj, h1.trans g1, hq''⟩

theorem Evolves.covers {s s' : Store α} {M : List ℕ} (ev : Evolves O ε Pt M s s') : Covers O s.heap s'.heap :=
  ⟨ev.sub, ev.cov⟩

section covers
variable {h h' : Heap α} (C : Covers O h h') (pr : ∀ i < h.count, (absSeg ε h i).a < (absSeg ε h i).b)
  (pr' : ∀ i < h'.count, (absSeg ε h' i).a < (absSeg ε h' i).b)
include C pr pr'

/-- The part of a segment just after a place of it. -/
theorem Covers.after {k : ℕ} (hk : k < h.count) {c : ℚ} (hc : Act c (absSeg ε h k)) :
    ∃ i < h'.count, Part O h h' k i ∧ Act c (absSeg ε h' i) := by
  classical
  obtain ⟨c', h1, h2, h3⟩ := exists_after ((Finset.range h'.count).image fun i => (absSeg ε h' i).a) hc.2
  obtain ⟨i, hi, part, hm⟩ := C.cov k hk (pointAt ε c' ((absSeg ε h k).y c'))
    ((mem_segment (pr k hk)).2 ⟨by rw [sx_pointAt]; exact hc.1.trans h1.le, by rw [sx_pointAt]; exact h2.le, by simp⟩)
  obtain ⟨m1, m2, -⟩ := (mem_segment (pr' i hi)).1 hm
  rw [sx_pointAt] at m1 m2
  refine ⟨i, hi, part, ?_, by linarith⟩
  by_contra hlt
  have := h3 _ (Finset.mem_image_of_mem (fun i => (absSeg ε h' i).a) (Finset.mem_range.2 hi)) (not_le.1 hlt)
  linarith

/-- The part of a segment just before a place of it. -/
theorem Covers.before {k : ℕ} (hk : k < h.count) {c : ℚ} (h1 : (absSeg ε h k).a < c) (h2 : c ≤ (absSeg ε h k).b) :
    ∃ i < h'.count, Part O h h' k i ∧ (absSeg ε h' i).a < c ∧ c ≤ (absSeg ε h' i).b := by
  classical
  obtain ⟨c', g1, g2, g3⟩ := exists_before ((Finset.range h'.count).image fun i => (absSeg ε h' i).b) h1
  obtain ⟨i, hi, part, hm⟩ := C.cov k hk (pointAt ε c' ((absSeg ε h k).y c'))
    ((mem_segment (pr k hk)).2 ⟨by rw [sx_pointAt]; exact g1.le, by rw [sx_pointAt]; exact g2.le.trans h2, by simp⟩)
  obtain ⟨m1, m2, -⟩ := (mem_segment (pr' i hi)).1 hm
  rw [sx_pointAt] at m1 m2
  refine ⟨i, hi, part, by linarith, ?_⟩
  by_contra hlt
  have := g3 _ (Finset.mem_image_of_mem (fun i => (absSeg ε h' i).b) (Finset.mem_range.2 hi)) (not_le.1 hlt)
  linarith

end covers

end Clipping.Sweep

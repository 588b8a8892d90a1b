import Verif.Lemmas.Below.Few
import Verif.Lemmas.Below.Parity

/-!
# Parity of sets of selected edges where few edges end at touched places
-/

namespace Clipping

open Sweep

section

variable {ε : ℚ} {h : Heap ShapedData}

theorem Twins.wedge_eq {l w : ℕ} (T : Twins ε h l w) (hl : l < h.count) (K : ℕ → Prop) :
    Ended.wedge ε h K l = ind (K l) + ind (K w) := by
  unfold Ended.wedge
  have split : ∀ k ∈ Finset.range h.count,
      ind (K k ∧ (absSeg ε h k).a = (absSeg ε h l).a ∧ (absSeg ε h l).m ≤ (absSeg ε h k).m) =
        ind (K l ∧ k = l) + ind (K w ∧ k = w) := by
    intro k hk
    rw [← ind_or]
    · apply ind_congr
      constructor
      · rintro ⟨h1, h2, h3⟩
        rcases T.only k (Finset.mem_range.1 hk) h2 h3 with rfl | rfl
        · exact Or.inl ⟨h1, rfl⟩
        · exact Or.inr ⟨h1, rfl⟩
      · rintro (⟨h1, rfl⟩ | ⟨h1, rfl⟩)
        · exact ⟨h1, rfl, le_rfl⟩
        · exact ⟨h1, T.start, T.slope⟩
    · rintro ⟨⟨-, h1⟩, -, h2⟩
      exact T.ne (h2.symm.trans h1)
  rw [Finset.sum_congr rfl split, Finset.sum_add_distrib]
  congr 1
  · rw [Finset.sum_eq_single l]
    · exact ind_congr (by simp)
    · intro k _ hne
      exact ind_neg fun hh => hne hh.2
    · intro hh
      exact absurd (Finset.mem_range.2 hl) hh
  · rw [Finset.sum_eq_single w]
    · exact ind_congr (by simp)
    · intro k _ hne
      exact ind_neg fun hh => hne hh.2
    · intro hh
      exact absurd (Finset.mem_range.2 T.lt) hh

end

variable {ε : ℚ} {Pt : List Point} {Y : ℚ → ℚ} {s : Store ShapedData} {L F : List ℕ} {p : ℚ}

/-- An even number of edges of a closed set starts at its first edge. -/
theorem Sweep.St.wedge_first {Ex : ℕ → ℕ → Prop} (S : St ε Pt Y s L F p Ex) {J : List ℕ} {i : ℕ}
    (hJ : ∀ k ∈ J, k < s.heap.count) (hd : ∀ x, kdeg (absSeg ε s.heap) s.heap.count (fun k => k ∈ J) x = 0)
    (hi : FirstEdge s.heap J i) : Ended.wedge ε s.heap (fun k => k ∈ J) i = 0 := by
  have V := S.inv'
  have hin := hJ i hi.1
  rw [← hd (absSeg ε s.heap i).a]
  unfold Ended.wedge kdeg
  refine Finset.sum_congr rfl fun k hk => ?_
  rw [Finset.mem_range] at hk
  rw [ind_neg (P := k ∈ J ∧ (absSeg ε s.heap k).b = _), add_zero]
  · refine ind_congr (and_congr_right fun hkJ => ⟨fun hh => hh.1, fun hh => ⟨hh, ?_⟩⟩)
    by_cases e : k = i
    · subst e; exact le_rfl
    rcases hi.2 k hkJ e with h1 | ⟨h1, h2⟩
    · have := (S.pts.ord.lt_iff (S.pts.mem i hin).1 (S.pts.mem k hk).1).1 h1
      rw [← abs_a, ← abs_a, hh] at this
      exact absurd this (lt_irrefl _)
    · rw [cross_pos_iff (V.proper i hin) (ff := s.heap.first i)] at h2
      change (absSeg ε s.heap i).y (absSeg ε s.heap k).b < _ at h2
      have e1 := abs_yb (ε := ε) (V.proper k hk)
      have e2 := (V.endsY i hin).1
      have e3 := (V.endsY k hk).1
      rw [hh, ← e2] at e3
      rw [← e1] at h2
      have pk := V.proper k hk
      rw [hh] at pk
      simp only [Seg.y] at h2 e3
      change _ < (absSeg ε s.heap k).m * (absSeg ε s.heap k).b + _ at h2
      by_contra hlt
      push Not at hlt
      nlinarith [mul_nonneg (sub_nonneg.2 hlt.le) (sub_nonneg.2 pk.le)]
  · rintro ⟨hkJ, hb⟩
    have pk := V.proper k hk
    by_cases e : k = i
    · subst e; linarith
    rcases hi.2 k hkJ e with h1 | ⟨h1, -⟩
    · have := (S.pts.ord.lt_iff (S.pts.mem i hin).1 (S.pts.mem k hk).1).1 h1
      rw [← abs_a, ← abs_a] at this
      linarith
    · have := (S.pts.ord.eq_iff (S.pts.mem i hin).1 (S.pts.mem k hk).1).1 h1
      rw [← abs_a, ← abs_a] at this
      linarith

variable {rule : ShapedRule} {op : Bool → Bool → Bool} {tb : TieBreak} {xmax : Option ℚ} {A B : List Segment}
  {h : Heap ShapedData} {events : List Ev}

/-- What the event below the first edge of a contour says on the place of the contour. -/
theorem below_parity (hr : RuleOk rule) (hA : IsBoundary A) (hB : IsBoundary B) (N : FewTouch (A ++ B))
    (e : shapedSweep (holeyOps rule) tb xmax A B = .ok (h, events))
    (E : ShapedEnd op h events (stopAt xmax) A B) {J : List ℕ} (ndJ : J.Nodup)
    (hJ : ∀ k ∈ J, Ev.left k ∈ events.filter (fromResult h)) (evenJ : ∀ q, Even (degree (J.map h.segment) q)) {i : ℕ}
    (hi : FirstEdge h J i) {Ks : List ℕ} (nd : Ks.Nodup)
    (hK : ∀ k ∈ Ks, Ev.left k ∈ events.filter (fromResult h)) (even : ∀ q, Even (degree (Ks.map h.segment) q))
    (hKJ : Ks = J ∨ ∀ k ∈ Ks, k ∉ J) :
    (Bw h i = none → ¬ Inside (Ks.map h.segment) (h.mid i)) ∧
    ∀ b, Bw h i = some b → (Inside (Ks.map h.segment) (h.mid i) ↔ (Inside (Ks.map h.segment) (h.mid b) ↔ b ∉ Ks)) := by
  have bOk := holey_belowOk hr hA hB e E
  set X : List Point := (h.mid i :: (Bw h i).toList.map h.mid) ++
    (points (A ++ B)).flatMap (fun q => (points (A ++ B)).map (middle q)) with hX
  obtain ⟨ε, ho⟩ := exists_orders (points (A ++ B) ++ X)
  obtain ⟨Y, s, L, F, p, rfl, D, mem, fin, tw⟩ := holey_twins hr hA hB N e E ho (by
    intro q hq q' hq'
    rw [hX, List.mem_append, List.mem_flatMap]
    exact Or.inr ⟨q, hq, List.mem_map_of_mem hq'⟩)
  have S := D.st
  have V := S.inv'
  have selE := E.selected
  have bnd : ∀ k, Ev.left k ∈ events.filter (fromResult s.heap) → k < s.heap.count := fun k hk => selE.evOk _ hk
  have hiS := hJ i hi.1
  -- inner points
  have inn : ∀ k, Ev.left k ∈ events.filter (fromResult s.heap) →
      s.heap.mid k ∈ (s.heap.segment k).pts ∧
      Act (sx ε (s.heap.mid k)) (absSeg ε s.heap k) ∧ sx ε (s.heap.mid k) < p ∧
      (absSeg ε s.heap k).a < p ∧
      ∀ j, Ev.left j ∈ events.filter (fromResult s.heap) → s.heap.mid k ∈ (s.heap.segment j).pts → j = k := by
    intro k hk
    have pk := V.proper k (bnd k hk)
    have hf := fin k hk
    have hsx : sx ε (s.heap.mid k) = ((absSeg ε s.heap k).a + (absSeg ε s.heap k).b) / 2 :=
      sx_middle _ _
    have hmem : s.heap.mid k ∈ (s.heap.segment k).pts := by
      rw [mem_segment pk, hsx]
      refine ⟨by linarith, by linarith, ?_⟩
      have e1 := abs_ya (ε := ε) (h := s.heap) k
      have e2 := abs_yb (ε := ε) pk
      rw [← abs_a] at e1
      rw [← abs_b] at e2
      simp only [Heap.mid, middle, Seg.y] at e1 e2 ⊢
      linear_combination (e1 + e2) / 2
    refine ⟨hmem, ⟨by rw [hsx]; linarith, by rw [hsx]; linarith⟩, by rw [hsx]; linarith, by linarith, ?_⟩
    intro j hj hmj
    by_contra hne
    have hp := selE.endsOnly
    rw [leftEdges_eq] at hp
    have sym : Std.Symm fun a b : ℕ => ∀ q, q ∈ (s.heap.segment a).pts → q ∈ (s.heap.segment b).pts →
        (s.heap.segment a).IsEnd q ∧ (s.heap.segment b).IsEnd q := ⟨fun a b hab q h1 h2 => (hab q h2 h1).symm⟩
    have := ((List.pairwise_map.1 hp).forall (mem_leftIds.2 hk) (mem_leftIds.2 hj) (Ne.symm hne) _ hmem hmj).1
    rcases this with h | h
    · have : sx ε (s.heap.mid k) = (absSeg ε s.heap k).a := by rw [h]; rfl
      linarith
    · have : sx ε (s.heap.mid k) = (absSeg ε s.heap k).b := by rw [h]; rfl
      linarith
  have hd := S.kdeg_zero nd (fun k hk => bnd k (hK k hk)) even
  have val : ∀ k, Ev.left k ∈ events.filter (fromResult s.heap) → s.heap.mid k ∈ X →
      kpar (absSeg ε s.heap) s.heap.count (fun k => k ∈ Ks) (absSeg ε s.heap k).a (absSeg ε s.heap k) =
        ind (Inside (Ks.map s.heap.segment) (s.heap.mid k)) := by
    intro k hk hkX
    obtain ⟨i1, i2, i3, -, i4⟩ := inn k hk
    rw [V.kpar_piece hd (bnd k hk) i2 i3]
    exact S.kpar_inside ho hkX nd (fun k hk => bnd k (hK k hk)) (bnd k hk) i1 fun j hj => i4 j (hK j hj)
  have hiL : i ∈ L ++ F := (mem i).2 (List.mem_filter.1 hiS).1
  have sel : ∀ k ∈ Ks, (s.heap.lefts k).data.fromShapedResult = true := fun k hk => (List.mem_filter.1 (hK k hk)).2
  have wJ := S.wedge_first (fun k hk => bnd k (hJ k hk)) (S.kdeg_zero ndJ (fun k hk => bnd k (hJ k hk)) evenJ) hi
  obtain ⟨c1, c2⟩ := D.sel_parity (K := fun k => k ∈ Ks)
    (fun k hk => ⟨(mem k).2 (List.mem_filter.1 (hK k hk)).1, sel k hk⟩) hd (i := i) (by
      intro l hl hlp T hor
      obtain ⟨w, W⟩ := tw l hl hlp T
      have hln := V.bound l hl
      rcases hor with hR | rfl
      · rw [W.wedge_eq hln, ind_neg, ind_neg, add_zero]
        · intro hh
          have := sel w hh
          rw [W.same, hR] at this
          cases this
        · intro hh
          have := sel l hh
          rw [hR] at this
          cases this
      · rcases hKJ with rfl | dis
        · exact wJ
        · rw [W.wedge_eq hln, ind_pos hi.1] at wJ
          have hwJ : w ∈ J := by
            by_contra hn
            rw [ind_neg hn, add_zero] at wJ
            cases wJ
          rw [W.wedge_eq hln, ind_neg fun hh => dis l hh hi.1, ind_neg fun hh => dis w hh hwJ, add_zero])
    hiL (inn i hiS).2.2.2.1 (List.mem_filter.1 hiS).2
  rw [val i hiS (by simp [hX])] at c1 c2
  refine ⟨fun h => ind_eq_zero.1 (c1 h), fun b hb => ?_⟩
  have hbs : Ev.left b ∈ events.filter (fromResult s.heap) := (bOk i hiS b hb).1
  have := (c2 b hb).2
  rw [val b hbs (by simp [hX, hb])] at this
  by_cases h1 : Inside (Ks.map s.heap.segment) (s.heap.mid i) <;>
    by_cases h2 : Inside (Ks.map s.heap.segment) (s.heap.mid b) <;> by_cases h3 : b ∈ Ks <;>
    simp only [h1, h2, h3, ind_pos, ind_neg, not_false_iff, not_true, iff_true, iff_false, true_iff, false_iff] at this ⊢ <;>
    first | trivial | (exfalso; revert this; decide)

end Clipping

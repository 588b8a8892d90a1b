import Verif.Lemmas.Below.Touch

/-!
# The next segment below the start of a segment
-/

namespace Clipping

namespace Sweep

/-- `b` is the next segment below `i` at the start of `i`. -/
structure Under (A : ℕ → Seg) (n : ℕ) (i b : ℕ) : Prop where
  act : Act (A i).a (A b)
  bel : Bel (A i).a (A b) (A i)
  next : ∀ k < n, Act (A i).a (A k) → Bel (A i).a (A k) (A i) → k = b ∨ Bel (A i).a (A k) (A b)

/-- Nothing is below `i` at its start. -/
def Lowest (A : ℕ → Seg) (n : ℕ) (i : ℕ) : Prop := ∀ k < n, Act (A i).a (A k) → ¬ Bel (A i).a (A k) (A i)

/-- What is below and passes through the start of `i` is collinear with it. -/
def Clear (A : ℕ → Seg) (n : ℕ) (i : ℕ) : Prop :=
  ∀ u < n, Act (A i).a (A u) → (A u).a < (A i).a → Bel (A i).a (A u) (A i) → (A u).y (A i).a = (A i).y (A i).a →
    Col (A u) (A i)

variable {α : Type} {O : Ops α} {ε : ℚ} {Pt : List Point} {Y : ℚ → ℚ} {L F L' F' M : List ℕ} {p p' : ℚ}
  {Ex Ex' : ℕ → ℕ → Prop} {s s' : Store α}

section evolves
variable (S : St ε Pt Y s L F p Ex) (S' : St ε Pt Y s' L' F' p' Ex') (ev : Evolves O ε Pt M s s')
include S S' ev

/-- A segment which is active and below was so before. -/
theorem Evolves.old_below {i : ℕ} (hi : i < s.heap.count) {k : ℕ} (hk : k < s'.heap.count)
    (ha : Act (absSeg ε s'.heap i).a (absSeg ε s'.heap k))
    (hb : Bel (absSeg ε s'.heap i).a (absSeg ε s'.heap k) (absSeg ε s'.heap i)) :
    ∃ j < s.heap.count, Part O s.heap s'.heap j k ∧ Act (absSeg ε s.heap i).a (absSeg ε s.heap j) ∧
      Bel (absSeg ε s.heap i).a (absSeg ε s.heap j) (absSeg ε s.heap i) ∧
      Col (absSeg ε s'.heap k) (absSeg ε s.heap j) ∧ (absSeg ε s'.heap k).ff = (absSeg ε s.heap j).ff ∧
      (absSeg ε s.heap j).a ≤ (absSeg ε s'.heap k).a := by
  obtain ⟨j, hj, part⟩ := ev.sub k hk
  obtain ⟨c1, c2, c3, c4⟩ := part.abs (S.inv'.proper j hj) (S'.inv'.proper k hk)
  obtain ⟨d1, d2, d3, -⟩ := ev.abs S S' hi
  rw [d3] at ha hb
  rw [bel_congr d1.1 d1.2 d2, bel_congr_left c1.1 c1.2 c2] at hb
  exact ⟨j, hj, part, ⟨c3.trans ha.1, ha.2.trans_le c4⟩, hb, c1, c2, c3⟩

/-- A segment which was active and below still has such a part. -/
theorem Evolves.new_below {i : ℕ} (hi : i < s.heap.count) {k : ℕ} (hk : k < s.heap.count)
    (ha : Act (absSeg ε s.heap i).a (absSeg ε s.heap k))
    (hb : Bel (absSeg ε s.heap i).a (absSeg ε s.heap k) (absSeg ε s.heap i)) :
    ∃ j < s'.heap.count, Part O s.heap s'.heap k j ∧ Act (absSeg ε s'.heap i).a (absSeg ε s'.heap j) ∧
      Bel (absSeg ε s'.heap i).a (absSeg ε s'.heap j) (absSeg ε s'.heap i) := by
  obtain ⟨j, hj, part, h1⟩ := ev.covers.after S.inv'.proper S'.inv'.proper hk ha
  obtain ⟨c1, c2, c3, c4⟩ := part.abs (S.inv'.proper k hk) (S'.inv'.proper j hj)
  obtain ⟨d1, d2, d3, -⟩ := ev.abs S S' hi
  refine ⟨j, hj, part, by rw [d3]; exact h1, ?_⟩
  rw [d3, bel_congr d1.1 d1.2 d2, bel_congr_left c1.1 c1.2 c2]
  exact hb

theorem Evolves.lowest {i : ℕ} (hi : i < s.heap.count) :
    Lowest (absSeg ε s'.heap) s'.heap.count i ↔ Lowest (absSeg ε s.heap) s.heap.count i := by
  constructor
  · intro h k hk ha hb
    obtain ⟨j, hj, -, h1, h2⟩ := ev.new_below S S' hi hk ha hb
    exact h j hj h1 h2
  · intro h k hk ha hb
    obtain ⟨j, hj, -, h1, h2, -⟩ := ev.old_below S S' hi hk ha hb
    exact h j hj h1 h2

theorem Evolves.clear {i : ℕ} (hi : i < s.heap.count) (h : Clear (absSeg ε s.heap) s.heap.count i) :
    Clear (absSeg ε s'.heap) s'.heap.count i := by
  intro u hu ha hua hb hy
  obtain ⟨j, hj, part, h1, h2, c1, c2, c3⟩ := ev.old_below S S' hi hu ha hb
  obtain ⟨d1, d2, d3, -⟩ := ev.abs S S' hi
  rw [d3] at hua hy
  rw [c1.y, d1.y] at hy
  exact c1.trans ((h j hj h1 (by linarith) h2 hy).trans d1.symm)

/-- The next segment below stays so, unless it is cut at the start of the segment above, which overlaps
it then. -/
theorem Evolves.under (new : ∀ k ∈ L' ++ F', k < s.heap.count) {i b : ℕ} (hi : i < s.heap.count) (hb : b < s.heap.count)
    (hip : (absSeg ε s.heap i).a ≤ p') (cl : Clear (absSeg ε s.heap) s.heap.count i)
    (U : Under (absSeg ε s.heap) s.heap.count i b) :
    Under (absSeg ε s'.heap) s'.heap.count i b ∨ Pend (absSeg ε s'.heap) s'.heap.count L' F' i := by
  have I := S.inv'
  have I' := S'.inv'
  obtain ⟨d1, d2, d3, -⟩ := ev.abs S S' hi
  obtain ⟨b1, b2, b3, -⟩ := ev.abs S S' hb
  have hb' := hb.trans_le ev.count
  have pb' := I'.proper b hb'
  obtain ⟨w, hw, part, wa, wb⟩ := ev.new_below S S' hi hb U.act U.bel
  obtain ⟨c1, c2, c3, c4⟩ := part.abs (I.proper b hb) (I'.proper w hw)
  have pw := I'.proper w hw
  have belb : Bel (absSeg ε s'.heap i).a (absSeg ε s'.heap b) (absSeg ε s'.heap i) := by
    rw [d3, bel_congr d1.1 d1.2 d2, bel_congr_left b1.1 b1.2 b2]; exact U.bel
  by_cases e : w = b
  · subst e
    left
    refine ⟨wa, wb, fun k hk ha hkb => ?_⟩
    obtain ⟨j, hj, partj, h1, h2, g1, g2, g3⟩ := ev.old_below S S' hi hk ha hkb
    rcases U.next j hj h1 h2 with rfl | h
    · left
      by_contra hne
      have k1 := ha.1
      have k2 := ha.2
      have w1 := wa.1
      have w2 := wa.2
      rcases I'.noOv k hk j hw hne (g1.trans b1.symm) (g2.trans b2.symm) with h | h <;> linarith
    · right
      rw [d3, bel_congr b1.1 b1.2 b2, bel_congr_left g1.1 g1.2 g2]; exact h
  · right
    have hsep := I'.noOv w hw b hb' e (c1.trans b1.symm) (c2.trans b2.symm)
    have hba : (absSeg ε s.heap b).a < (absSeg ε s'.heap w).a := by
      rcases hsep with h | h <;> linarith
    have hwn : s.heap.count ≤ w := by
      by_contra hlt
      obtain ⟨e1, e2, e3, e4⟩ := ev.abs S S' (not_le.1 hlt)
      have p1 := I.proper b hb
      rcases I.noOv w (not_le.1 hlt) b hb e (e1.symm.trans c1) (e2.symm.trans c2) with h | h
      · linarith
      · linarith
    have hL : w ∉ L' := fun h => absurd (new w (by simp [h])) (not_lt.2 hwn)
    have hF : w ∉ F' := fun h => absurd (new w (by simp [h])) (not_lt.2 hwn)
    have w0 := I'.wait w hw hL hF
    have w1 := wa.1
    have hwi : (absSeg ε s'.heap w).a = (absSeg ε s'.heap i).a := by linarith
    have hy : (absSeg ε s.heap b).y (absSeg ε s.heap i).a = (absSeg ε s.heap i).y (absSeg ε s.heap i).a := by
      have y1 := (I'.endsY w hw).1
      have y2 := (I'.endsY i (hi.trans_le ev.count)).1
      rw [hwi, ← y2, d3, c1.y, d1.y] at y1
      exact y1
    have hcol := cl b hb U.act (by linarith) U.bel hy
    have hff : (absSeg ε s.heap b).ff = true ∧ (absSeg ε s.heap i).ff = false := by
      rcases U.bel with h | ⟨-, h | ⟨-, h⟩⟩
      · rw [hy] at h; exact absurd h (lt_irrefl _)
      · rw [hcol.1] at h; exact absurd h (lt_irrefl _)
      · exact h
    exact ⟨w, hw, hL, hF, c2.trans hff.1, d2.trans hff.2, c1.trans (hcol.trans d1.symm), hwi⟩

end evolves

/-- A vertical segment below the start of another one passes through it, or starts there and overlaps. -/
theorem St.vertical {s : Store ShapedData} (S : St ε Pt Y s L F p Ex) {c t : ℕ} (hc : c < s.heap.count)
    (ht : t < s.heap.count) (hv : s.heap.isVertical c = true) (ha : Act (absSeg ε s.heap t).a (absSeg ε s.heap c))
    (hb : Bel (absSeg ε s.heap t).a (absSeg ε s.heap c) (absSeg ε s.heap t)) :
    (absSeg ε s.heap c).y (absSeg ε s.heap t).a = (absSeg ε s.heap t).y (absSeg ε s.heap t).a ∧
      ((absSeg ε s.heap c).a < (absSeg ε s.heap t).a ∨ Hot ε s.heap c t) := by
  have I := S.inv'
  have pc := S.pts.mem c hc
  have pt := S.pts.mem t ht
  have h1 : s.heap.start c ≤ s.heap.start t := (S.pts.ord.le_iff pc.1 pt.1).2 ha.1
  have h2 : s.heap.start t < s.heap.stop c := (S.pts.ord.lt_iff pt.1 pc.2).2 ha.2
  have hx : (s.heap.start c).x = (s.heap.stop c).x := by simpa [Heap.isVertical] using hv
  have hx' : (s.heap.start t).x = (s.heap.start c).x := by
    rw [Point.lt_def] at h2
    have : (s.heap.start c).x ≤ (s.heap.start t).x := by
      rcases h1.lt_or_eq with h | h
      · rw [Point.lt_def] at h
        rcases h with h | h
        · exact h.le
        · exact h.1.le
      · rw [h]
    rcases h2 with h | h
    · linarith
    · exact h.1.trans hx.symm
  have hyy : (absSeg ε s.heap c).y (absSeg ε s.heap t).a = (absSeg ε s.heap t).y (absSeg ε s.heap t).a := by
    have hz : cross (s.heap.start c) (s.heap.stop c) (s.heap.start t) = 0 := by
      unfold cross; rw [hx', ← hx]; ring
    have := (cross_zero_iff (I.proper c hc) (ff := s.heap.first c) (s.heap.start t)).1 hz
    exact this.trans (abs_ya t).symm
  refine ⟨hyy, ?_⟩
  rcases ha.1.lt_or_eq with h | h
  · exact Or.inl h
  right
  rcases hb with hb | ⟨-, hb | ⟨hb, -⟩⟩
  · rw [hyy] at hb; exact absurd hb (lt_irrefl _)
  · exfalso
    have ptt := I.proper t ht
    have hlt : (absSeg ε s.heap c).y (sx ε (s.heap.stop t)) < (s.heap.stop t).y := by
      rw [← abs_yb ptt, ← abs_b]
      simp only [Seg.y] at hyy ⊢
      nlinarith
    have hcr := (cross_pos_iff (I.proper c hc) (ff := s.heap.first c) (s.heap.stop t)).2 hlt
    have hlt' : s.heap.start t < s.heap.stop t := (S.pts.ord.lt_iff pt.1 pt.2).2 ptt
    have hcl : s.heap.start c < s.heap.stop c := (S.pts.ord.lt_iff pc.1 pc.2).2 (I.proper c hc)
    rw [Point.lt_def] at hlt' hcl
    unfold cross at hcr
    rw [← hx] at hcr
    have y1 : (s.heap.start c).y < (s.heap.stop c).y := by
      rcases hcl with h | h
      · linarith
      · exact h.2
    have x1 : (s.heap.start c).x ≤ (s.heap.stop t).x := by
      rcases hlt' with h | h
      · linarith
      · linarith [h.1]
    nlinarith
  · exact ⟨col_of_slope hb hyy, h⟩

end Sweep

end Clipping

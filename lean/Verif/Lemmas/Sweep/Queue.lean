import Verif.Lemmas.Sweep.State
import Mathlib.Data.Prod.Lex
import Mathlib.Data.Finset.Max

/-!
# The queue: `pop` returns a minimal event
-/

namespace Clipping.Sweep

variable {α : Type} {ε : ℚ} {Pt : List Point} {h : Heap α}

/-- sweep coordinate of an event -/
def evX (ε : ℚ) (h : Heap α) (e : Ev) : ℚ := sx ε (h.evStart e)

/-- slope for comparing events with the same start: the less, the earlier -/
def evSlope (ε : ℚ) (h : Heap α) : Ev → ℚ
  | .left i => (absSeg ε h i).m
  | .right j => - (absSeg ε h (h.rights j).left).m

/-- right events come before left ones -/
def evSide : Ev → ℕ
  | .left _ => 1
  | .right _ => 0

/-- the event exists -/
def EvOk (h : Heap α) : Ev → Prop
  | .left i => i < h.count
  | .right j => j < h.count

theorem evStart_right (ok : HeapOk h) {j : ℕ} (hj : j < h.count) :
    h.evStart (.right j) = h.stop (h.rights j).left := by
  unfold Heap.stop Heap.evStart; rw [ok.rl j hj]

theorem evStop_left (i : ℕ) : h.evStop (.left i) = h.stop i := rfl
theorem evStop_right (j : ℕ) : h.evStop (.right j) = h.start (h.rights j).left := rfl

theorem EvOk.primary (ok : HeapOk h) {e : Ev} (he : EvOk h e) : h.primary e < h.count := by
  cases e with
  | left i => exact he
  | right j => exact ok.llt j he

theorem evStart_mem (ok : HeapOk h) (pts : PtsOk ε Pt h) {e : Ev} (he : EvOk h e) :
    h.evStart e ∈ Pt := by
  cases e with
  | left i => exact (pts.mem i he).1
  | right j => rw [evStart_right ok he]; exact (pts.mem _ (ok.llt j he)).2

/-- Orientation of events with the same start. -/
theorem orientation_left {i k : ℕ} (pi : (absSeg ε h i).a < (absSeg ε h i).b)
    (pk : (absSeg ε h k).a < (absSeg ε h k).b) (hs : h.start i = h.start k) :
    (orientation (h.start i) (h.stop i) (h.stop k) = .counterclockwise ↔
      (absSeg ε h i).m < (absSeg ε h k).m) ∧
    (orientation (h.start i) (h.stop i) (h.stop k) = .collinear ↔
      (absSeg ε h i).m = (absSeg ε h k).m) := by
  rw [orientation_ccw, orientation_col, cross_pos_iff (ff := h.first i) pi,
    cross_zero_iff (ff := h.first i) pi, ← abs_yb pk]
  have e : (absSeg ε h k).y (sx ε (h.stop k)) - (absSeg ε h i).y (sx ε (h.stop k)) =
      ((absSeg ε h k).m - (absSeg ε h i).m) * (sx ε (h.stop k) - sx ε (h.start k)) := by
    have e1 := abs_ya (ε := ε) (h := h) i
    have e2 := abs_ya (ε := ε) (h := h) k
    rw [hs] at e1
    simp only [Seg.y] at *
    linear_combination e2 - e1
  have hp : 0 < sx ε (h.stop k) - sx ε (h.start k) := sub_pos.2 pk
  have e' : (seg ε (h.start i) (h.stop i) (h.first i)) = absSeg ε h i := rfl
  rw [e']
  constructor
  · rw [← sub_pos, e, mul_pos_iff_of_pos_right hp, sub_pos]
  · constructor
    · intro g
      rw [g, sub_self] at e
      rcases mul_eq_zero.1 e.symm with g | g <;> linarith
    · intro g
      rw [g, sub_self, zero_mul] at e
      linarith

theorem orientation_right {i k : ℕ} (pi : (absSeg ε h i).a < (absSeg ε h i).b)
    (pk : (absSeg ε h k).a < (absSeg ε h k).b) (hs : h.stop i = h.stop k) :
    (orientation (h.stop i) (h.start i) (h.start k) = .clockwise ↔
      (absSeg ε h k).m < (absSeg ε h i).m) ∧
    (orientation (h.stop i) (h.start i) (h.start k) = .collinear ↔
      (absSeg ε h i).m = (absSeg ε h k).m) := by
  rw [orientation_cw, orientation_col, cross_swap, neg_lt_zero, neg_eq_zero,
    cross_pos_iff (ff := h.first i) pi, cross_zero_iff (ff := h.first i) pi, ← abs_ya (ε := ε) k]
  have e : (absSeg ε h k).y (sx ε (h.start k)) - (absSeg ε h i).y (sx ε (h.start k)) =
      ((absSeg ε h i).m - (absSeg ε h k).m) * (sx ε (h.stop k) - sx ε (h.start k)) := by
    have e1 := abs_yb pi
    have e2 := abs_yb pk
    rw [hs] at e1
    simp only [Seg.y] at *
    linear_combination e2 - e1
  have hp : 0 < sx ε (h.stop k) - sx ε (h.start k) := sub_pos.2 pk
  have e' : (seg ε (h.start i) (h.stop i) (h.first i)) = absSeg ε h i := rfl
  rw [e']
  constructor
  · rw [← sub_pos, e, mul_pos_iff_of_pos_right hp, sub_pos]
  · constructor
    · intro g
      rw [g, sub_self] at e
      rcases mul_eq_zero.1 e.symm with g | g <;> linarith
    · intro g
      rw [g, sub_self, zero_mul] at e
      linarith

/-- The comparison of events with the same start on the same side. -/
theorem queueLt_same (ok : HeapOk h) (pr : ∀ i < h.count, (absSeg ε h i).a < (absSeg ε h i).b)
    {e f : Ev} (he : EvOk h e) (hf : EvOk h f) (hs : h.evStart e = h.evStart f)
    (hd : evSide e = evSide f) :
    (evSlope ε h e < evSlope ε h f → queueLt h e f = true) ∧
    (evSlope ε h f < evSlope ε h e → queueLt h e f = false) ∧
    (evSlope ε h e = evSlope ε h f → queueLt h e f = h.evFirst f) := by
  cases e with
  | left i =>
    cases f with
    | right k => exact absurd hd (by simp [evSide])
    | left k =>
      obtain ⟨o1, o2⟩ := orientation_left (pr i he) (pr k hf) hs
      have s1 : (h.evStart (.left i)) = h.start i := rfl
      have s2 : (h.evStart (.left k)) = h.start k := rfl
      unfold queueLt
      simp only [evSlope, Heap.isLeft, s1, s2, evStop_left] at *
      rw [hs] at o1 o2 ⊢
      simp only [ne_eq, not_true_eq_false, if_false, if_true]
      refine ⟨fun g => ?_, fun g => ?_, fun g => ?_⟩
      · rw [if_neg (fun hh => g.ne (o2.1 hh)), o1.2 g]; rfl
      · rw [if_neg (fun hh => g.ne' (o2.1 hh))]
        simp only [decide_eq_false_iff_not, o1, not_lt]; exact g.le
      · rw [if_pos (o2.2 g)]
  | right i =>
    cases f with
    | left k => exact absurd hd (by simp [evSide])
    | right k =>
      rw [evStart_right ok he, evStart_right ok hf] at hs
      obtain ⟨o1, o2⟩ := orientation_right (pr _ (ok.llt i he)) (pr _ (ok.llt k hf)) hs
      unfold queueLt
      simp only [evSlope, Heap.isLeft, evStart_right ok he, evStart_right ok hf, evStop_right] at *
      rw [hs] at o1 o2 ⊢
      simp only [ne_eq, not_true_eq_false, if_false, Bool.false_eq_true, neg_lt_neg_iff, neg_inj]
      refine ⟨fun g => ?_, fun g => ?_, fun g => ?_⟩
      · rw [if_neg (fun hh => g.ne' (o2.1 hh)), o1.2 g]; rfl
      · rw [if_neg (fun hh => g.ne (o2.1 hh))]
        simp only [decide_eq_false_iff_not, o1, not_lt]; exact g.le
      · rw [if_pos (o2.2 g)]

theorem queueLt_side {e f : Ev} (hs : h.evStart e = h.evStart f) (hd : evSide e ≠ evSide f) :
    queueLt h e f = decide (evSide e < evSide f) := by
  unfold queueLt
  simp only [hs, ne_eq, not_true_eq_false, if_false]
  cases e <;> cases f <;> simp [evSide, Heap.isLeft] at hd ⊢

/-- `f` precedes `e` iff it is less in: sweep coordinate, side, slope, operand. -/
theorem precedes_iff (ok : HeapOk h) (pts : PtsOk ε Pt h)
    (pr : ∀ i < h.count, (absSeg ε h i).a < (absSeg ε h i).b) {e f : Ev} (he : EvOk h e) (hf : EvOk h f) :
    precedes h f e = true ↔ evX ε h f < evX ε h e ∨ (evX ε h f = evX ε h e ∧ (evSide f < evSide e ∨
      (evSide f = evSide e ∧ (evSlope ε h f < evSlope ε h e ∨ (evSlope ε h f = evSlope ε h e ∧
        h.evFirst f = false ∧ h.evFirst e = true))))) := by
  have me := evStart_mem ok pts he
  have mf := evStart_mem ok pts hf
  unfold precedes
  rw [Bool.and_eq_true, Bool.not_eq_true']
  rcases lt_trichotomy (h.evStart f) (h.evStart e) with g | g | g
  · have g' : evX ε h f < evX ε h e := pts.ord _ mf _ me g
    rw [queueLt_of_ne g.ne, queueLt_of_ne g.ne']
    simp [g, g', not_lt_of_gt g]
  · have g' : evX ε h f = evX ε h e := congrArg (sx ε) g
    by_cases d : evSide f = evSide e
    · obtain ⟨a1, a2, a3⟩ := queueLt_same ok pr hf he g d
      obtain ⟨b1, b2, b3⟩ := queueLt_same ok pr he hf g.symm d.symm
      simp only [g', lt_irrefl, false_or, true_and, d]
      rcases lt_trichotomy (evSlope ε h f) (evSlope ε h e) with k | k | k
      · simp [k, a1 k, b2 k]
      · rw [a3 k, b3 k.symm, k]
        simp only [lt_irrefl, false_or, true_and]
        tauto
      · simp [k.not_gt, k.ne', a2 k]
    · rw [queueLt_side g d, queueLt_side g.symm (Ne.symm d)]
      simp only [g', lt_irrefl, false_or, true_and, d, false_and, or_false, decide_eq_true_eq,
        decide_eq_false_iff_not]
      omega
  · have g' : evX ε h e < evX ε h f := pts.ord _ me _ mf g
    rw [queueLt_of_ne g.ne']
    simp [not_lt_of_gt g, g'.not_gt, g'.ne']

/-- total order of events for the existence of a minimum -/
def evRank (ε : ℚ) (h : Heap α) (e : Ev) : ℚ ×ₗ (ℕ ×ₗ (ℚ ×ₗ ℕ)) :=
  toLex (evX ε h e, toLex (evSide e, toLex (evSlope ε h e, (h.evFirst e).toNat)))

theorem rank_lt (ok : HeapOk h) (pts : PtsOk ε Pt h)
    (pr : ∀ i < h.count, (absSeg ε h i).a < (absSeg ε h i).b) {e f : Ev} (he : EvOk h e) (hf : EvOk h f)
    (hp : precedes h f e = true) : evRank ε h f < evRank ε h e := by
  rw [precedes_iff ok pts pr he hf] at hp
  unfold evRank
  simp only [Prod.Lex.toLex_lt_toLex]
  rcases hp with g | ⟨g, k | ⟨k, l | ⟨l, m, n⟩⟩⟩
  · exact Or.inl g
  · exact Or.inr ⟨g, Or.inl k⟩
  · exact Or.inr ⟨g, Or.inr ⟨k, Or.inl l⟩⟩
  · refine Or.inr ⟨g, Or.inr ⟨k, Or.inr ⟨l, ?_⟩⟩⟩
    rw [m, n]; decide

/-- `pop` returns an event of the queue which no other event precedes. -/
theorem pop_spec (tb : TieBreak) {s : Store α} (ok : HeapOk s.heap) (pts : PtsOk ε Pt s.heap)
    (pr : ∀ i < s.heap.count, (absSeg ε s.heap i).a < (absSeg ε s.heap i).b)
    (hq : ∀ e ∈ s.queue, EvOk s.heap e) :
    (pop tb s = none ↔ s.queue = []) ∧
    ∀ e q, pop tb s = some (e, q) → e ∈ s.queue ∧ q = s.queue.erase e ∧
      ∀ f ∈ s.queue, precedes s.heap f e = false := by
  unfold pop
  cases hs : s.queue with
  | nil => simp
  | cons a l =>
    refine ⟨by simp, ?_⟩
    intro e q heq
    rw [hs] at hq
    dsimp only at heq
    obtain ⟨m, hm, hmin⟩ := Finset.exists_min_image (a :: l).toFinset (evRank ε s.heap) ⟨a, by simp⟩
    rw [List.mem_toFinset] at hm
    have hall : ((a :: l).all fun b => !precedes s.heap b m) = true := by
      rw [List.all_eq_true]
      intro b hb
      by_contra hc
      simp only [Bool.not_eq_true', Bool.not_eq_false] at hc
      exact absurd (hmin b (List.mem_toFinset.2 hb)) (not_le.2 (rank_lt ok pts pr (hq m hm) (hq b hb) hc))
    cases hf : (tb.order (a :: l)).find? fun x => (a :: l).all fun b => !precedes s.heap b x with
    | none =>
      rw [List.find?_eq_none] at hf
      exact absurd hall (hf m ((tb.perm _).mem_iff.2 hm))
    | some x =>
      rw [hf] at heq
      simp only [Option.getD_some, Option.some.injEq, Prod.mk.injEq] at heq
      obtain ⟨rfl, rfl⟩ := heq
      refine ⟨(tb.perm _).mem_iff.1 (List.mem_of_find?_eq_some hf), rfl, ?_⟩
      have := List.find?_some hf
      rw [List.all_eq_true] at this
      intro f hfm
      simpa using this f hfm

end Clipping.Sweep

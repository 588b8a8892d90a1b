import Verif.Lemmas.Shaped.Twin
import Verif.Lemmas.Shaped.Complete

/-!
# All events of a sweep are sorted by the key of the queue
-/

namespace Clipping

open Sweep

variable {h : Heap ShapedData}

/-- `f` is not before `e` in the order of the queue. -/
def NotAfter (h : Heap ShapedData) (e f : Ev) : Prop :=
  h.evStart e < h.evStart f ∨ h.evStart e = h.evStart f ∧
    ((Heap.isLeft e = false ∧ Heap.isLeft f = true) ∨
      (Heap.isLeft e = false ∧ Heap.isLeft f = false ∧
        (det (evDir h e) (evDir h f) < 0 ∨ det (evDir h e) (evDir h f) = 0 ∧ h.evFirst e = false)) ∨
      (Heap.isLeft e = true ∧ Heap.isLeft f = true ∧
        (0 < det (evDir h e) (evDir h f) ∨ det (evDir h e) (evDir h f) = 0 ∧ h.evFirst e = false)))

theorem queueLt_false_iff {e f : Ev} : queueLt h f e = false ↔ NotAfter h e f := by
  unfold queueLt NotAfter
  by_cases hs : h.evStart e = h.evStart f
  · have hc : cross (h.evStart f) (h.evStop f) (h.evStop e) = - det (evDir h e) (evDir h f) := by
      rw [cross_eq_det]; unfold evDir; rw [← hs, det_swap]
    have o1 := orientation_ccw (a := h.evStart f) (b := h.evStop f) (c := h.evStop e)
    have o2 := orientation_cw (a := h.evStart f) (b := h.evStop f) (c := h.evStop e)
    have o3 := orientation_col (a := h.evStart f) (b := h.evStop f) (c := h.evStop e)
    rw [hc] at o1 o2 o3
    have lt : ¬ h.evStart f < h.evStart f := lt_irrefl _
    rw [hs]
    simp only [true_and, ne_eq, not_true_eq_false, if_false, lt, false_or]
    rcases lt_trichotomy (det (evDir h e) (evDir h f)) 0 with hd | hd | hd
    · have o : orientation (h.evStart f) (h.evStop f) (h.evStop e) = .counterclockwise := o1.2 (by linarith)
      rw [o]
      cases l1 : Heap.isLeft e <;> cases l2 : Heap.isLeft f <;> simp [hd, hd.ne, hd.not_gt]
    · have o : orientation (h.evStart f) (h.evStop f) (h.evStop e) = .collinear := o3.2 (by linarith)
      rw [o]
      cases l1 : Heap.isLeft e <;> cases l2 : Heap.isLeft f <;> simp [hd]
    · have o : orientation (h.evStart f) (h.evStop f) (h.evStop e) = .clockwise := o2.2 (by linarith)
      rw [o]
      cases l1 : Heap.isLeft e <;> cases l2 : Heap.isLeft f <;> simp [hd, hd.ne', hd.not_gt]
  · simp only [hs, false_and, or_false]
    rw [Point.lt_def]
    by_cases hx : (h.evStart e).x = (h.evStart f).x
    · have hy : (h.evStart e).y ≠ (h.evStart f).y := fun hy => hs (Point.ext' hx hy)
      simp only [hx, ne_eq, not_true_eq_false, if_false, hy.symm, not_false_eq_true, if_true, decide_eq_false_iff_not, not_lt,
        lt_irrefl, true_and, false_or]
      exact ⟨fun g => lt_of_le_of_ne g hy, le_of_lt⟩
    · simp only [ne_eq, Ne.symm hx, not_false_eq_true, if_true, decide_eq_false_iff_not, not_lt, hx, false_and, or_false]
      exact ⟨fun g => lt_of_le_of_ne g hx, le_of_lt⟩

theorem evDir_side (ok : HeapOk h) (lt : ∀ i < h.count, h.start i < h.stop i) {e : Ev} (he : EvOk h e) :
    (Heap.isLeft e = true → Ahead (evDir h e)) ∧ (Heap.isLeft e = false → Behind (evDir h e)) := by
  have : ∀ {a b : Point}, a < b → Ahead (vec a b) := by
    intro a b hab
    rw [Point.lt_def] at hab
    unfold Ahead vec
    rcases hab with g | ⟨g, g'⟩
    · left; simp only; linarith
    · right; simp only; exact ⟨by linarith, by linarith⟩
  cases e with
  | left i =>
    refine ⟨fun _ => ?_, fun g => by cases g⟩
    exact this (lt i he)
  | right j =>
    refine ⟨fun g => (by cases g), fun _ => ?_⟩
    have := this (lt _ (ok.llt j he))
    unfold evDir
    rw [evStart_right ok he, evStop_right]
    unfold Ahead at this
    unfold Behind vec at *
    simp only at *
    rcases this with g | ⟨g, g'⟩
    · left; linarith
    · right; exact ⟨by linarith, by linarith⟩

theorem notAfter_trans (ok : HeapOk h) (lt : ∀ i < h.count, h.start i < h.stop i) {a b c : Ev} (ha : EvOk h a)
    (hb : EvOk h b) (hc : EvOk h c) (h1 : NotAfter h a b) (h2 : NotAfter h b c) : NotAfter h a c := by
  have ahead : ∀ {x y z : Point} {p q : Bool}, Ahead x → Ahead y → Ahead z → (det x y < 0 ∨ det x y = 0 ∧ p = false) →
      (det y z < 0 ∨ det y z = 0 ∧ q = false) → (det x z < 0 ∨ det x z = 0 ∧ p = false) := by
    intro x y z p q ax ay az g1 g2
    rcases g1 with g1 | ⟨g1, hp⟩
    · exact Or.inl (Ahead.trans_lt ax ay az g1 (by rcases g2 with g | ⟨g, -⟩ <;> linarith))
    · rcases g2 with g2 | ⟨g2, -⟩
      · exact Or.inl (Ahead.trans_lt' ax ay az g1.le g2)
      · refine Or.inr ⟨?_, hp⟩
        have key : y.x * det x z = x.x * det y z + z.x * det x y := by unfold det; ring
        have key2 : y.y * det x z = x.y * det y z + z.y * det x y := by unfold det; ring
        rw [g1, g2] at key key2
        rcases ay with h | ⟨-, h⟩
        · exact (mul_eq_zero.1 (key.trans (by ring))).resolve_left h.ne'
        · exact (mul_eq_zero.1 (key2.trans (by ring))).resolve_left h.ne'
  have ahead' : ∀ {x y z : Point} {p q : Bool}, Ahead x → Ahead y → Ahead z → (0 < det x y ∨ det x y = 0 ∧ p = false) →
      (0 < det y z ∨ det y z = 0 ∧ q = false) → (0 < det x z ∨ det x z = 0 ∧ p = false) := by
    intro x y z p q ax ay az g1 g2
    have w1 := det_swap x y
    have w2 := det_swap y z
    have w3 := det_swap x z
    rcases g1 with g1 | ⟨g1, hp⟩
    · left
      have := Ahead.trans_lt' az ay ax (by rcases g2 with g | ⟨g, -⟩ <;> linarith) (by linarith)
      linarith
    · rcases g2 with g2 | ⟨g2, hq⟩
      · left
        have := Ahead.trans_lt az ay ax (by linarith) (by linarith)
        linarith
      · rcases ahead (p := p) (q := p) ax ay az (Or.inr ⟨g1, hp⟩) (Or.inr ⟨g2, hp⟩) with g | g
        · rcases ahead (p := p) (q := p) az ay ax (Or.inr ⟨by linarith, hp⟩) (Or.inr ⟨by linarith, hp⟩) with g' | g'
          · linarith
          · exact Or.inr ⟨by linarith, hp⟩
        · exact Or.inr g
  have s1 := evDir_side ok lt ha
  have s2 := evDir_side ok lt hb
  have s3 := evDir_side ok lt hc
  unfold NotAfter at h1 h2 ⊢
  rcases h1 with h1 | ⟨e1, h1⟩
  · rcases h2 with h2 | ⟨e2, h2⟩
    · exact Or.inl (h1.trans h2)
    · rw [e2] at h1; exact Or.inl h1
  · rcases h2 with h2 | ⟨e2, h2⟩
    · rw [← e1] at h2; exact Or.inl h2
    · refine Or.inr ⟨e1.trans e2, ?_⟩
      rcases h1 with ⟨a1, a2⟩ | ⟨a1, a2, a3⟩ | ⟨a1, a2, a3⟩ <;> rcases h2 with ⟨b1, b2⟩ | ⟨b1, b2, b3⟩ | ⟨b1, b2, b3⟩
      · rw [a2] at b1; cases b1
      · rw [a2] at b1; cases b1
      · exact Or.inl ⟨a1, b2⟩
      · exact Or.inl ⟨a1, b2⟩
      · refine Or.inr (Or.inl ⟨a1, b2, ?_⟩)
        have := ahead (p := h.evFirst a) (q := h.evFirst b)
          (s1.2 a1).neg (s2.2 a2).neg (s3.2 b2).neg
          (by rw [det_neg_left, det_neg_right, neg_neg]; exact a3) (by rw [det_neg_left, det_neg_right, neg_neg]; exact b3)
        rw [det_neg_left, det_neg_right, neg_neg] at this
        exact this
      · rw [a2] at b1; cases b1
      · rw [a2] at b1; cases b1
      · rw [a2] at b1; cases b1
      · exact Or.inr (Or.inr ⟨a1, b2, ahead' (s1.1 a1) (s2.1 a2) (s3.1 b2) a3 b3⟩)

variable {op : Bool → Bool → Bool} {events : List Ev} {stop : Point → Bool} {A B : List Segment}

/-- Events with the same start, on the same side and with the same direction belong to different operands. -/
theorem ShapedEnd.first_ne (E : ShapedEnd op h events stop A B) {e f : Ev} (he : EvOk h e) (hf : EvOk h f) (hne : e ≠ f)
    (hs : h.evStart e = h.evStart f) (hl : Heap.isLeft e = Heap.isLeft f) (hd : det (evDir h e) (evDir h f) = 0) :
    h.evFirst e ≠ h.evFirst f := by
  intro hff
  have key : ∀ i < h.count, ∀ j < h.count, i ≠ j → h.first i = h.first j → cross (h.start j) (h.stop j) (h.start i) = 0 →
      cross (h.start j) (h.stop j) (h.stop i) = 0 → h.stop i ≤ h.start j ∨ h.stop j ≤ h.start i := by
    intro i hi j hj hij h1 h2 h3
    refine E.fin.noOv i hi j hj hij ?_ h1
    unfold SameLine
    rw [Sweep.segment_lo (E.fin.lt i hi), Sweep.segment_hi (E.fin.lt i hi), Sweep.segment_lo (E.fin.lt j hj),
      Sweep.segment_hi (E.fin.lt j hj)]
    exact ⟨h2, h3⟩
  cases e with
  | left i =>
    cases f with
    | right j => cases hl
    | left j =>
      have hij : i ≠ j := fun g => hne (by rw [g])
      have hs : h.start i = h.start j := hs
      have hd : det (vec (h.start i) (h.stop i)) (vec (h.start j) (h.stop j)) = 0 := hd
      have := key i he j hf hij hff (by rw [hs]; unfold cross; ring) (by
        rw [cross_eq_det, det_swap]; rw [hs] at hd; rw [hd, neg_zero])
      rcases this with g | g
      · rw [← hs] at g; exact absurd (E.fin.lt i he) g.not_gt
      · rw [hs] at g; exact absurd (E.fin.lt j hf) g.not_gt
  | right i =>
    cases f with
    | left j => cases hl
    | right j =>
      have hij : (h.rights i).left ≠ (h.rights j).left := fun g => hne (by
        have h1 := E.ok.rl i he
        have h2 := E.ok.rl j hf
        rw [g, h2] at h1
        rw [h1])
      unfold evDir at hd
      rw [evStart_right E.ok he, evStart_right E.ok hf] at hs
      rw [evStart_right E.ok he, evStart_right E.ok hf, evStop_right, evStop_right] at hd
      have li := E.ok.llt i he
      have lj := E.ok.llt j hf
      have := key _ li _ lj hij hff (by
        rw [← hd, ← hs]; unfold cross det vec; simp only; ring) (by
        rw [hs]; unfold cross; ring)
      rcases this with g | g
      · rw [hs] at g; exact absurd (E.fin.lt _ lj) g.not_gt
      · rw [← hs] at g; exact absurd (E.fin.lt _ li) g.not_gt

/-- Sorting all events. -/
theorem ShapedEnd.all_sorted (E : ShapedEnd op h events stop A B) : (sortEvents h events).Pairwise (NotAfter h) := by
  have ev : ∀ e ∈ events, EvOk h e := fun e he => ((E.mem e).1 he).1
  have := insertionSort_pairwise (r := fun e f => queueLt h f e = false) E.nodup ?_ ?_
  · exact this.imp fun g => queueLt_false_iff.1 g
  · intro a ha b hb hne
    rw [queueLt_false_iff, queueLt_false_iff]
    unfold NotAfter
    rcases lt_trichotomy (h.evStart a) (h.evStart b) with h1 | h1 | h1
    · exact Or.inl (Or.inl h1)
    · have hd := E.first_ne (ev a ha) (ev b hb) hne h1
      have sw := det_swap (evDir h a) (evDir h b)
      cases l1 : Heap.isLeft a <;> cases l2 : Heap.isLeft b
      · rw [l1, l2] at hd
        rcases lt_trichotomy (det (evDir h a) (evDir h b)) 0 with h2 | h2 | h2
        · left; right; exact ⟨h1, Or.inr (Or.inl ⟨rfl, rfl, Or.inl h2⟩)⟩
        · have := hd rfl h2
          cases f1 : h.evFirst a
          · left; right; exact ⟨h1, Or.inr (Or.inl ⟨rfl, rfl, Or.inr ⟨h2, rfl⟩⟩)⟩
          · right; right; exact ⟨h1.symm, Or.inr (Or.inl ⟨rfl, rfl, Or.inr ⟨by linarith, by rw [f1] at this; simpa using this.symm⟩⟩)⟩
        · right; right; exact ⟨h1.symm, Or.inr (Or.inl ⟨rfl, rfl, Or.inl (by linarith)⟩)⟩
      · left; right; exact ⟨h1, Or.inl ⟨rfl, rfl⟩⟩
      · right; right; exact ⟨h1.symm, Or.inl ⟨rfl, rfl⟩⟩
      · rw [l1, l2] at hd
        rcases lt_trichotomy (det (evDir h a) (evDir h b)) 0 with h2 | h2 | h2
        · right; right; exact ⟨h1.symm, Or.inr (Or.inr ⟨rfl, rfl, Or.inl (by linarith)⟩)⟩
        · have := hd rfl h2
          cases f1 : h.evFirst a
          · left; right; exact ⟨h1, Or.inr (Or.inr ⟨rfl, rfl, Or.inr ⟨h2, rfl⟩⟩)⟩
          · right; right; exact ⟨h1.symm, Or.inr (Or.inr ⟨rfl, rfl, Or.inr ⟨by linarith, by rw [f1] at this; simpa using this.symm⟩⟩)⟩
        · left; right; exact ⟨h1, Or.inr (Or.inr ⟨rfl, rfl, Or.inl h2⟩)⟩
    · exact Or.inr (Or.inl h1)
  · intro a ha b hb c hc _ _ _
    rw [queueLt_false_iff, queueLt_false_iff, queueLt_false_iff]
    exact notAfter_trans E.ok E.fin.lt (ev a ha) (ev b hb) (ev c hc)

end Clipping

import Verif.Lemmas.Sweep.Final
import Verif.Model.Nary

/-!
# Intersections found by the n-ary sweep
-/

namespace Clipping.Nary

open Sweep

variable {ε : ℚ} {Pt : List Point} {s : Store Unit}

theorem naryQueueLt_of_ne {h : Heap Unit} {e f : Ev} (hne : h.evStart e ≠ h.evStart f) :
    naryQueueLt h e f = queueLt h e f := by
  have hxy : ¬ ((h.evStart e).x = (h.evStart f).x ∧ (h.evStart e).y = (h.evStart f).y) := fun ⟨h1, h2⟩ =>
    hne (Point.ext' h1 h2)
  unfold naryQueueLt queueLt
  dsimp only
  by_cases h1 : (h.evStart e).x = (h.evStart f).x
  · have h2 : (h.evStart e).y ≠ (h.evStart f).y := fun h2 => hxy ⟨h1, h2⟩
    simp only [h1, ne_eq, not_true_eq_false, if_false, h2, not_false_eq_true, if_true]
  · simp only [ne_eq, h1, not_false_eq_true, if_true]

/-- Overlapping segments are divided in the same way as in the other sweeps. -/
theorem naryDivideOverlapping_eq (u v : ℕ) :
    naryDivideOverlapping s u v = divideOverlapping linearOps.toPayload s u v := by
  have e1 : s.heap.start u ≠ s.heap.start v →
      naryQueueLt s.heap (.left v) (.left u) = queueLt s.heap (.left v) (.left u) := fun h =>
    naryQueueLt_of_ne fun e => h e.symm
  have e2 : s.heap.stop v ≠ s.heap.stop u →
      naryQueueLt s.heap (s.heap.opposite (.left v)) (s.heap.opposite (.left u)) =
        queueLt s.heap (s.heap.opposite (.left v)) (s.heap.opposite (.left u)) := fun h =>
    naryQueueLt_of_ne h
  unfold naryDivideOverlapping divideOverlapping naryDivide
  dsimp only
  by_cases h1 : s.heap.start u = s.heap.start v <;> by_cases h2 : s.heap.stop v = s.heap.stop u
  · simp [h1, h2]
  · simp [h1, h2, e2 h2]
  · simp [h1, h2, e1 h1]
  · simp [h1, h2, e1 h1, e2 h2]

/-- Without an overlap the n-ary queue does what the binary one does. -/
theorem naryDetect_eq {u v : ℕ} (h : ¬ (segmentsRelation (s.heap.segment u) (s.heap.segment v)).Linear) :
    detectIntersection linearOps.toPayload s u v = .ok (naryDetect s u v, false) := by
  unfold detectIntersection naryDetect naryDivide
  dsimp only
  cases hr : segmentsRelation (s.heap.segment u) (s.heap.segment v) <;> rw [hr] at h <;> dsimp only
  all_goals first
    | exact absurd trivial h
    | (split <;> rfl)

theorem naryDetect_linear {u v : ℕ} (h : (segmentsRelation (s.heap.segment u) (s.heap.segment v)).Linear) :
    naryDetect s u v = divideOverlapping linearOps.toPayload s u v := by
  unfold naryDetect
  dsimp only
  cases hr : segmentsRelation (s.heap.segment u) (s.heap.segment v) <;> rw [hr] at h <;> dsimp only
  all_goals first
    | exact absurd h id
    | exact naryDivideOverlapping_eq u v

theorem naryDetect_self (u : ℕ) : naryDetect s u u = s := by
  unfold naryDetect
  dsimp only
  split
  · rfl
  · simp
  · simp
  · unfold naryDivideOverlapping; simp

/-- Two segments are divided at points strictly inside, which are among the given ones. -/
theorem naryDetect_divs {u v : ℕ} (ok : HeapOk s.heap) (hu : u < s.heap.count) (hv : v < s.heap.count)
    (pu : (absSeg ε s.heap u).a < (absSeg ε s.heap u).b)
    (pv : (absSeg ε s.heap v).a < (absSeg ε s.heap v).b) (pts : PtsOk ε Pt s.heap) :
    Divs linearOps.toPayload ε u v (· ∈ Pt) s (naryDetect s u v) := by
  by_cases huv : u = v
  · subst huv; rw [naryDetect_self]; exact .refl
  have mu := pts.mem u hu
  have mv := pts.mem v hv
  have lu : s.heap.start u < s.heap.stop u := (pts.ord.lt_iff mu.1 mu.2).2 pu
  have lv : s.heap.start v < s.heap.stop v := (pts.ord.lt_iff mv.1 mv.2).2 pv
  have pru : (s.heap.segment u).Proper := lu.ne
  have prv : (s.heap.segment v).Proper := lv.ne
  have hm := relation_spec pru prv
  by_cases hl : (segmentsRelation (s.heap.segment u) (s.heap.segment v)).Linear
  · obtain ⟨sl, hmm⟩ := linear_facts pru prv hm hl
    rw [segment_lo lu, segment_hi lu, segment_lo lv, segment_hi lv, max_lt_iff, lt_min_iff,
      lt_min_iff] at hmm
    have hc := (sameLine_iff pu pv lu lv).1 sl
    have h1 : (absSeg ε s.heap u).a < (absSeg ε s.heap v).b := (pts.ord.lt_iff mu.1 mv.2).1 hmm.1.2
    have h2 : (absSeg ε s.heap v).a < (absSeg ε s.heap u).b := (pts.ord.lt_iff mv.1 mu.2).1 hmm.2.1
    rw [naryDetect_linear hl]
    exact (divideOverlapping_divs (P := linearOps.toPayload) ok hu hv huv pu pv pts.ord mu mv hc h1
      h2).1.mono (fun _ h => h) fun q hq => hq.2.2
  · obtain ⟨s', b, e, d, -⟩ := detect_divs (P := linearOps.toPayload) ok hu hv huv pu pv pts.ord mu mv
      (pts.cross u hu v hv) (by
        intro hc h1 h2 _
        have sl := (sameLine_iff pu pv lu lv).2 hc
        apply hl
        obtain ⟨x, y, hxy, x1, y1, x2, y2⟩ := two_common prv sl (s := s.heap.segment u) (by
          rw [segment_lo lu, segment_hi lu, segment_lo lv, segment_hi lv, max_lt_iff, lt_min_iff,
            lt_min_iff]
          exact ⟨⟨lu, (pts.ord.lt_iff mu.1 mv.2).2 h1⟩, (pts.ord.lt_iff mv.1 mu.2).2 h2, lv⟩)
        cases hr : segmentsRelation (s.heap.segment u) (s.heap.segment v) <;> rw [hr] at hm
        · exact absurd x2 (hm x x1)
        · obtain ⟨p, -, -, p3, -⟩ := hm
          exact absurd ((p3 x x1 x2).trans (p3 y y1 y2).symm) hxy
        · obtain ⟨⟨p, -, -, p3, -⟩, -⟩ := hm
          exact absurd ((p3 x x1 x2).trans (p3 y y1 y2).symm) hxy
        all_goals trivial)
    rw [naryDetect_eq hl] at e
    injection e with e
    injection e with e _
    rw [e]
    exact d.mono (fun _ h => h) fun q hq => hq.2.2

end Clipping.Nary

import Verif.Lemmas.LinearSweep
import Verif.Lemmas.Size

/-!
# Number of pieces and of steps of a sweep
-/

namespace Clipping

open Sweep

variable {α : Type} {h : Heap α} {F : List ℕ} {stop : Point → Bool} {a b : List Segment}

/-- The pieces of an operand. -/
def piecesOf (h : Heap α) (c : Bool) : List Segment := ((List.range h.count).filter fun i => h.first i == c).map h.segment

theorem piecesOf_length (h : Heap α) : (piecesOf h true).length + (piecesOf h false).length = h.count := by
  unfold piecesOf
  rw [List.length_map, List.length_map]
  have := List.length_eq_length_filter_add (l := List.range h.count) fun i => h.first i == true
  rw [List.length_range] at this
  have e : (List.range h.count).filter (fun i => h.first i == false) = (List.range h.count).filter fun i => !(h.first i == true) :=
    List.filter_congr fun i _ => by cases h.first i <;> rfl
  rw [e]
  exact this.symm

/-- Pieces of one operand do not overlap. -/
theorem Sweep.Final.pieces_noOverlap (f : Final h F stop (marked a b)) (c : Bool) : NoOverlap (piecesOf h c) := by
  unfold piecesOf
  refine ⟨?_, ?_⟩
  · intro s hs
    obtain ⟨i, hi, rfl⟩ := List.mem_map.1 hs
    exact (f.lt i (List.mem_range.1 (List.mem_filter.1 hi).1)).ne
  · rw [List.pairwise_map]
    have nd : ((List.range h.count).filter fun i => h.first i == c).Nodup := List.nodup_range.filter _
    refine List.Pairwise.imp_of_mem (fun {i j} hi hj hne ho => ?_) nd
    obtain ⟨hi, ci⟩ := List.mem_filter.1 hi
    obtain ⟨hj, cj⟩ := List.mem_filter.1 hj
    have li := f.lt i (List.mem_range.1 hi)
    have lj := f.lt j (List.mem_range.1 hj)
    have line := overlapping_line (s := h.segment i) (t := h.segment j) li.ne lj.ne ho
    have sl : SameLine (h.segment i) (h.segment j) :=
      ⟨(line _).1 (by simp only [cross]; ring), (line _).1 (by simp only [cross]; ring)⟩
    obtain ⟨p, q, hpq, p1, q1, p2, q2⟩ := ho
    have hlt : ∀ {p q : Point}, p < q → p ∈ (h.segment i).pts → q ∈ (h.segment i).pts → p ∈ (h.segment j).pts → q ∈ (h.segment j).pts → False := by
      intro p q hpq p1 q1 p2 q2
      have a1 := mem_between (e := h.segment i) li p1
      have a2 := mem_between (e := h.segment i) li q1
      have b1 := mem_between (e := h.segment j) lj p2
      have b2 := mem_between (e := h.segment j) lj q2
      rcases f.noOv i (List.mem_range.1 hi) j (List.mem_range.1 hj) hne sl (by simp only [beq_iff_eq] at ci cj; rw [ci, cj]) with g | g
      · exact absurd ((b1.1.trans_lt hpq).trans_le a2.2) (not_lt.2 g)
      · exact absurd ((a1.1.trans_lt hpq).trans_le b2.2) (not_lt.2 g)
    rcases lt_or_gt_of_ne hpq with g | g
    · exact hlt g p1 q1 p2 q2
    · exact hlt g q1 p1 q2 p2

theorem Sweep.Final.pieces_le (f : Final h F stop (marked a b)) (pr : ∀ s ∈ a ++ b, s.Proper) (c : Bool) :
    (piecesOf h c).length ≤ contacts (a ++ b) := by
  refine length_le_of_vertices pr (f.pieces_noOverlap c) ?_ ?_
  · intro s hs q hq
    obtain ⟨i, hi, rfl⟩ := List.mem_map.1 hs
    obtain ⟨x, hx, -, hw⟩ := f.par i (List.mem_range.1 (List.mem_filter.1 hi).1)
    refine ⟨x.1, ?_, hw hq⟩
    rw [← marked_fst]
    exact List.mem_map_of_mem hx
  · intro s hs
    obtain ⟨i, hi, rfl⟩ := List.mem_map.1 hs
    have hi := List.mem_range.1 (List.mem_filter.1 hi).1
    have : (h.segment i).lo = h.start i := min_eq_left (f.lt i hi).le
    rw [this, ← marked_fst a b]
    exact (f.vert i hi).1

theorem Sweep.Final.count_le (f : Final h F stop (marked a b)) (pr : ∀ s ∈ a ++ b, s.Proper) : h.count ≤ 2 * contacts (a ++ b) := by
  rw [← piecesOf_length]
  have := f.pieces_le pr true
  have := f.pieces_le pr false
  omega

theorem events_length_le {l : List Ev} (nd : l.Nodup) (hl : ∀ e ∈ l, EvOk h e) : l.length ≤ 2 * h.count := by
  have sub : l ⊆ (List.range h.count).map Ev.left ++ (List.range h.count).map Ev.right := by
    intro e he
    have := hl e he
    cases e with
    | left i => exact List.mem_append_left _ (List.mem_map_of_mem (List.mem_range.2 this))
    | right j => exact List.mem_append_right _ (List.mem_map_of_mem (List.mem_range.2 this))
  have := (nd.subperm sub).length_le
  simp only [List.length_append, List.length_map, List.length_range] at this
  omega

/-- A sweep over operands without overlaps ends after at most so many steps, having made at most so many pieces. -/
theorem sweep_steps_le (O : Ops α) (d : α) (tb : TieBreak) (stop : Point → Bool) (ha : NoOverlap a) (hb : NoOverlap b)
    (mono : ∀ p q, p ≤ q → stop p = true → stop q = true) : ∃ s log, sweep O d tb stop a b = .ok (s, log) ∧
      s.store.heap.count ≤ 2 * contacts (a ++ b) ∧ log.length ≤ 4 * contacts (a ++ b) := by
  obtain ⟨s, log, e, -, f, nd, -, -, hm⟩ := sweep_final O d tb stop (operandsOk_marked ha hb) mono
  have pr : ∀ s ∈ a ++ b, s.Proper := fun s hs => (List.mem_append.1 hs).elim (ha.1 s) (hb.1 s)
  have hc := f.count_le pr
  refine ⟨s, _, e, hc, ?_⟩
  have := events_length_le nd fun e he => ((hm e).1 he).1
  rw [List.length_map] at this
  rw [List.length_reverse]
  omega

end Clipping

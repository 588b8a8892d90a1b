import Verif.Spec.Polygon
import Verif.Lemmas.Region.Const

/-!
# Regions composed of others
-/

namespace Clipping

/-- The segment in the other direction. -/
def Segment.swap (s : Segment) : Segment := ⟨s.stop, s.start⟩

namespace Segment

theorem swap_swap (s : Segment) : s.swap.swap = s := rfl

theorem swap_lo (s : Segment) : s.swap.lo = s.lo := min_comm _ _

theorem swap_hi (s : Segment) : s.swap.hi = s.hi := max_comm _ _

theorem swap_pts (s : Segment) : s.swap.pts = s.pts := (pts_swap s.start s.stop).symm

theorem swap_isEnd (s : Segment) (q : Point) : s.swap.IsEnd q ↔ s.IsEnd q := or_comm

theorem swap_proper (s : Segment) : s.swap.Proper ↔ s.Proper := ne_comm

end Segment

theorem isBelow_swap (s : Segment) (m : Point) : IsBelow s.swap m ↔ IsBelow s m := by
  unfold IsBelow; rw [s.swap_lo, s.swap_hi]

theorem segsPts_perm {A B : List Segment} (h : A.Perm B) : segsPts A = segsPts B := by
  ext q; unfold segsPts
  constructor
  · rintro ⟨s, hs, hq⟩; exact ⟨s, h.mem_iff.1 hs, hq⟩
  · rintro ⟨s, hs, hq⟩; exact ⟨s, h.mem_iff.2 hs, hq⟩

theorem segsPts_swap (A : List Segment) : segsPts (A.map Segment.swap) = segsPts A := by
  ext q; unfold segsPts
  constructor
  · rintro ⟨s, hs, hq⟩
    obtain ⟨t, ht, rfl⟩ := List.mem_map.1 hs
    exact ⟨t, ht, by rwa [t.swap_pts] at hq⟩
  · rintro ⟨s, hs, hq⟩
    exact ⟨_, List.mem_map_of_mem hs, by rwa [s.swap_pts]⟩

theorem inside_perm {A B : List Segment} (h : A.Perm B) (m : Point) : Inside A m ↔ Inside B m := by
  unfold Inside; rw [h.countP_eq]

theorem inside_swap (A : List Segment) (m : Point) : Inside (A.map Segment.swap) m ↔ Inside A m := by
  unfold Inside
  rw [List.countP_map]
  have : ((fun e => decide (IsBelow e m)) ∘ Segment.swap) = fun e => decide (IsBelow e m) := by
    funext e; simp only [Function.comp]; rw [decide_eq_decide]; exact isBelow_swap e m
  rw [this]

theorem inside_append (A B : List Segment) (m : Point) :
    Inside (A ++ B) m ↔ (Inside A m ↔ ¬ Inside B m) := by
  unfold Inside
  rw [List.countP_append, Nat.odd_add, Nat.not_odd_iff_even]

theorem inside_nil (m : Point) : ¬ Inside [] m := by simp [Inside]

theorem regionPts_perm {A B : List Segment} (h : A.Perm B) : regionPts A = regionPts B := by
  ext m; unfold regionPts; simp only [Set.mem_ofPred_eq]; rw [segsPts_perm h, inside_perm h]

theorem regionPts_swap (A : List Segment) : regionPts (A.map Segment.swap) = regionPts A := by
  ext m; unfold regionPts; simp only [Set.mem_ofPred_eq]; rw [segsPts_swap, inside_swap]

theorem regionPts_nil : regionPts [] = ∅ := by
  ext m
  unfold regionPts
  simp only [Set.mem_ofPred_eq, Set.mem_empty_iff_false, iff_false]
  rintro (h | h)
  · rw [segsPts_nil] at h; exact h
  · exact inside_nil m h

theorem degree_perm {A B : List Segment} (h : A.Perm B) (q : Point) : degree A q = degree B q := by
  unfold degree; rw [h.countP_eq, h.countP_eq]

theorem degree_append (A B : List Segment) (q : Point) : degree (A ++ B) q = degree A q + degree B q := by
  unfold degree; rw [List.countP_append, List.countP_append]; ring

theorem degree_swap (A : List Segment) (q : Point) : degree (A.map Segment.swap) q = degree A q := by
  unfold degree
  rw [List.countP_map, List.countP_map, Nat.add_comm]
  rfl

theorem overlapping_congr {s s' t t' : Segment} (hs : s.pts = s'.pts) (ht : t.pts = t'.pts) :
    Overlapping s t ↔ Overlapping s' t' := by unfold Overlapping; rw [hs, ht]

theorem overlapping_symm {s t : Segment} (h : Overlapping s t) : Overlapping t s := by
  obtain ⟨p, q, h0, h1, h2, h3, h4⟩ := h
  exact ⟨p, q, h0, h3, h4, h1, h2⟩

theorem NoOverlap.perm {A B : List Segment} (h : NoOverlap A) (p : A.Perm B) : NoOverlap B := by
  refine ⟨fun s hs => h.1 s (p.mem_iff.2 hs), ?_⟩
  exact (p.pairwise_iff fun h h' => h (overlapping_symm h')).1 h.2

theorem NoOverlap.swap {A : List Segment} (h : NoOverlap A) : NoOverlap (A.map Segment.swap) := by
  refine ⟨?_, ?_⟩
  · intro s hs
    obtain ⟨t, ht, rfl⟩ := List.mem_map.1 hs
    exact t.swap_proper.2 (h.1 t ht)
  · rw [List.pairwise_map]
    refine h.2.imp ?_
    intro s t hn hs
    exact hn ((overlapping_congr s.swap_pts t.swap_pts).1 hs)

theorem overlapping_self {s : Segment} (h : s.Proper) : Overlapping s s :=
  ⟨s.start, s.stop, h, s.start_mem, s.stop_mem, s.start_mem, s.stop_mem⟩

/-- Members of both parts do not overlap. -/
theorem NoOverlap.cross {A B : List Segment} (h : NoOverlap (A ++ B)) {s t : Segment} (hs : s ∈ A) (ht : t ∈ B) :
    ¬ Overlapping s t := (List.pairwise_append.1 h.2).2.2 s hs t ht

theorem NoOverlap.append {A B : List Segment} (hA : NoOverlap A) (hB : NoOverlap B)
    (h : ∀ s ∈ A, ∀ t ∈ B, ¬ Overlapping s t) : NoOverlap (A ++ B) :=
  ⟨fun s hs => (List.mem_append.1 hs).elim (hA.1 s) (hB.1 s), List.pairwise_append.2 ⟨hA.2, hB.2, h⟩⟩

theorem IsBoundary.perm {A B : List Segment} (h : IsBoundary A) (p : A.Perm B) : IsBoundary B where
  noOverlap := h.noOverlap.perm p
  even q := by rw [← degree_perm p]; exact h.even q
  left e he m hm hme hu := by
    rw [← inside_perm p]
    exact h.left e (p.mem_iff.2 he) m hm hme fun e' he' => hu e' (p.mem_iff.1 he')

/-- A point which is on one edge only, is not on edges of the other part. -/
theorem off_other {A B : List Segment} (no : NoOverlap (A ++ B)) {e : Segment} (he : e ∈ A) {m : Point}
    (hu : ∀ e' ∈ A ++ B, m ∈ e'.pts → e' = e) : m ∉ segsPts B := by
  rintro ⟨t, ht, hm⟩
  have : t = e := hu t (List.mem_append_right _ ht) hm
  subst this
  exact no.cross he ht (overlapping_self (no.1 _ (List.mem_append_left _ he)))

theorem regionPts_append {A B : List Segment} (ab : Apart A B) :
    regionPts (A ++ B) = regionPts A ∪ regionPts B := by
  ext m
  unfold regionPts
  simp only [Set.mem_union, Set.mem_ofPred_eq]
  rw [segsPts_append, inside_append, Set.mem_union]
  by_cases hA : m ∈ segsPts A
  · simp [hA]
  by_cases hB : m ∈ segsPts B
  · simp [hB]
  have := ab m
  unfold regionPts at this
  simp only [Set.mem_ofPred_eq] at this
  tauto

theorem Apart.append_right {A B C : List Segment} (h : Apart A B) (h' : Apart A C) : Apart A (B ++ C) := by
  intro m hm hn hi
  rw [segsPts_append, Set.mem_union] at hn
  push Not at hn
  rw [inside_append] at hi
  have h1 := h m hm hn.1
  have h2 := h' m hm hn.2
  tauto

theorem Apart.append_left {A B C : List Segment} (h : Apart A C) (h' : Apart B C) (hab : Apart A B) :
    Apart (A ++ B) C := by
  intro m hm
  rw [regionPts_append hab] at hm
  rcases hm with hm | hm
  · exact h m hm
  · exact h' m hm

theorem Apart.congr {A B A' B' : List Segment} (h : Apart A B) (h1 : regionPts A = regionPts A')
    (h2 : segsPts B = segsPts B') (h3 : ∀ m, Inside B m ↔ Inside B' m) : Apart A' B' := by
  intro m hm hn hi
  rw [← h1] at hm
  rw [← h2] at hn
  exact h m hm hn ((h3 m).2 hi)

theorem apart_nil_right (A : List Segment) : Apart A [] := fun m _ _ => inside_nil m

theorem apart_nil_left (A : List Segment) : Apart [] A := by
  intro m hm; rw [regionPts_nil] at hm; exact absurd hm (Set.notMem_empty _)

/-- Two regions side by side. -/
theorem IsBoundary.append {A B : List Segment} (hA : IsBoundary A) (hB : IsBoundary B) (no : NoOverlap (A ++ B))
    (ab : Apart A B) (ba : Apart B A) : IsBoundary (A ++ B) where
  noOverlap := no
  even q := by rw [degree_append]; exact (hA.even q).add (hB.even q)
  left e he m hm hme hu := by
    have no' : NoOverlap (B ++ A) := no.perm List.perm_append_comm
    rcases List.mem_append.1 he with h | h
    · have hn := off_other no h hu
      have hi := ab m (Or.inl ⟨e, h, hm⟩) hn
      rw [hA.left e h m hm hme fun e' he' => hu e' (List.mem_append_left _ he'), inside_append]
      tauto
    · have hu' : ∀ e' ∈ B ++ A, m ∈ e'.pts → e' = e := fun e' he' => hu e' (List.perm_append_comm.mem_iff.1 he')
      have hn := off_other no' h hu'
      have hi := ba m (Or.inl ⟨e, h, hm⟩) hn
      rw [hB.left e h m hm hme fun e' he' => hu e' (List.mem_append_right _ he'), inside_append]
      tauto

/-- A region with holes. -/
theorem IsBoundary.holes {A B : List Segment} (hA : IsBoundary A) (hB : IsBoundary B)
    (no : NoOverlap (A ++ B.map Segment.swap)) (ins : segsPts B ⊆ regionPts A)
    (out : ∀ m ∈ segsPts A, m ∉ segsPts B → ¬ Inside B m) : IsBoundary (A ++ B.map Segment.swap) where
  noOverlap := no
  even q := by rw [degree_append, degree_swap]; exact (hA.even q).add (hB.even q)
  left e he m hm hme hu := by
    have no' : NoOverlap (B.map Segment.swap ++ A) := no.perm List.perm_append_comm
    rw [inside_append, inside_swap]
    rcases List.mem_append.1 he with h | h
    · have hn := off_other no h hu
      rw [segsPts_swap] at hn
      have hi := out m ⟨e, h, hm⟩ hn
      rw [hA.left e h m hm hme fun e' he' => hu e' (List.mem_append_left _ he')]
      tauto
    · have hu' : ∀ e' ∈ B.map Segment.swap ++ A, m ∈ e'.pts → e' = e := fun e' he' =>
        hu e' (List.perm_append_comm.mem_iff.1 he')
      have hn := off_other no' h hu'
      obtain ⟨t, ht, rfl⟩ := List.mem_map.1 h
      rw [t.swap_pts] at hm
      rw [t.swap_isEnd] at hme
      have hi : Inside A m := (ins ⟨t, ht, hm⟩).resolve_left hn
      have hl := hB.left t ht m hm hme fun e' he' hm' => by
        have := hu e'.swap (List.mem_append_right _ (List.mem_map_of_mem he')) (by rwa [e'.swap_pts])
        rw [← e'.swap_swap, this, t.swap_swap]
      have hp := hB.noOverlap.1 t ht
      have : t.swap.start < t.swap.stop ↔ ¬ t.start < t.stop := by
        show t.stop < t.start ↔ _
        rw [not_lt]
        exact ⟨le_of_lt, fun h => lt_of_le_of_ne h (Ne.symm hp)⟩
      rw [this, hl]
      tauto

end Clipping

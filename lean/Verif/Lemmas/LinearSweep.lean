import Verif.Lemmas.Sweep.Final
import Verif.Lemmas.Runs
import Verif.Lemmas.SegmentOps

/-!
# The sweep of the linear operations and the selection of its result
-/

namespace Clipping

open Sweep

theorem ValidSegments.noOverlap {l : List Segment} (h : ValidSegments l) : NoOverlap l :=
  ⟨h.1, h.2.imp fun h => h.1⟩

theorem NoOverlap.sublist {l l' : List Segment} (h : NoOverlap l) (g : l'.Sublist l) : NoOverlap l' :=
  ⟨fun s hs => h.1 s (g.subset hs), h.2.sublist g⟩

theorem operandsOk_marked {a b : List Segment} (ha : NoOverlap a) (hb : NoOverlap b) :
    OperandsOk (marked a b) := by
  unfold marked
  refine ⟨?_, ?_⟩
  · intro x hx
    rcases List.mem_append.1 hx with hx | hx
    · obtain ⟨s, hs, rfl⟩ := List.mem_map.1 hx; exact ha.1 s hs
    · obtain ⟨s, hs, rfl⟩ := List.mem_map.1 hx; exact hb.1 s hs
  · rw [List.pairwise_append, List.pairwise_map, List.pairwise_map]
    refine ⟨ha.2.imp (by intro _ _ h _; exact h), hb.2.imp (by intro _ _ h _; exact h), ?_⟩
    intro x hx y hy
    obtain ⟨s, hs, rfl⟩ := List.mem_map.1 hx
    obtain ⟨t, ht, rfl⟩ := List.mem_map.1 hy
    simp

theorem inputPts_true (a b : List Segment) : inputPts (marked a b) true = segsPts a := by
  ext q
  unfold inputPts marked segsPts
  constructor
  · rintro ⟨x, hx, hb, hq⟩
    rcases List.mem_append.1 hx with hx | hx
    · obtain ⟨s, hs, rfl⟩ := List.mem_map.1 hx; exact ⟨s, hs, hq⟩
    · obtain ⟨s, hs, rfl⟩ := List.mem_map.1 hx; simp at hb
  · rintro ⟨s, hs, hq⟩
    exact ⟨(s, true), List.mem_append_left _ (List.mem_map.2 ⟨s, hs, rfl⟩), rfl, hq⟩

theorem inputPts_false (a b : List Segment) : inputPts (marked a b) false = segsPts b := by
  ext q
  unfold inputPts marked segsPts
  constructor
  · rintro ⟨x, hx, hb, hq⟩
    rcases List.mem_append.1 hx with hx | hx
    · obtain ⟨s, hs, rfl⟩ := List.mem_map.1 hx; simp at hb
    · obtain ⟨s, hs, rfl⟩ := List.mem_map.1 hx; exact ⟨s, hs, hq⟩
  · rintro ⟨s, hs, hq⟩
    exact ⟨(s, false), List.mem_append_right _ (List.mem_map.2 ⟨s, hs, rfl⟩), rfl, hq⟩

theorem stopAt_mono (xmax : Option ℚ) (p q : Point) (h : p ≤ q) (hp : stopAt xmax p = true) :
    stopAt xmax q = true := by
  cases xmax with
  | none => cases hp
  | some m =>
    simp only [stopAt, decide_eq_true_eq] at hp ⊢
    rw [Point.le_def] at h
    rcases h with h | h
    · exact hp.trans h
    · rw [← h.1]; exact hp

theorem linearSweep_final (tb : TieBreak) (xmax : Option ℚ) {a b : List Segment} (ha : NoOverlap a)
    (hb : NoOverlap b) : ∃ h F, linearSweep tb xmax a b = .ok (h, F) ∧ Final h F (stopAt xmax) (marked a b) := by
  obtain ⟨s, log, e, -, f, -⟩ := sweep_final linearOps () tb (stopAt xmax) (operandsOk_marked ha hb)
    (stopAt_mono xmax)
  refine ⟨s.store.heap, _, ?_, f⟩
  unfold linearSweep
  rw [e]
  simp only [List.filterMap_reverse]

section final
variable {h : Heap Unit} {F : List ℕ} {stop : Point → Bool} {a b : List Segment}

theorem Sweep.Final.contig {l : List (Segment × Bool)} (f : Final h F stop l) : Contig h.segment F := by
  intro l₁ l₂ l₃ i j e hk
  rw [f.run l₁ l₂ l₃ i j e hk]
  simp

theorem Sweep.Final.mem_select {l : List (Segment × Bool)} (f : Final h F stop l) {keep : List Bool → Bool}
    {t : Segment} : t ∈ selectSegments keep h F ↔
      ∃ i ∈ F, h.segment i = t ∧ keep ((F.filter fun j => decide (h.segment j = t)).map h.first) = true := by
  unfold selectSegments
  rw [(sortEndpoints_perm _).mem_iff, List.mem_map]
  constructor
  · rintro ⟨⟨k, g⟩, hk, rfl⟩
    rw [List.mem_filter, groupRuns_mem f.contig] at hk
    obtain ⟨⟨⟨i, hi, e⟩, rfl⟩, hkeep⟩ := hk
    exact ⟨i, hi, e, hkeep⟩
  · rintro ⟨i, hi, e, hkeep⟩
    refine ⟨(t, F.filter fun j => decide (h.segment j = t)), ?_, rfl⟩
    rw [List.mem_filter, groupRuns_mem f.contig]
    exact ⟨⟨⟨i, hi, e⟩, rfl⟩, hkeep⟩

theorem Sweep.Final.select_ok {l : List (Segment × Bool)} (f : Final h F stop l) (keep : List Bool → Bool) :
    (∀ t ∈ selectSegments keep h F, t.start < t.stop) ∧ (selectSegments keep h F).Nodup ∧
    (selectSegments keep h F).Pairwise endpointsLe ∧ EndsOnly (selectSegments keep h F) := by
  have nd : (selectSegments keep h F).Nodup := by
    unfold selectSegments
    rw [(sortEndpoints_perm _).nodup_iff]
    have := groupRuns_nodup f.contig
    exact this.sublist (List.Sublist.map _ List.filter_sublist)
  refine ⟨?_, nd, sortEndpoints_sorted _, ?_⟩
  · intro t ht
    obtain ⟨i, hi, rfl, -⟩ := f.mem_select.1 ht
    exact f.lt i (f.bound i hi)
  · unfold EndsOnly
    refine (List.Pairwise.and_mem.1 nd).imp ?_
    rintro s t ⟨hs, ht, hne⟩
    obtain ⟨i, hi, rfl, -⟩ := f.mem_select.1 hs
    obtain ⟨j, hj, rfl, -⟩ := f.mem_select.1 ht
    rcases f.pair i hi j (f.bound j hj) with ⟨e, -⟩ | g
    · exact absurd e hne
    · exact g

/-- the end points of all segments -/
def endSet {α : Type} (h : Heap α) : Set Point := {q | ∃ i < h.count, (h.segment i).IsEnd q}

theorem endSet_finite {α : Type} (h : Heap α) : (endSet h).Finite := by
  have : endSet h ⊆ (Finset.image h.start (Finset.range h.count) ∪
      Finset.image h.stop (Finset.range h.count) : Finset Point) := by
    rintro q ⟨i, hi, e⟩
    rw [Finset.mem_coe, Finset.mem_union, Finset.mem_image, Finset.mem_image]
    rcases e with rfl | rfl
    · exact Or.inl ⟨i, Finset.mem_range.2 hi, rfl⟩
    · exact Or.inr ⟨i, Finset.mem_range.2 hi, rfl⟩
  exact (Finset.finite_toSet _).subset this

theorem Sweep.Final.mem_first (f : Final h F stop (marked a b)) {q : Point} :
    q ∈ segsPts a ↔ ∃ i < h.count, h.first i = true ∧ q ∈ (h.segment i).pts := by
  rw [← inputPts_true a b, ← f.pts]; rfl

theorem Sweep.Final.mem_second (f : Final h F stop (marked a b)) {q : Point} :
    q ∈ segsPts b ↔ ∃ i < h.count, h.first i = false ∧ q ∈ (h.segment i).pts := by
  rw [← inputPts_false a b, ← f.pts]; rfl

theorem Sweep.Final.union (f : Final h F stop (marked a b)) (hall : ∀ i < h.count, i ∈ F) :
    segsPts (selectSegments (fun _ => true) h F) = segsPts a ∪ segsPts b := by
  ext q
  rw [Set.mem_union, f.mem_first, f.mem_second]
  constructor
  · rintro ⟨t, ht, hq⟩
    obtain ⟨i, hi, rfl, -⟩ := f.mem_select.1 ht
    cases hf : h.first i
    · exact Or.inr ⟨i, f.bound i hi, hf, hq⟩
    · exact Or.inl ⟨i, f.bound i hi, hf, hq⟩
  · rintro (⟨i, hi, -, hq⟩ | ⟨i, hi, -, hq⟩)
    · exact ⟨_, f.mem_select.2 ⟨i, hall i hi, rfl, rfl⟩, hq⟩
    · exact ⟨_, f.mem_select.2 ⟨i, hall i hi, rfl, rfl⟩, hq⟩

theorem Sweep.Final.mem_difference {l : List (Segment × Bool)} (f : Final h F stop l) {t : Segment} :
    t ∈ selectSegments (fun fs => fs.all fun f => f) h F ↔
    ∃ i ∈ F, h.segment i = t ∧ ∀ j ∈ F, h.segment j = t → h.first j = true := by
  rw [f.mem_select]
  simp only [List.all_eq_true, List.mem_map, List.mem_filter, decide_eq_true_eq]
  constructor
  · rintro ⟨i, hi, e, g⟩; exact ⟨i, hi, e, fun j hj ej => g _ ⟨j, ⟨hj, ej⟩, rfl⟩⟩
  · rintro ⟨i, hi, e, g⟩; exact ⟨i, hi, e, by rintro _ ⟨j, ⟨hj, ej⟩, rfl⟩; exact g j hj ej⟩

theorem Sweep.Final.difference (f : Final h F stop (marked a b))
    (hall : ∀ i < h.count, h.first i = true → i ∈ F) :
    IsDifference (segsPts a) (segsPts b) (segsPts (selectSegments (fun fs => fs.all fun f => f) h F)) := by
  have sel := fun t => f.mem_difference (t := t)
  refine ⟨?_, ?_, ?_⟩
  · rintro q ⟨h1, h2⟩
    rw [f.mem_first] at h1
    obtain ⟨i, hi, hf, hq⟩ := h1
    refine ⟨_, (sel _).2 ⟨i, hall i hi hf, rfl, ?_⟩, hq⟩
    intro j hj e
    by_contra hc
    rw [f.mem_second] at h2
    exact h2 ⟨j, f.bound j hj, by simpa using hc, e ▸ hq⟩
  · rintro q ⟨t, ht, hq⟩
    obtain ⟨i, hi, rfl, g⟩ := (sel t).1 ht
    rw [f.mem_first]
    exact ⟨i, f.bound i hi, g i hi rfl, hq⟩
  · refine (endSet_finite h).subset ?_
    rintro q ⟨⟨t, ht, hq⟩, h2⟩
    obtain ⟨i, hi, rfl, g⟩ := (sel t).1 ht
    rw [f.mem_second] at h2
    obtain ⟨j, hj, hf, hq'⟩ := h2
    rcases f.pair i hi j hj with ⟨e, hjF⟩ | g'
    · have := g j hjF e.symm
      rw [hf] at this; cases this
    · exact ⟨i, f.bound i hi, (g' q hq hq').1⟩

theorem Sweep.Final.mem_symmetricDifference {l : List (Segment × Bool)} (f : Final h F stop l) {t : Segment} :
    t ∈ selectSegments allEqual h F ↔
    ∃ i ∈ F, h.segment i = t ∧ ∀ j ∈ F, h.segment j = t → h.first j = h.first i := by
  rw [f.mem_select]
  simp only [allEqual_iff, List.mem_map, List.mem_filter, decide_eq_true_eq]
  constructor
  · rintro ⟨i, hi, e, g⟩
    exact ⟨i, hi, e, fun j hj ej => g _ ⟨j, ⟨hj, ej⟩, rfl⟩ _ ⟨i, ⟨hi, e⟩, rfl⟩⟩
  · rintro ⟨i, hi, e, g⟩
    refine ⟨i, hi, e, ?_⟩
    rintro _ ⟨j, ⟨hj, ej⟩, rfl⟩ _ ⟨k, ⟨hk, ek⟩, rfl⟩
    rw [g j hj ej, g k hk ek]

theorem Sweep.Final.symmetricDifference (f : Final h F stop (marked a b)) (hall : ∀ i < h.count, i ∈ F) :
    IsSymmetricDifference (segsPts a) (segsPts b) (segsPts (selectSegments allEqual h F)) := by
  have sel := fun t => f.mem_symmetricDifference (t := t)
  refine ⟨?_, ?_, ?_⟩
  · rintro q (⟨h1, h2⟩ | ⟨h1, h2⟩)
    · rw [f.mem_first] at h1
      obtain ⟨i, hi, hf, hq⟩ := h1
      refine ⟨_, (sel _).2 ⟨i, hall i hi, rfl, ?_⟩, hq⟩
      intro j hj e
      by_contra hc
      rw [f.mem_second] at h2
      exact h2 ⟨j, f.bound j hj, by simpa [hf] using hc, e ▸ hq⟩
    · rw [f.mem_second] at h1
      obtain ⟨i, hi, hf, hq⟩ := h1
      refine ⟨_, (sel _).2 ⟨i, hall i hi, rfl, ?_⟩, hq⟩
      intro j hj e
      by_contra hc
      rw [f.mem_first] at h2
      exact h2 ⟨j, f.bound j hj, by simpa [hf] using hc, e ▸ hq⟩
  · rintro q ⟨t, ht, hq⟩
    obtain ⟨i, hi, rfl, g⟩ := (sel t).1 ht
    rw [Set.mem_union, f.mem_first, f.mem_second]
    cases hf : h.first i
    · exact Or.inr ⟨i, f.bound i hi, hf, hq⟩
    · exact Or.inl ⟨i, f.bound i hi, hf, hq⟩
  · refine (endSet_finite h).subset ?_
    rintro q ⟨⟨t, ht, hq⟩, h1, h2⟩
    obtain ⟨i, hi, rfl, g⟩ := (sel t).1 ht
    rw [f.mem_first] at h1
    rw [f.mem_second] at h2
    have key : ∃ j < h.count, h.first j ≠ h.first i ∧ q ∈ (h.segment j).pts := by
      obtain ⟨j, hj, hf, hq'⟩ := h1
      obtain ⟨k, hk, hf', hq''⟩ := h2
      cases hi' : h.first i
      · exact ⟨j, hj, by simp [hf], hq'⟩
      · exact ⟨k, hk, by simp [hf'], hq''⟩
    obtain ⟨j, hj, hf, hq'⟩ := key
    rcases f.pair i hi j hj with ⟨e, hjF⟩ | g'
    · exact absurd (g j hjF e.symm) hf
    · exact ⟨i, f.bound i hi, (g' q hq hq').1⟩

theorem Sweep.Final.mem_intersection {l : List (Segment × Bool)} (f : Final h F stop l) {t : Segment} :
    t ∈ selectSegments (fun fs => !allEqual fs) h F ↔
    ∃ i ∈ F, ∃ j ∈ F, h.segment i = t ∧ h.segment j = t ∧ h.first i = true ∧ h.first j = false := by
  rw [f.mem_select]
  simp only [Bool.not_eq_true', ← Bool.not_eq_true, allEqual_iff, List.mem_map, List.mem_filter,
    decide_eq_true_eq]
  constructor
  · rintro ⟨i, hi, e, g⟩
    push Not at g
    obtain ⟨_, ⟨j, ⟨hj, ej⟩, rfl⟩, _, ⟨k, ⟨hk, ek⟩, rfl⟩, hne⟩ := g
    cases h1 : h.first j <;> cases h2 : h.first k
    · exact absurd (h1.trans h2.symm) hne
    · exact ⟨k, hk, j, hj, ek, ej, h2, by simp [h1]⟩
    · exact ⟨j, hj, k, hk, ej, ek, h1, by simp [h2]⟩
    · exact absurd (h1.trans h2.symm) hne
  · rintro ⟨i, hi, j, hj, e, e', h1, h2⟩
    refine ⟨i, hi, e, fun g => ?_⟩
    have := g _ ⟨i, ⟨hi, e⟩, rfl⟩ _ ⟨j, ⟨hj, e'⟩, rfl⟩
    rw [h1] at this
    exact h2 this.symm

theorem Sweep.Final.intersection (f : Final h F stop (marked a b))
    (hall : ∀ i < h.count, ∀ j < h.count, h.first i = true → h.first j = false → i ∈ F ∨ j ∈ F) :
    IsIntersection (segsPts a) (segsPts b) (segsPts (selectSegments (fun fs => !allEqual fs) h F)) := by
  have sel := fun t => f.mem_intersection (t := t)
  refine ⟨?_, ?_⟩
  · rintro q ⟨t, ht, hq⟩
    obtain ⟨i, hi, j, hj, rfl, e, h1, h2⟩ := (sel t).1 ht
    exact ⟨f.mem_first.2 ⟨i, f.bound i hi, h1, hq⟩, f.mem_second.2 ⟨j, f.bound j hj, by simpa using h2, e ▸ hq⟩⟩
  · refine (endSet_finite h).subset ?_
    rintro q ⟨⟨h1, h2⟩, hn⟩
    obtain ⟨i, hi, hfi, hqi⟩ := f.mem_first.1 h1
    obtain ⟨j, hj, hfj, hqj⟩ := f.mem_second.1 h2
    rcases hall i hi j hj hfi hfj with hF | hF
    · rcases f.pair i hF j hj with ⟨e, hjF⟩ | g
      · exact absurd ⟨_, (sel _).2 ⟨i, hF, j, hjF, rfl, e.symm, hfi, by simpa using hfj⟩, hqi⟩ hn
      · exact ⟨i, hi, (g q hqi hqj).1⟩
    · rcases f.pair j hF i hi with ⟨e, hiF⟩ | g
      · exact absurd ⟨_, (sel _).2 ⟨i, hiF, j, hF, rfl, e, hfi, by simpa using hfj⟩, hqi⟩ hn
      · exact ⟨i, hi, (g q hqj hqi).2⟩

end final

theorem segmentsMaxX_ge (s : Segment) (l : List Segment) :
    ∀ t ∈ s :: l, t.start.x ≤ segmentsMaxX s l ∧ t.stop.x ≤ segmentsMaxX s l := by
  have mono : ∀ (l : List Segment) (m : ℚ),
      m ≤ l.foldl (fun m t => max m (max t.start.x t.stop.x)) m ∧
      ∀ t ∈ l, max t.start.x t.stop.x ≤ l.foldl (fun m t => max m (max t.start.x t.stop.x)) m := by
    intro l
    induction l with
    | nil => intro m; simp
    | cons u l ih =>
      intro m
      obtain ⟨h1, h2⟩ := ih (max m (max u.start.x u.stop.x))
      rw [List.foldl_cons]
      refine ⟨(le_max_left _ _).trans h1, ?_⟩
      intro t ht
      rcases List.mem_cons.1 ht with rfl | ht
      · exact (le_max_right _ _).trans h1
      · exact h2 t ht
  obtain ⟨h1, h2⟩ := mono l (max s.start.x s.stop.x)
  intro t ht
  unfold segmentsMaxX
  rcases List.mem_cons.1 ht with rfl | ht
  · exact ⟨(le_max_left _ _).trans h1, (le_max_right _ _).trans h1⟩
  · exact ⟨(le_max_left _ _).trans (h2 t ht), (le_max_right _ _).trans (h2 t ht)⟩

/-- no point is behind the greatest abscissa of the segments -/
theorem maxXOf_spec {l : List Segment} {m : ℚ} (h : maxXOf l = .ok m) {q : Point} (hq : q ∈ segsPts l) :
    q.x ≤ m := by
  cases l with
  | nil => cases h
  | cons s l =>
    cases h
    obtain ⟨t, ht, r, r0, r1, hx, -⟩ := hq
    obtain ⟨h1, h2⟩ := segmentsMaxX_ge s l t ht
    rw [hx]
    nlinarith

theorem maxXOf_ok {l : List Segment} (h : l ≠ []) : ∃ m, maxXOf l = .ok m := by
  cases l with
  | nil => exact absurd rfl h
  | cons s l => exact ⟨_, rfl⟩

theorem boxOf_ok {l : List Segment} (h : l ≠ []) : ∃ m, boxOf l = .ok m := by
  cases l with
  | nil => exact absurd rfl h
  | cons s l => exact ⟨_, rfl⟩

end Clipping

import Verif.Lemmas.LinearResult

/-!
# The pieces of a sweep are the edges of the arrangement
-/

namespace Clipping

open Sweep

/-- A point of a segment between two points of a part of it belongs to the part. -/
theorem mem_part {s e : Segment} (hs : s.Proper) (he : e.start < e.stop) (h : e.pts ⊆ s.pts) {q : Point}
    (hq : q ∈ s.pts) (h1 : e.start ≤ q) (h2 : q ≤ e.stop) : q ∈ e.pts := by
  have hp : e.Proper := he.ne
  have lo : e.lo = e.start := min_eq_left he.le
  have hi : e.hi = e.stop := max_eq_right he.le
  have c1 := ((Segment.mem_iff hs).1 (h e.start_mem)).1
  have c2 := ((Segment.mem_iff hs).1 (h e.stop_mem)).1
  have c := ((Segment.mem_iff hs).1 hq).1
  refine (Segment.mem_iff hp).2 ⟨?_, ?_, ?_⟩
  · rw [lo, hi]
    exact (line_eq (Segment.lo_lt_hi hs).ne he.ne c1 c2 q).2 c
  · rw [lo]; exact h1
  · rw [hi]; exact h2

theorem mem_between {e : Segment} (he : e.start < e.stop) {q : Point} (hq : q ∈ e.pts) :
    e.start ≤ q ∧ q ≤ e.stop := by
  have h1 := Segment.lo_le_of_mem hq
  have h2 := Segment.le_hi_of_mem hq
  rw [Segment.lo, min_eq_left he.le] at h1
  rw [Segment.hi, max_eq_right he.le] at h2
  exact ⟨h1, h2⟩

/-- Two edges on one segment which share a point other than an end are equal. -/
theorem edge_unique {l : List Segment} {s e f : Segment} (hs : s.Proper) (he : IsEdge l e) (hf : IsEdge l f)
    (es : e.pts ⊆ s.pts) (fs : f.pts ⊆ s.pts) {m : Point} (m1 : m ∈ e.pts) (m2 : m ∈ f.pts)
    (hm : ¬ e.IsEnd m) : e = f := by
  obtain ⟨a1, a2⟩ := mem_between he.lt m1
  obtain ⟨b1, b2⟩ := mem_between hf.lt m2
  have n1 : e.start < m := lt_of_le_of_ne a1 fun h => hm (Or.inl h.symm)
  have n2 : m < e.stop := lt_of_le_of_ne a2 fun h => hm (Or.inr h)
  have k1 : e.start = f.start := by
    rcases lt_trichotomy e.start f.start with h | h | h
    · have := he.inner _ (mem_part hs he.lt es (fs f.start_mem) h.le (b1.trans a2)) hf.start
      rcases this with g | g
      · exact absurd g h.ne'
      · rw [g] at b1; exact absurd b1 (not_le.2 n2)
    · exact h
    · have := hf.inner _ (mem_part hs hf.lt fs (es e.start_mem) h.le (a1.trans b2)) he.start
      rcases this with g | g
      · exact absurd g h.ne'
      · rw [← g] at b2; exact absurd b2 (not_le.2 n1)
  have k2 : e.stop = f.stop := by
    rcases lt_trichotomy e.stop f.stop with h | h | h
    · have := hf.inner _ (mem_part hs hf.lt fs (es e.stop_mem) (b1.trans a2) h.le) he.stop
      rcases this with g | g
      · rw [← g] at b1; exact absurd b1 (not_le.2 n2)
      · exact absurd g h.ne
    · exact h
    · have := he.inner _ (mem_part hs he.lt es (fs f.stop_mem) (a1.trans b2) h.le) hf.stop
      rcases this with g | g
      · rw [g] at b2; exact absurd b2 (not_le.2 n1)
      · exact absurd g h.ne
  cases e; cases f
  simp only at k1 k2
  rw [k1, k2]

/-- A proper segment has a point which is not an end. -/
theorem exists_inner {e : Segment} (he : e.Proper) : ∃ m ∈ e.pts, ¬ e.IsEnd m := by
  by_contra hc
  push Not at hc
  refine overlapping_of_finite_false he (Set.Finite.subset (Set.toFinite {e.start, e.stop}) ?_)
  intro q hq
  have := hc q hq
  simpa [Segment.IsEnd] using this

variable {α : Type} {h : Heap α} {F : List ℕ} {stop : Point → Bool} {l : List (Segment × Bool)}

theorem end_of_sub {s e : Segment} (h : e.pts ⊆ s.pts) {q : Point} (hq : q ∈ e.pts)
    (hs : s.IsEnd q) : e.IsEnd q := by
  rw [Segment.isEnd_iff] at hs ⊢
  rcases hs with rfl | rfl
  · left
    exact le_antisymm (Segment.lo_le_of_mem (h e.lo_mem)) (Segment.lo_le_of_mem hq)
  · right
    exact le_antisymm (Segment.le_hi_of_mem hq) (Segment.le_hi_of_mem (h e.hi_mem))

/-- A vertex on a finished piece is an end of it. -/
theorem Sweep.Final.edge (f : Final h F stop l) {i : ℕ} (hi : i ∈ F) :
    IsEdge (l.map Prod.fst) (h.segment i) := by
  have hn := f.bound i hi
  have hlt := f.lt i hn
  refine ⟨hlt, (f.vert i hn).1, (f.vert i hn).2, ?_, ?_⟩
  · obtain ⟨x, hx, -, hs⟩ := f.par i hn
    exact ⟨x.1, List.mem_map_of_mem hx, hs⟩
  · intro q hq hv
    rcases hv with ⟨s, hs, he⟩ | ⟨s, hs, t, ht, e⟩
    · obtain ⟨x, hx, rfl⟩ := List.mem_map.1 hs
      have hqx : q ∈ x.1.pts := by rcases he with rfl | rfl; exacts [x.1.start_mem, x.1.stop_mem]
      obtain ⟨k, hk, -, hsub, hqk⟩ := f.cov x hx q hqx
      rcases f.pair i hi k hk with ⟨e, -⟩ | g
      · rw [e] at hq ⊢
        exact end_of_sub hsub hqk he
      · exact (g q hq hqk).1
    · obtain ⟨x, hx, rfl⟩ := List.mem_map.1 hs
      obtain ⟨y, hy, rfl⟩ := List.mem_map.1 ht
      have hqq : q ∈ x.1.pts ∩ y.1.pts := by rw [e]; rfl
      obtain ⟨k, hk, -, hsub, hqk⟩ := f.cov x hx q hqq.1
      obtain ⟨k', hk', -, hsub', hqk'⟩ := f.cov y hy q hqq.2
      rcases f.pair i hi k hk with ⟨e1, -⟩ | g
      · rcases f.pair i hi k' hk' with ⟨e2, -⟩ | g
        · exfalso
          rw [← e1] at hsub
          rw [← e2] at hsub'
          have a1 : h.start i = q := by
            have : h.start i ∈ x.1.pts ∩ y.1.pts := ⟨hsub (h.segment i).start_mem, hsub' (h.segment i).start_mem⟩
            rwa [e] at this
          have a2 : h.stop i = q := by
            have : h.stop i ∈ x.1.pts ∩ y.1.pts := ⟨hsub (h.segment i).stop_mem, hsub' (h.segment i).stop_mem⟩
            rwa [e] at this
          rw [a1, a2] at hlt
          exact lt_irrefl _ hlt
        · exact (g q hq hqk').1
      · exact (g q hq hqk).1

/-- A finished piece which has an inner point of an edge on the same segment is this edge. -/
theorem Sweep.Final.edge_eq (f : Final h F stop l) (hl : ∀ x ∈ l, x.1.Proper) {x : Segment × Bool} (hx : x ∈ l)
    {e : Segment} (he : IsEdge (l.map Prod.fst) e) (hs : e.pts ⊆ x.1.pts) {i : ℕ} (hi : i ∈ F)
    (hsi : (h.segment i).pts ⊆ x.1.pts) {m : Point} (m1 : m ∈ e.pts) (m2 : m ∈ (h.segment i).pts)
    (hm : ¬ e.IsEnd m) : h.segment i = e :=
  (edge_unique (hl x hx) he (f.edge hi) hs hsi m1 m2 hm).symm

/-- Inner points of edges are no ends of pieces. -/
theorem Sweep.Final.inner (f : Final h F stop l) {e : Segment} (he : IsEdge (l.map Prod.fst) e) {m : Point}
    (m1 : m ∈ e.pts) (hm : ¬ e.IsEnd m) {i : ℕ} (hi : i < h.count) : ¬ (h.segment i).IsEnd m := by
  intro h'
  apply hm
  rcases h' with rfl | rfl
  · exact he.inner _ m1 (f.vert i hi).1
  · exact he.inner _ m1 (f.vert i hi).2

theorem mem_marked {a b : List Segment} {x : Segment × Bool} :
    x ∈ marked a b ↔ (x.1 ∈ a ∧ x.2 = true) ∨ (x.1 ∈ b ∧ x.2 = false) := by
  unfold marked
  obtain ⟨s, c⟩ := x
  simp only [List.mem_append, List.mem_map, Prod.mk.injEq]
  constructor
  · rintro (⟨t, ht, rfl, rfl⟩ | ⟨t, ht, rfl, rfl⟩)
    · exact Or.inl ⟨ht, rfl⟩
    · exact Or.inr ⟨ht, rfl⟩
  · rintro (⟨h1, h2⟩ | ⟨h1, h2⟩)
    · exact Or.inl ⟨s, h1, rfl, h2.symm⟩
    · exact Or.inr ⟨s, h1, rfl, h2.symm⟩

theorem marked_fst (a b : List Segment) : (marked a b).map Prod.fst = a ++ b := by
  unfold marked
  rw [List.map_append, List.map_map, List.map_map]
  congr 1 <;> exact List.map_id _

variable {a b : List Segment}

/-- The pieces of an operand on an edge: a finished one exists iff the edge is a part of the operand. -/
theorem Sweep.Final.piece (f : Final h F stop (marked a b)) (ha : NoOverlap a) (hb : NoOverlap b) {e : Segment}
    (he : IsEdge (a ++ b) e) (c : Bool) (hp : PartOf e (if c then a else b)) :
    ∃ i < h.count, h.first i = c ∧ (i ∈ F → h.segment i = e) ∧
      ∃ m ∈ e.pts, m ∈ (h.segment i).pts ∧ ∀ j < h.count, ¬ (h.segment j).IsEnd m := by
  have he' : IsEdge ((marked a b).map Prod.fst) e := by rw [marked_fst]; exact he
  have hl := (operandsOk_marked ha hb).1
  obtain ⟨m, m1, m2⟩ := exists_inner he.lt.ne
  obtain ⟨s, hs, hsub⟩ := hp
  have hx : (s, c) ∈ marked a b := by
    rw [mem_marked]
    cases c
    · exact Or.inr ⟨hs, rfl⟩
    · exact Or.inl ⟨hs, rfl⟩
  obtain ⟨i, hi, hf, hs', hmi⟩ := f.cov _ hx m (hsub m1)
  exact ⟨i, hi, hf, fun hF => f.edge_eq hl hx he' hsub hF hs' m1 hmi m2, m, m1, hmi,
    fun j hj => f.inner he' m1 m2 hj⟩

theorem Sweep.Final.partOf (f : Final h F stop (marked a b)) {i : ℕ} (hi : i < h.count) :
    PartOf (h.segment i) (if h.first i then a else b) := by
  obtain ⟨x, hx, e, hs⟩ := f.par i hi
  rw [e]
  rcases mem_marked.1 hx with ⟨h1, h2⟩ | ⟨h1, h2⟩ <;> rw [h2] <;> exact ⟨x.1, h1, hs⟩

/-- Two pieces with a common point which is no end are equal, if one of them is finished. -/
theorem Sweep.Final.same (f : Final h F stop l) {i j : ℕ} (hi : i ∈ F) (hj : j < h.count) {m : Point}
    (m1 : m ∈ (h.segment i).pts) (m2 : m ∈ (h.segment j).pts) (hm : ¬ (h.segment i).IsEnd m) :
    h.segment i = h.segment j ∧ j ∈ F := by
  rcases f.pair i hi j hj with g | g
  · exact g
  · exact absurd (g m m1 m2).1 hm

/-- Lists in ascending order without repetition are determined by their elements. -/
theorem ascending_unique {l l' : List Segment} (n : l.Nodup) (n' : l'.Nodup) (s : l.Pairwise endpointsLe)
    (s' : l'.Pairwise endpointsLe) (h : ∀ e, e ∈ l ↔ e ∈ l') : l = l' := by
  refine List.Perm.eq_of_pairwise ?_ s s' ((List.perm_ext_iff_of_nodup n n').2 h)
  rintro ⟨a, b⟩ ⟨c, d⟩ - - h1 h2
  simp only [endpointsLe] at h1 h2
  rcases h1 with h1 | ⟨rfl, h1⟩
  · rcases h2 with h2 | ⟨rfl, -⟩
    · exact absurd h1 h2.asymm
    · exact absurd h1 (lt_irrefl _)
  · rcases h2 with h2 | ⟨-, h2⟩
    · exact absurd h2 (lt_irrefl _)
    · rw [le_antisymm h1 h2]

section select
variable {h : Heap Unit} (f : Final h F stop (marked a b)) (ha : NoOverlap a) (hb : NoOverlap b)
include f ha hb

theorem Sweep.Final.edge' {i : ℕ} (hi : i ∈ F) : IsEdge (a ++ b) (h.segment i) := by
  have := f.edge hi
  rwa [marked_fst] at this

theorem Sweep.Final.union_edges (hall : ∀ i < h.count, i ∈ F) (e : Segment) :
    e ∈ selectSegments (fun _ => true) h F ↔ IsEdge (a ++ b) e := by
  rw [f.mem_select]
  constructor
  · rintro ⟨i, hi, rfl, -⟩; exact f.edge' ha hb hi
  · intro he
    obtain ⟨s, hs, hsub⟩ := he.within
    have key : ∃ c : Bool, PartOf e (if c then a else b) := by
      rcases List.mem_append.1 hs with hs | hs
      · exact ⟨true, s, hs, hsub⟩
      · exact ⟨false, s, hs, hsub⟩
    obtain ⟨c, hc⟩ := key
    obtain ⟨i, hi, -, hF, -⟩ := f.piece ha hb he c hc
    exact ⟨i, hall i hi, hF (hall i hi), rfl⟩

theorem Sweep.Final.difference_edges (hall : ∀ i < h.count, h.first i = true → i ∈ F) (e : Segment) :
    e ∈ selectSegments (fun fs => fs.all fun f => f) h F ↔
      IsEdge (a ++ b) e ∧ PartOf e a ∧ ¬ PartOf e b := by
  rw [f.mem_difference]
  constructor
  · rintro ⟨i, hi, rfl, g⟩
    have hin := f.bound i hi
    have he := f.edge' ha hb hi
    refine ⟨he, ?_, ?_⟩
    · have := f.partOf hin
      rwa [g i hi rfl] at this
    · intro hp
      obtain ⟨j, hj, hfj, -, m, m1, m2, hm⟩ := f.piece ha hb he false hp
      obtain ⟨e, hjF⟩ := f.same hi hj m1 m2 (hm i hin)
      have := g j hjF e.symm
      rw [hfj] at this; cases this
  · rintro ⟨he, h1, h2⟩
    obtain ⟨i, hi, hfi, hF, -⟩ := f.piece ha hb he true h1
    have hiF := hall i hi hfi
    refine ⟨i, hiF, hF hiF, ?_⟩
    rintro j hj rfl
    by_contra hc
    have := f.partOf (f.bound j hj)
    rw [Bool.not_eq_true] at hc
    rw [hc] at this
    exact h2 this

theorem Sweep.Final.symmetricDifference_edges (hall : ∀ i < h.count, i ∈ F) (e : Segment) :
    e ∈ selectSegments allEqual h F ↔ IsEdge (a ++ b) e ∧ ¬ (PartOf e a ∧ PartOf e b) := by
  rw [f.mem_symmetricDifference]
  constructor
  · rintro ⟨i, hi, rfl, g⟩
    have he := f.edge' ha hb hi
    refine ⟨he, ?_⟩
    rintro ⟨h1, h2⟩
    have key : ∀ c, PartOf (h.segment i) (if c then a else b) → h.first i = c := by
      intro c hc
      obtain ⟨j, hj, hfj, hF, -⟩ := f.piece ha hb he c hc
      rw [← hfj]
      exact (g j (hall j hj) (hF (hall j hj))).symm
    have := (key true h1).symm.trans (key false h2)
    cases this
  · rintro ⟨he, hn⟩
    obtain ⟨s, hs, hsub⟩ := he.within
    have key : ∃ c : Bool, PartOf e (if c then a else b) := by
      rcases List.mem_append.1 hs with hs | hs
      · exact ⟨true, s, hs, hsub⟩
      · exact ⟨false, s, hs, hsub⟩
    obtain ⟨c, hc⟩ := key
    obtain ⟨i, hi, hfi, hF, -⟩ := f.piece ha hb he c hc
    refine ⟨i, hall i hi, hF (hall i hi), ?_⟩
    rintro j hj rfl
    by_contra hne
    have := f.partOf (f.bound j hj)
    rw [hfi] at hne
    cases c
    · have h1 : h.first j = true := by simpa using hne
      rw [h1] at this
      exact hn ⟨this, hc⟩
    · have h1 : h.first j = false := by simpa using hne
      rw [h1] at this
      exact hn ⟨hc, this⟩

theorem Sweep.Final.intersection_edges
    (hall : ∀ i < h.count, ∀ j < h.count, h.first i = true → h.first j = false → i ∈ F ∨ j ∈ F) (e : Segment) :
    e ∈ selectSegments (fun fs => !allEqual fs) h F ↔ IsEdge (a ++ b) e ∧ PartOf e a ∧ PartOf e b := by
  rw [f.mem_intersection]
  constructor
  · rintro ⟨i, hi, j, hj, rfl, e, h1, h2⟩
    refine ⟨f.edge' ha hb hi, ?_, ?_⟩
    · have := f.partOf (f.bound i hi)
      rwa [h1] at this
    · have := f.partOf (f.bound j hj)
      rwa [h2, e] at this
  · rintro ⟨he, h1, h2⟩
    obtain ⟨i, hi, hfi, hF, m, m1, m2, hm⟩ := f.piece ha hb he true h1
    have he' : IsEdge ((marked a b).map Prod.fst) e := by rw [marked_fst]; exact he
    obtain ⟨s, hs, hsub⟩ := h2
    obtain ⟨j, hj, hfj, hs', hmj⟩ := f.cov (s, false) (mem_marked.2 (Or.inr ⟨hs, rfl⟩)) m (hsub m1)
    rcases hall i hi j hj hfi hfj with hiF | hjF
    · obtain ⟨e1, hjF⟩ := f.same hiF hj m2 hmj (hm i hi)
      exact ⟨i, hiF, j, hjF, hF hiF, e1.symm.trans (hF hiF), hfi, hfj⟩
    · obtain ⟨e1, hiF⟩ := f.same hjF hi hmj m2 (hm j hj)
      exact ⟨i, hiF, j, hjF, hF hiF, e1.trans (hF hiF), hfi, hfj⟩

end select

theorem SameSegments.symm {a b : List Segment} (h : SameSegments a b) : SameSegments b a :=
  ⟨fun s hs => by obtain ⟨t, ht, h1, h2⟩ := h.2 s hs; exact ⟨t, ht, h1.symm, h2.symm⟩,
    fun s hs => by obtain ⟨t, ht, h1, h2⟩ := h.1 s hs; exact ⟨t, ht, h1.symm, h2.symm⟩⟩

theorem SameSegments.trans {a b c : List Segment} (h : SameSegments a b) (h' : SameSegments b c) : SameSegments a c := by
  constructor
  · intro s hs
    obtain ⟨t, ht, h1, h2⟩ := h.1 s hs
    obtain ⟨u, hu, h3, h4⟩ := h'.1 t ht
    exact ⟨u, hu, h1.trans h3, h2.trans h4⟩
  · intro u hu
    obtain ⟨t, ht, h3, h4⟩ := h'.2 u hu
    obtain ⟨s, hs, h1, h2⟩ := h.2 t ht
    exact ⟨s, hs, h1.trans h3, h2.trans h4⟩

theorem SameSegments.append {a b a' b' : List Segment} (h : SameSegments a a') (h' : SameSegments b b') :
    SameSegments (a ++ b) (a' ++ b') := by
  constructor
  · intro s hs
    rcases List.mem_append.1 hs with hs | hs
    · obtain ⟨t, ht, e⟩ := h.1 s hs; exact ⟨t, List.mem_append_left _ ht, e⟩
    · obtain ⟨t, ht, e⟩ := h'.1 s hs; exact ⟨t, List.mem_append_right _ ht, e⟩
  · intro s hs
    rcases List.mem_append.1 hs with hs | hs
    · obtain ⟨t, ht, e⟩ := h.2 s hs; exact ⟨t, List.mem_append_left _ ht, e⟩
    · obtain ⟨t, ht, e⟩ := h'.2 s hs; exact ⟨t, List.mem_append_right _ ht, e⟩

theorem SameSegments.comm (a b : List Segment) : SameSegments (a ++ b) (b ++ a) := by
  have : ∀ a b : List Segment, ∀ s ∈ a ++ b, s ∈ b ++ a := fun a b s h =>
    List.mem_append.2 ((List.mem_append.1 h).symm)
  exact ⟨fun s hs => ⟨s, this _ _ s hs, rfl, rfl⟩, fun s hs => ⟨s, this _ _ s hs, rfl, rfl⟩⟩

theorem SameSegments.pts {a b : List Segment} (h : SameSegments a b) : segsPts a = segsPts b := by
  have key : ∀ a b : List Segment, SameSegments a b → segsPts a ⊆ segsPts b := by
    rintro a b h q ⟨s, hs, hq⟩
    obtain ⟨t, ht, h1, h2⟩ := h.1 s hs
    exact ⟨t, ht, pts_eq_of_lo_hi h1 h2 ▸ hq⟩
  exact subset_antisymm (key _ _ h) (key _ _ h.symm)

theorem SameSegments.filter {a b : List Segment} (h : SameSegments a b) {p : Segment → Bool}
    (hp : ∀ s t : Segment, s.lo = t.lo → s.hi = t.hi → p s = p t) : SameSegments (a.filter p) (b.filter p) := by
  constructor
  · intro s hs
    rw [List.mem_filter] at hs
    obtain ⟨t, ht, h1, h2⟩ := h.1 s hs.1
    exact ⟨t, List.mem_filter.2 ⟨ht, by rw [← hp s t h1 h2]; exact hs.2⟩, h1, h2⟩
  · intro s hs
    rw [List.mem_filter] at hs
    obtain ⟨t, ht, h1, h2⟩ := h.2 s hs.1
    exact ⟨t, List.mem_filter.2 ⟨ht, by rw [hp t s h1 h2]; exact hs.2⟩, h1, h2⟩

theorem SameSegments.nil_iff {a b : List Segment} (h : SameSegments a b) : a = [] ↔ b = [] := by
  constructor
  · rintro rfl
    rw [List.eq_nil_iff_forall_not_mem]
    intro s hs
    obtain ⟨t, ht, -⟩ := h.2 s hs
    cases ht
  · rintro rfl
    rw [List.eq_nil_iff_forall_not_mem]
    intro s hs
    obtain ⟨t, ht, -⟩ := h.1 s hs
    cases ht

theorem SameSegments.vertex {a b : List Segment} (h : SameSegments a b) {q : Point} (hv : Vertex a q) :
    Vertex b q := by
  rcases hv with ⟨s, hs, he⟩ | ⟨s, hs, t, ht, e⟩
  · obtain ⟨t, ht, h1, h2⟩ := h.1 s hs
    left
    refine ⟨t, ht, ?_⟩
    rw [Segment.isEnd_iff] at he ⊢
    rwa [← h1, ← h2]
  · obtain ⟨s', hs', h1, h2⟩ := h.1 s hs
    obtain ⟨t', ht', g1, g2⟩ := h.1 t ht
    right
    refine ⟨s', hs', t', ht', ?_⟩
    rw [← pts_eq_of_lo_hi h1 h2, ← pts_eq_of_lo_hi g1 g2]
    exact e

theorem SameSegments.partOf {a b : List Segment} (h : SameSegments a b) {e : Segment} :
    PartOf e a ↔ PartOf e b := by
  have key : ∀ a b : List Segment, SameSegments a b → PartOf e a → PartOf e b := by
    rintro a b h ⟨s, hs, hq⟩
    obtain ⟨t, ht, h1, h2⟩ := h.1 s hs
    exact ⟨t, ht, pts_eq_of_lo_hi h1 h2 ▸ hq⟩
  exact ⟨key _ _ h, key _ _ h.symm⟩

theorem SameSegments.isEdge {a b : List Segment} (h : SameSegments a b) {e : Segment} :
    IsEdge a e ↔ IsEdge b e := by
  have key : ∀ a b : List Segment, SameSegments a b → IsEdge a e → IsEdge b e := by
    rintro a b h ⟨h1, h2, h3, h4, h5⟩
    exact ⟨h1, h.vertex h2, h.vertex h3, h.partOf.1 h4, fun q hq hv => h5 q hq (h.symm.vertex hv)⟩
  exact ⟨key _ _ h, key _ _ h.symm⟩

end Clipping

import Verif.Lemmas.Sweep.Detect
import Verif.Lemmas.Flags.Parity
import Verif.Model.Sweep
import Mathlib.Algebra.BigOperators.Group.Finset.Basic
import Mathlib.Algebra.Order.BigOperators.Group.Finset

/-!
# The invariant of the concrete sweep
-/

namespace Clipping.Sweep

variable {α : Type} {ε : ℚ} {Pt : List Point}

/-- End points and crossing points belong to a finite set ordered by the sweep coordinate. -/
structure PtsOk (ε : ℚ) (Pt : List Point) (h : Heap α) : Prop where
  ord : Orders ε Pt
  mem : ∀ i < h.count, h.start i ∈ Pt ∧ h.stop i ∈ Pt
  cross : ∀ i < h.count, ∀ j < h.count, ¬ Col (absSeg ε h i) (absSeg ε h j) →
    ∀ q, q ∈ (h.segment i).pts → q ∈ (h.segment j).pts → q ∈ Pt

/-- The queue has the left events which have not been processed, and the right events of all segments
which have not been finished. -/
structure QueueOk (s : Store α) (L F : List ℕ) : Prop where
  nodup : s.queue.Nodup
  left : ∀ i, Ev.left i ∈ s.queue ↔ i < s.heap.count ∧ i ∉ L ∧ i ∉ F
  right : ∀ j, Ev.right j ∈ s.queue ↔ j < s.heap.count ∧ (s.heap.rights j).left ∉ F

/-- The invariant of the concrete sweep. -/
structure St (ε : ℚ) (Pt : List Point) (Y : ℚ → ℚ) (s : Store α) (L F : List ℕ) (p : ℚ)
    (Ex : ℕ → ℕ → Prop) : Prop where
  ok : HeapOk s.heap
  pts : PtsOk ε Pt s.heap
  queue : QueueOk s L F
  inv : ∃ A, Rep ε s.heap A ∧ Inv Y A s.heap.count L F p Ex

/-- points of the segments of one operand -/
def opPts (h : Heap α) (b : Bool) : Set Point :=
  {q | ∃ i < h.count, h.first i = b ∧ q ∈ (h.segment i).pts}

/-- number of points strictly inside a segment -/
def inner (ε : ℚ) (Pt : List Point) (h : Heap α) (i : ℕ) : ℕ :=
  (Pt.filter fun q => decide ((absSeg ε h i).a < sx ε q ∧ sx ε q < (absSeg ε h i).b)).length

/-- number of places where the segments still may be cut -/
def total (ε : ℚ) (Pt : List Point) (h : Heap α) : ℕ := ∑ i ∈ Finset.range h.count, inner ε Pt h i

/-- bound on the number of steps to come -/
def potential (ε : ℚ) (Pt : List Point) (s : Store α) : ℕ := s.queue.length + 2 * total ε Pt s.heap

/-- The field `g` of the payload is never changed. -/
structure KeepsAll (O : Ops α) (g : α → Bool) : Prop extends Keeps O.toPayload g where
  compute : ∀ h i b, g (O.compute h i b) = g (h.lefts i).data

/-- Segment `i` of the new store is a part of segment `k` of the old one. -/
structure Part (O : Ops α) (h h' : Heap α) (k i : ℕ) : Prop where
  first : h'.first i = h.first k
  pts : (h'.segment i).pts ⊆ (h.segment k).pts
  data : ∀ g, KeepsAll O g → g (h'.lefts i).data = g (h.lefts k).data

theorem Part.trans {O : Ops α} {h h' h'' : Heap α} {k i j : ℕ} (a : Part O h h' k i) (b : Part O h' h'' i j) :
    Part O h h'' k j :=
  ⟨b.first.trans a.first, b.pts.trans a.pts, fun g hg => (b.data g hg).trans (a.data g hg)⟩

theorem Part.refl {O : Ops α} {h : Heap α} {k : ℕ} : Part O h h k k := ⟨rfl, subset_rfl, fun _ _ => rfl⟩

/-- What a step of the sweep leaves as it is; `L` are the segments which may be cut. -/
structure Evolves (O : Ops α) (ε : ℚ) (Pt : List Point) (L : List ℕ) (s s' : Store α) : Prop where
  count : s.heap.count ≤ s'.heap.count
  start : ∀ i < s.heap.count, s'.heap.start i = s.heap.start i
  first : ∀ i < s.heap.count, s'.heap.first i = s.heap.first i
  stop : ∀ i < s.heap.count, i ∉ L → s'.heap.stop i = s.heap.stop i
  right : ∀ i < s.heap.count, i ∉ L → (s'.heap.lefts i).right = (s.heap.lefts i).right
  rstart : ∀ j < s.heap.count, (s'.heap.rights j).start = (s.heap.rights j).start
  pts : ∀ b, opPts s'.heap b = opPts s.heap b
  potential : potential ε Pt s' ≤ potential ε Pt s
  /-- every segment is a part of an old one -/
  sub : ∀ i < s'.heap.count, ∃ k < s.heap.count, Part O s.heap s'.heap k i
  /-- every old segment is covered by parts of it -/
  cov : ∀ k < s.heap.count, ∀ q ∈ (s.heap.segment k).pts, ∃ i < s'.heap.count,
    Part O s.heap s'.heap k i ∧ q ∈ (s'.heap.segment i).pts
  /-- parities of the numbers of segments below a place -/
  par : ∀ o c t, par (absSeg ε s'.heap) s'.heap.count o c t = par (absSeg ε s.heap) s.heap.count o c t
  /-- parities of the numbers of ends at a place -/
  deg : ∀ o x, deg (absSeg ε s'.heap) s'.heap.count o x = deg (absSeg ε s.heap) s.heap.count o x
  /-- old segments only get shorter -/
  own : ∀ k < s.heap.count, Part O s.heap s'.heap k k

theorem Evolves.refl {O : Ops α} (s : Store α) (L : List ℕ) : Evolves O ε Pt L s s :=
  ⟨le_refl _, fun _ _ => rfl, fun _ _ => rfl, fun _ _ _ => rfl, fun _ _ _ => rfl,
    fun _ _ => rfl, fun _ => rfl, le_refl _, fun i hi => ⟨i, hi, .refl⟩, fun i hi q hq => ⟨i, hi, .refl, hq⟩,
    fun _ _ _ => rfl, fun _ _ => rfl, fun _ _ => .refl⟩

theorem Evolves.trans {O : Ops α} {s s' s'' : Store α} {L : List ℕ} (a : Evolves O ε Pt L s s')
    (b : Evolves O ε Pt L s' s'') : Evolves O ε Pt L s s'' where
  count := a.count.trans b.count
  start i hi := (b.start i (hi.trans_le a.count)).trans (a.start i hi)
  first i hi := (b.first i (hi.trans_le a.count)).trans (a.first i hi)
  stop i hi hL := (b.stop i (hi.trans_le a.count) hL).trans (a.stop i hi hL)
  right i hi hL := (b.right i (hi.trans_le a.count) hL).trans (a.right i hi hL)
  rstart j hj := (b.rstart j (hj.trans_le a.count)).trans (a.rstart j hj)
  pts c := (b.pts c).trans (a.pts c)
  potential := b.potential.trans a.potential
  sub i hi := by
    obtain ⟨k, hk, h1⟩ := b.sub i hi
    obtain ⟨l, hl, g1⟩ := a.sub k hk
    exact ⟨l, hl, g1.trans h1⟩
  cov k hk q hq := by
    obtain ⟨i, hi, h1, hq'⟩ := a.cov k hk q hq
    obtain ⟨j, hj, g1, hq''⟩ := b.cov i hi q hq'
    exact ⟨j, hj, h1.trans g1, hq''⟩
  par o c t := (b.par o c t).trans (a.par o c t)
  deg o x := (b.deg o x).trans (a.deg o x)
  own k hk := (a.own k hk).trans (b.own k (hk.trans_le a.count))

section same
variable {s s' : Store α} (g : SameGeo s.heap s'.heap) (hq : s'.queue = s.queue)
include g

theorem SameGeo.opPts (b : Bool) : Sweep.opPts s'.heap b = Sweep.opPts s.heap b := by
  unfold Sweep.opPts
  rw [g.count]
  simp only [g.first, g.segment]

theorem SameGeo.total : Sweep.total ε Pt s'.heap = Sweep.total ε Pt s.heap := by
  unfold Sweep.total Sweep.inner
  rw [g.count]
  simp only [g.absSeg]

theorem SameGeo.ptsOk (h : PtsOk ε Pt s.heap) : PtsOk ε Pt s'.heap := by
  refine ⟨h.ord, ?_, ?_⟩
  · rw [g.count]; simp only [g.start, g.stop]; exact h.mem
  · rw [g.count]; simp only [g.absSeg, g.segment]; exact h.cross

include hq

theorem SameGeo.queueOk {L F : List ℕ} (h : QueueOk s L F) : QueueOk s' L F := by
  refine ⟨?_, ?_, ?_⟩
  · rw [hq]; exact h.nodup
  · rw [hq, g.count]; exact h.left
  · rw [hq, g.count, g.rights]; exact h.right

theorem SameGeo.evolves {O : Ops α} (L : List ℕ)
    (hd : ∀ f, KeepsAll O f → ∀ i, f (s'.heap.lefts i).data = f (s.heap.lefts i).data) :
    Evolves O ε Pt L s s' := by
  refine ⟨g.count.ge, fun i _ => g.start i, fun i _ => g.first i, fun i _ _ => g.stop i,
    fun i _ _ => g.right i, fun j _ => by rw [g.rights], g.opPts, ?_, fun i hi =>
      ⟨i, g.count ▸ hi, g.first i, by rw [g.segment], fun f hf => hd f hf i⟩, fun k hk q hq =>
      ⟨k, g.count.symm ▸ hk, ⟨g.first k, by rw [g.segment], fun f hf => hd f hf k⟩, by rwa [g.segment]⟩,
      fun o c t => by rw [g.count]; exact par_ext (fun i _ => g.absSeg i) o c t,
      fun o x => by rw [g.count]; exact deg_ext (fun i _ => g.absSeg i) o x,
      fun k _ => ⟨g.first k, by rw [g.segment], fun f hf => hd f hf k⟩⟩
  unfold Sweep.potential
  rw [hq, g.total]

theorem SameGeo.st {Y : ℚ → ℚ} {L F : List ℕ} {p : ℚ} {Ex : ℕ → ℕ → Prop}
    (h : St ε Pt Y s L F p Ex) : St ε Pt Y s' L F p Ex := by
  refine ⟨g.ok h.ok, g.ptsOk h.pts, g.queueOk hq h.queue, ?_⟩
  obtain ⟨A, r, I⟩ := h.inv
  exact ⟨A, g.rep r, by rw [g.count]; exact I⟩

end same

section divide
variable {s : Store α} {P : Payload α} {i : ℕ} {q : Point}

theorem PtsOk.divide {A : ℕ → Seg} (h : PtsOk ε Pt s.heap) (ok : HeapOk s.heap) (r : Rep ε s.heap A)
    (hi : i < s.heap.count) (h1 : (A i).a < sx ε q) (h2 : sx ε q < (A i).b)
    (hy : (A i).y (sx ε q) = q.y) (hq : q ∈ Pt) (pr : ∀ i < s.heap.count, (A i).a < (A i).b) :
    PtsOk ε Pt (divideSegment P s i q).heap := by
  have r' : Rep ε (divideSegment P s i q).heap (cut A s.heap.count i (sx ε q)) := r.divide ok hi h1 h2 hy
  have pr' : ∀ j < s.heap.count + 1, (cut A s.heap.count i (sx ε q) j).a <
      (cut A s.heap.count i (sx ε q) j).b := by
    intro j hj
    rcases Nat.lt_succ_iff_lt_or_eq.1 hj with hj | rfl
    · by_cases e : j = i
      · subst e; rw [cut_i _ hj]; exact h1
      · rw [cut_j _ hj e]; exact pr j hj
    · rw [cut_n]; exact h2
  refine ⟨h.ord, ?_, ?_⟩
  · intro j hj
    rcases Nat.lt_succ_iff_lt_or_eq.1 hj with hj | rfl
    · have e1 : (divideSegment P s i q).heap.start j = s.heap.start j := divide_start_old hi hj
      rw [e1]
      refine ⟨(h.mem j hj).1, ?_⟩
      by_cases e : j = i
      · subst e
        have e2 : (divideSegment P s j q).heap.stop j = q := divide_stop_self
        rw [e2]; exact hq
      · have e2 : (divideSegment P s i q).heap.stop j = s.heap.stop j := divide_stop_old ok hj e
        rw [e2]; exact (h.mem j hj).2
    · have e1 : (divideSegment P s i q).heap.start s.heap.count = q := divide_start_new hi
      have e2 : (divideSegment P s i q).heap.stop s.heap.count = s.heap.stop i := divide_stop_new ok hi
      rw [e1, e2]
      exact ⟨hq, (h.mem i hi).2⟩
  · intro u hu v hv hne x xu xv
    rw [← r' u hu, ← r' v hv] at hne
    have mu := (mem_segment (by rw [← r' u hu]; exact pr' u hu)).1 xu
    have mv := (mem_segment (by rw [← r' v hv]; exact pr' v hv)).1 xv
    rw [← r' u hu] at mu
    rw [← r' v hv] at mv
    obtain ⟨u', hu', u1, u2, u3, u4, u5, -⟩ := cut_par A hi h1 h2 hu
    obtain ⟨v', hv', v1, v2, v3, v4, v5, -⟩ := cut_par A hi h1 h2 hv
    refine h.cross u' hu' v' hv' ?_ x ?_ ?_
    · rw [← r u' hu', ← r v' hv']
      intro hc
      exact hne ⟨u3.trans (hc.1.trans v3.symm), u4.trans (hc.2.trans v4.symm)⟩
    · refine (mem_segment (by rw [← r u' hu']; exact pr u' hu')).2 ?_
      rw [← r u' hu', ← y_congr u3 u4]
      exact ⟨u1.trans mu.1, mu.2.1.trans u2, mu.2.2⟩
    · refine (mem_segment (by rw [← r v' hv']; exact pr v' hv')).2 ?_
      rw [← r v' hv', ← y_congr v3 v4]
      exact ⟨v1.trans mv.1, mv.2.1.trans v2, mv.2.2⟩

theorem QueueOk.divide {L F : List ℕ} (h : QueueOk s L F) (ok : HeapOk s.heap) (hi : i < s.heap.count)
    (bd : ∀ i ∈ L ++ F, i < s.heap.count) (hiF : i ∉ F) : QueueOk (divideSegment P s i q) L F := by
  have nl : Ev.left s.heap.count ∉ s.queue := fun hh => lt_irrefl _ ((h.left _).1 hh).1
  have nr : Ev.right s.heap.count ∉ s.queue := fun hh => lt_irrefl _ ((h.right _).1 hh).1
  refine ⟨?_, ?_, ?_⟩
  · simp only [divideSegment]
    rw [List.nodup_append]
    refine ⟨h.nodup, by simp, ?_⟩
    rintro a ha b hb rfl
    simp only [List.mem_cons, List.not_mem_nil, or_false] at hb
    rcases hb with rfl | rfl
    exacts [nl ha, nr ha]
  · intro j
    simp only [divideSegment, List.mem_append, h.left, List.mem_cons, List.not_mem_nil, or_false,
      Ev.left.injEq, reduceCtorEq, divide_count]
    constructor
    · rintro (⟨a, b, c⟩ | rfl)
      · exact ⟨by omega, b, c⟩
      · exact ⟨by omega, fun hh => lt_irrefl _ (bd _ (by simp [hh])), fun hh => lt_irrefl _ (bd _ (by simp [hh]))⟩
    · rintro ⟨a, b, c⟩
      by_cases e : j = s.heap.count
      · exact Or.inr e
      · exact Or.inl ⟨by omega, b, c⟩
  · intro j
    simp only [divideSegment, List.mem_append, h.right, List.mem_cons, List.not_mem_nil, or_false,
      Ev.right.injEq, reduceCtorEq, divide_count, false_or]
    by_cases e : j = s.heap.count
    · subst e
      rw [divide_left_new]
      exact ⟨fun _ => ⟨by omega, hiF⟩, fun _ => Or.inr rfl⟩
    · by_cases e' : j = (s.heap.lefts i).right
      · subst e'
        rw [divide_left_right (ok.rlt i hi), ok.lr i hi]
        have nF : s.heap.count ∉ F := fun hh => lt_irrefl _ (bd _ (by simp [hh]))
        have := ok.rlt i hi
        constructor
        · intro _; exact ⟨by omega, nF⟩
        · intro _; exact Or.inl ⟨this, hiF⟩
      · constructor
        · rintro (⟨a, b⟩ | a)
          · rw [divide_left_old a e']; exact ⟨by omega, b⟩
          · exact absurd a e
        · rintro ⟨a, b⟩
          have hj : j < s.heap.count := by omega
          rw [divide_left_old hj e'] at b
          exact Or.inl ⟨hj, b⟩

theorem opPts_divide (ok : HeapOk s.heap) (hi : i < s.heap.count) (hq : q ∈ (s.heap.segment i).pts)
    (b : Bool) : opPts (divideSegment P s i q).heap b = opPts s.heap b := by
  have es : (divideSegment P s i q).heap.segment i = ⟨s.heap.start i, q⟩ := by
    simp only [divideSegment, Heap.segment]; rw [divide_start_old hi hi, divide_stop_self]
  have en : (divideSegment P s i q).heap.segment s.heap.count = ⟨q, s.heap.stop i⟩ := by
    simp only [divideSegment, Heap.segment]; rw [divide_start_new hi, divide_stop_new ok hi]
  have eo : ∀ j < s.heap.count, j ≠ i → (divideSegment P s i q).heap.segment j = s.heap.segment j := by
    intro j hj hne
    simp only [divideSegment, Heap.segment]; rw [divide_start_old hi hj, divide_stop_old ok hj hne]
  have fo : ∀ j < s.heap.count, (divideSegment P s i q).heap.first j = s.heap.first j := fun j hj =>
    divide_first_old hi hj
  have fn : (divideSegment P s i q).heap.first s.heap.count = s.heap.first i := divide_first_new hi
  have sp := split_pts hq
  ext x
  constructor
  · rintro ⟨j, hj, hf, hx⟩
    rcases Nat.lt_succ_iff_lt_or_eq.1 hj with hj | rfl
    · rw [fo j hj] at hf
      by_cases e : j = i
      · subst e
        rw [es] at hx
        exact ⟨j, hi, hf, sp ▸ Or.inl hx⟩
      · rw [eo j hj e] at hx
        exact ⟨j, hj, hf, hx⟩
    · rw [fn] at hf
      rw [en] at hx
      exact ⟨i, hi, hf, sp ▸ Or.inr hx⟩
  · rintro ⟨j, hj, hf, hx⟩
    by_cases e : j = i
    · subst e
      rw [← sp] at hx
      rcases hx with hx | hx
      · exact ⟨j, Nat.lt_succ_of_lt hj, by rw [fo j hj]; exact hf, by rw [es]; exact hx⟩
      · exact ⟨s.heap.count, Nat.lt_succ_self _, by rw [fn]; exact hf, by rw [en]; exact hx⟩
    · exact ⟨j, Nat.lt_succ_of_lt hj, by rw [fo j hj]; exact hf, by rw [eo j hj e]; exact hx⟩

/-- The parts of a divided segment are parts of it and cover it. -/
theorem sub_divide {O : Ops α} {s : Store α} {i : ℕ} {q : Point} (ok : HeapOk s.heap) (hi : i < s.heap.count)
    (hq : q ∈ (s.heap.segment i).pts) :
    (∀ j < (divideSegment O.toPayload s i q).heap.count, ∃ k < s.heap.count,
      Part O s.heap (divideSegment O.toPayload s i q).heap k j) ∧
    (∀ k < s.heap.count, ∀ r ∈ (s.heap.segment k).pts, ∃ j < (divideSegment O.toPayload s i q).heap.count,
      Part O s.heap (divideSegment O.toPayload s i q).heap k j ∧
      r ∈ ((divideSegment O.toPayload s i q).heap.segment j).pts) ∧
    ∀ k < s.heap.count, Part O s.heap (divideSegment O.toPayload s i q).heap k k := by
  have sp := split_pts hq
  have dt : ∀ j < s.heap.count, ((divideSegment O.toPayload s i q).heap.lefts j).data = (s.heap.lefts j).data := by
    intro j hj
    simp only [divideSegment, Heap.divide]
    by_cases e : j = i
    · subst e; simp
    · simp [e, hj.ne]
  have es : (divideSegment O.toPayload s i q).heap.segment i = ⟨s.heap.start i, q⟩ := by
    simp only [divideSegment, Heap.segment]; rw [divide_start_old hi hi, divide_stop_self]
  have eo : ∀ j < s.heap.count, j ≠ i → (divideSegment O.toPayload s i q).heap.segment j = s.heap.segment j := by
    intro j hj e
    simp only [divideSegment, Heap.segment]; rw [divide_start_old hi hj, divide_stop_old ok hj e]
  have en : (divideSegment O.toPayload s i q).heap.segment s.heap.count = ⟨q, s.heap.stop i⟩ := by
    simp only [divideSegment, Heap.segment]; rw [divide_start_new hi, divide_stop_new ok hi]
  have po : ∀ j < s.heap.count, Part O s.heap (divideSegment O.toPayload s i q).heap j j := by
    intro j hj
    refine ⟨divide_first_old hi hj, ?_, fun g _ => by rw [dt j hj]⟩
    by_cases e : j = i
    · subst e
      rw [es, ← sp]
      exact Set.subset_union_left
    · rw [eo j hj e]
  have pn : Part O s.heap (divideSegment O.toPayload s i q).heap i s.heap.count := by
    refine ⟨divide_first_new hi, ?_, fun g hg => ?_⟩
    · rw [en, ← sp]
      exact Set.subset_union_right
    · simp only [divideSegment, Heap.divide]
      simp [hi.ne', hg.tail]
  refine ⟨?_, ?_, po⟩
  · intro j hj
    rcases Nat.lt_succ_iff_lt_or_eq.1 hj with hj | rfl
    · exact ⟨j, hj, po j hj⟩
    · exact ⟨i, hi, pn⟩
  · intro k hk r hr
    by_cases e : k = i
    · subst e
      rw [← sp] at hr
      rcases hr with hr | hr
      · exact ⟨k, Nat.lt_succ_of_lt hk, po k hk, by rw [es]; exact hr⟩
      · exact ⟨s.heap.count, Nat.lt_succ_self _, pn, by rw [en]; exact hr⟩
    · exact ⟨k, Nat.lt_succ_of_lt hk, po k hk, by rw [eo k hk e]; exact hr⟩

theorem filter_split {β : Type} (l : List β) (f g h : β → Bool) (x : β) (hx : x ∈ l) (hf : f x = true)
    (hgx : g x = false) (hhx : h x = false) (hg : ∀ y, g y = true → f y = true)
    (hh : ∀ y, h y = true → f y = true) (hgh : ∀ y, g y = true → h y = false) :
    (l.filter g).length + (l.filter h).length + 1 ≤ (l.filter f).length := by
  have weak : ∀ l : List β, (l.filter g).length + (l.filter h).length ≤ (l.filter f).length := by
    intro l
    induction l with
    | nil => simp
    | cons a l ih =>
      simp only [List.filter_cons]
      have a1 := hg a
      have a2 := hh a
      have a3 := hgh a
      cases eg : g a <;> cases eh : h a <;> cases ef : f a <;> simp_all <;> omega
  induction l with
  | nil => cases hx
  | cons a l ih =>
    rcases List.mem_cons.1 hx with rfl | hx
    · simp only [List.filter_cons, hf, hgx, hhx, if_true, List.length_cons, Bool.false_eq_true, if_false]
      have := weak l
      omega
    · have := ih hx
      simp only [List.filter_cons]
      have a1 := hg a
      have a2 := hh a
      have a3 := hgh a
      cases eg : g a <;> cases eh : h a <;> cases ef : f a <;> simp_all <;> omega

theorem total_divide (ok : HeapOk s.heap) (hi : i < s.heap.count)
    (h1 : (absSeg ε s.heap i).a < sx ε q) (h2 : sx ε q < (absSeg ε s.heap i).b)
    (hy : (absSeg ε s.heap i).y (sx ε q) = q.y) (hq : q ∈ Pt) :
    total ε Pt (divideSegment P s i q).heap + 1 ≤ total ε Pt s.heap := by
  have key : inner ε Pt (divideSegment P s i q).heap i +
      inner ε Pt (divideSegment P s i q).heap s.heap.count + 1 ≤ inner ε Pt s.heap i := by
    have e1 : absSeg ε (divideSegment P s i q).heap i = { absSeg ε s.heap i with b := sx ε q } :=
      abs_divide_self hi h1 hy
    have e2 : absSeg ε (divideSegment P s i q).heap s.heap.count =
        { absSeg ε s.heap i with a := sx ε q } := abs_divide_new ok hi h1 h2 hy
    unfold inner
    rw [e1, e2]
    apply filter_split Pt _ _ _ q hq
    · simp [h1, h2]
    · simp
    · simp
    · intro y; simp only [decide_eq_true_eq]; rintro ⟨a, b⟩; exact ⟨a, b.trans h2⟩
    · intro y; simp only [decide_eq_true_eq]; rintro ⟨a, b⟩; exact ⟨h1.trans a, b⟩
    · intro y; simp only [decide_eq_true_eq, decide_eq_false_iff_not]
      rintro ⟨a, b⟩ ⟨c, d⟩; exact absurd b (not_lt.2 c.le)
  have oth : ∀ j ∈ (Finset.range s.heap.count).erase i,
      inner ε Pt (divideSegment P s i q).heap j = inner ε Pt s.heap j := by
    intro j hj
    rw [Finset.mem_erase, Finset.mem_range] at hj
    have : absSeg ε (divideSegment P s i q).heap j = absSeg ε s.heap j :=
      abs_divide_other ok hi hj.2 hj.1
    unfold inner; rw [this]
  have c : (divideSegment P s i q).heap.count = s.heap.count + 1 := rfl
  unfold total
  rw [c, Finset.sum_range_succ, ← Finset.add_sum_erase _ _ (Finset.mem_range.2 hi),
    ← Finset.add_sum_erase (Finset.range s.heap.count) (inner ε Pt s.heap) (Finset.mem_range.2 hi),
    Finset.sum_congr rfl oth]
  have e : ((Finset.range s.heap.count).erase i).sum (inner ε Pt s.heap) =
    ∑ x ∈ (Finset.range s.heap.count).erase i, inner ε Pt s.heap x := rfl
  omega

end divide

/-- Divisions of `u` and `v` in the sweep line keep the concrete part of the invariant and are cuts. -/
theorem Divs.st {O : Ops α} {s s' : Store α} {u v : ℕ} {L F : List ℕ} {A : ℕ → Seg}
    (d : Divs O.toPayload ε u v (fun q => CutAt (absSeg ε s.heap u) (absSeg ε s.heap v) (sx ε q) ∧
        (absSeg ε s.heap u).y (sx ε q) = q.y ∧ q ∈ Pt) s s')
    (ok : HeapOk s.heap) (pts : PtsOk ε Pt s.heap) (que : QueueOk s L F) (r : Rep ε s.heap A)
    (bd : ∀ i ∈ L ++ F, i < s.heap.count) (pr : ∀ i < s.heap.count, (A i).a < (A i).b)
    (hu : u ∈ L) (hv : v ∈ L) (huF : u ∉ F) (hvF : v ∉ F) :
    ∃ A', Rep ε s'.heap A' ∧ Cuts u v (CutAt (A u) (A v)) A s.heap.count A' s'.heap.count ∧
      HeapOk s'.heap ∧ PtsOk ε Pt s'.heap ∧ QueueOk s' L F ∧ (∀ i < s'.heap.count, (A' i).a < (A' i).b) ∧
      Evolves O ε Pt L s s' := by
  have hun : u < s.heap.count := bd u (by simp [hu])
  have hvn : v < s.heap.count := bd v (by simp [hv])
  rw [← r u hun, ← r v hvn] at d
  induction d with
  | refl => exact ⟨A, r, .refl, ok, pts, que, pr, Evolves.refl s L⟩
  | data _ g hq hd ih =>
    obtain ⟨A', r', c, ok', pts', que', pr', ev⟩ := ih
    exact ⟨A', g.rep r', by rw [g.count]; exact c, g.ok ok', g.ptsOk pts', g.queueOk hq que',
      by rw [g.count]; exact pr', ev.trans (g.evolves hq L fun f k i => hd f k.toKeeps i)⟩
  | @step s₁ i q _ hi h1 h2 hy hG ih =>
    obtain ⟨A', r', c, ok', pts', que', pr', ev⟩ := ih
    have hiL : i ∈ L := by rcases hi with rfl | rfl <;> assumption
    have hiF : i ∉ F := by rcases hi with rfl | rfl <;> assumption
    have hin : i < s₁.heap.count := (bd i (by simp [hiL])).trans_le ev.count
    have td := total_divide (P := O.toPayload) ok' hin h1 h2 hy hG.2.2
    have hqs : q ∈ (s₁.heap.segment i).pts :=
      (mem_segment (h1.trans h2)).2 ⟨h1.le, h2.le, hy⟩
    rw [← r' i hin] at h1 h2 hy
    refine ⟨_, r'.divide ok' hin h1 h2 hy, c.step hi h1 h2 hG.1, ok'.divide hin,
      pts'.divide ok' r' hin h1 h2 hy hG.2.2 pr',
      que'.divide ok' hin (fun i hi => (bd i hi).trans_le ev.count) hiF, ?_, ev.trans ?_⟩
    · intro j hj
      rcases Nat.lt_succ_iff_lt_or_eq.1 hj with hj | rfl
      · by_cases e : j = i
        · subst e; rw [cut_i _ hin]; exact h1
        · rw [cut_j _ hj e]; exact pr' j hj
      · rw [cut_n]; exact h2
    · refine ⟨Nat.le_succ _, fun j hj => divide_start_old hin hj, fun j hj => divide_first_old hin hj,
        fun j hj hL => divide_stop_old ok' hj ?_, fun j hj hL => divide_right_old hj ?_,
        fun j hj => divide_rstart_old hj, opPts_divide ok' hin hqs, ?_, (sub_divide ok' hin hqs).1, (sub_divide ok' hin hqs).2.1,
        fun o c t => ?_, fun o x => ?_, (sub_divide ok' hin hqs).2.2⟩
      · rintro rfl; exact hL hiL
      · rintro rfl; exact hL hiL
      · unfold potential
        have : (divideSegment O.toPayload s₁ i q).queue.length = s₁.queue.length + 2 := by
          simp [divideSegment]
        rw [this]
        omega
      · exact (par_ext (r'.divide (tail := O.tail) ok' hin h1 h2 hy) o c t).symm.trans
          ((par_cut hin h1 h2 o c t).trans (par_ext r' o c t))
      · exact (deg_ext (r'.divide (tail := O.tail) ok' hin h1 h2 hy) o x).symm.trans
          ((deg_cut hin o x).trans (deg_ext r' o x))

/-- `detect_intersection` on two segments of the sweep line. -/
theorem St.detect {O : Ops α} {s : Store α} {u v : ℕ} {Y : ℚ → ℚ} {L F : List ℕ} {p : ℚ}
    {Ex : ℕ → ℕ → Prop} (S : St ε Pt Y s L F p Ex) (hu : u ∈ L) (hv : v ∈ L) (huv : u ≠ v) :
    ∃ s' b, detectIntersection O.toPayload s u v = .ok (s', b) ∧
      St ε Pt Y s' L F p (fun x y => Ex x y ∧ ¬ (x = u ∧ y = v)) ∧ Evolves O ε Pt L s s' ∧
      (b = true ↔ Col (absSeg ε s.heap u) (absSeg ε s.heap v) ∧ s.heap.start u = s.heap.start v) := by
  obtain ⟨A, r, I⟩ := S.inv
  have hun : u < s.heap.count := I.ltn hu
  have hvn : v < s.heap.count := I.ltn hv
  obtain ⟨s', b, e, d, res, hb⟩ := detect_divs (P := O.toPayload) (s := s) (ε := ε) (Pt := Pt) S.ok hun hvn huv
    (by rw [← r u hun]; exact I.proper u hun) (by rw [← r v hvn]; exact I.proper v hvn) S.pts.ord
    (S.pts.mem u hun) (S.pts.mem v hvn) (S.pts.cross u hun v hvn) (by
      rw [← r u hun, ← r v hvn]
      intro hc h1 h2 hf
      have hf' : (A u).ff = (A v).ff := by rw [r u hun, r v hvn]; exact hf
      rcases I.noOv u hun v hvn huv hc hf' with h | h <;> linarith)
  have dis : ∀ i ∈ L, i ∉ F := fun i hi hF => (List.disjoint_of_nodup_append I.nodup) hi hF
  obtain ⟨A', r', c, ok', pts', que', pr', ev⟩ := d.st S.ok S.pts S.queue r I.bound I.proper hu hv
    (dis u hu) (dis v hv)
  refine ⟨s', b, e, ⟨ok', pts', que', A', r', ?_⟩, ev, hb⟩
  rw [← r' u (hun.trans_le ev.count), ← r' v (hvn.trans_le ev.count)] at res
  exact I.detect hu hv c res

end Clipping.Sweep

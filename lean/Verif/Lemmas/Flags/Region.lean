import Verif.Lemmas.Flags.Run
import Verif.Lemmas.LinearSweep
import Verif.Spec.Region

/-!
# From regions to the abstract sweep
-/

namespace Clipping

namespace Sweep

variable {α : Type} {ε : ℚ} {Pt : List Point} {Y : ℚ → ℚ} {s : Store α} {L F : List ℕ} {p : ℚ}

/-- For points strictly on the left of an edge the lexicographic order and the order of abscissas agree. -/
theorem between_iff {a b m : Point} (h : a < b) (hc : 0 < cross a b m) :
    (a ≤ m ∧ m < b) ↔ (a.x ≤ m.x ∧ m.x < b.x) := by
  rw [Point.lt_def] at h
  unfold cross at hc
  rw [← not_lt, Point.lt_def, Point.lt_def]
  constructor
  · rintro ⟨h1, h2⟩
    push Not at h1
    refine ⟨h1.1, ?_⟩
    rcases h2 with h2 | ⟨h2, h3⟩
    · exact h2
    · exfalso
      rw [h2] at hc
      rcases h with h | ⟨h, h'⟩
      · nlinarith
      · rw [h] at hc; nlinarith
  · rintro ⟨h1, h2⟩
    refine ⟨?_, Or.inl h2⟩
    push Not
    refine ⟨h1, fun e => ?_⟩
    rw [e] at hc h2
    nlinarith

theorem orders_sub {P Q : List Point} (h : Orders ε Q) (hs : ∀ q ∈ P, q ∈ Q) : Orders ε P :=
  fun p hp q hq => h p (hs p hp) q (hs q hq)

/-- Parity of the edges below a point. -/
theorem St.par_point {Ex : ℕ → ℕ → Prop} (S : St ε Pt Y s L F p Ex) {X : List Point} (ho : Orders ε (Pt ++ X))
    {m : Point} (hm : m ∈ X) (hmp : m ∉ Pt) {t : Seg} (ht : t.y (sx ε m) = m.y) {o : Bool}
    (htc : ∀ k < s.heap.count, s.heap.first k = o → m ∈ (s.heap.segment k).pts → Col (absSeg ε s.heap k) t) :
    par (absSeg ε s.heap) s.heap.count o (sx ε m) t =
      ∑ k ∈ Finset.range s.heap.count, ind (s.heap.first k = o ∧ IsBelow (s.heap.segment k) m) +
      ind (o = true ∧ t.ff = false ∧ ∃ k < s.heap.count, s.heap.first k = o ∧ m ∈ (s.heap.segment k).pts) := by
  classical
  have I := S.inv'
  have hmX : m ∈ Pt ++ X := by simp [hm]
  have lt : ∀ k < s.heap.count, s.heap.start k < s.heap.stop k := fun i hi =>
    (S.pts.ord.lt_iff (S.pts.mem i hi).1 (S.pts.mem i hi).2).2 (I.proper i hi)
  -- inner points of segments
  have inner : ∀ k < s.heap.count, m ∈ (s.heap.segment k).pts →
      (absSeg ε s.heap k).a < sx ε m ∧ sx ε m < (absSeg ε s.heap k).b := by
    intro k hk hmk
    have := (mem_segment (I.proper k hk)).1 hmk
    constructor
    · refine lt_of_le_of_ne this.1 fun e => hmp ?_
      have : s.heap.start k = m := (ho.eq_iff (by simp [S.pts.mem k hk]) hmX).2 e
      rw [← this]; exact (S.pts.mem k hk).1
    · refine lt_of_le_of_ne this.2.1 fun e => hmp ?_
      have : m = s.heap.stop k := (ho.eq_iff hmX (by simp [S.pts.mem k hk])).2 e
      rw [this]; exact (S.pts.mem k hk).2
  have term : ∀ k < s.heap.count, ind ((absSeg ε s.heap k).ff = o ∧ Act (sx ε m) (absSeg ε s.heap k) ∧
      Bel (sx ε m) (absSeg ε s.heap k) t) = ind (s.heap.first k = o ∧ IsBelow (s.heap.segment k) m) +
      ind (o = true ∧ t.ff = false ∧ s.heap.first k = o ∧ m ∈ (s.heap.segment k).pts) := by
    intro k hk
    have e1 : (s.heap.segment k).lo = s.heap.start k := min_eq_left (lt k hk).le
    have e2 : (s.heap.segment k).hi = s.heap.stop k := max_eq_right (lt k hk).le
    have b1 : IsBelow (s.heap.segment k) m ↔ Act (sx ε m) (absSeg ε s.heap k) ∧ (absSeg ε s.heap k).y (sx ε m) < m.y := by
      have c1 := cross_pos_iff (ε := ε) (ff := s.heap.first k) (I.proper k hk : sx ε (s.heap.start k) < sx ε (s.heap.stop k)) m
      unfold IsBelow
      rw [e1, e2]
      constructor
      · rintro ⟨h1, h2, h3⟩
        obtain ⟨h4, h5⟩ := (between_iff (lt k hk) h3).2 ⟨h1, h2⟩
        exact ⟨⟨(ho.le_iff (by simp [S.pts.mem k hk]) hmX).1 h4, (ho.lt_iff hmX (by simp [S.pts.mem k hk])).1 h5⟩,
          c1.1 h3⟩
      · rintro ⟨⟨h1, h2⟩, h3⟩
        have h3' := c1.2 h3
        obtain ⟨h4, h5⟩ := (between_iff (lt k hk) h3').1 ⟨(ho.le_iff (by simp [S.pts.mem k hk]) hmX).2 h1,
          (ho.lt_iff hmX (by simp [S.pts.mem k hk])).2 h2⟩
        exact ⟨h4, h5, h3'⟩
    have b2 : (s.heap.first k = o ∧ Act (sx ε m) (absSeg ε s.heap k) ∧ Bel (sx ε m) (absSeg ε s.heap k) t) ↔
        ((s.heap.first k = o ∧ IsBelow (s.heap.segment k) m) ∨
          (o = true ∧ t.ff = false ∧ s.heap.first k = o ∧ m ∈ (s.heap.segment k).pts)) := by
      rw [b1]
      constructor
      · rintro ⟨h1, h2, h3⟩
        rcases h3 with h3 | ⟨h3, h4⟩
        · exact Or.inl ⟨h1, h2, by rw [← ht]; exact h3⟩
        · right
          have hmk : m ∈ (s.heap.segment k).pts :=
            (mem_segment (I.proper k hk)).2 ⟨h2.1, h2.2.le, h3.trans ht⟩
          have hc := htc k hk h1 hmk
          rcases h4 with h4 | ⟨-, h4, h5⟩
          · exact absurd hc.1 h4.ne
          · exact ⟨by rw [← h1]; exact h4, h5, h1, hmk⟩
      · rintro (⟨h1, h2, h3⟩ | ⟨h1, h2, h3, h4⟩)
        · exact ⟨h1, h2, Or.inl (by rw [ht]; exact h3)⟩
        · have hc := htc k hk h3 h4
          refine ⟨h3, ⟨(inner k hk h4).1.le, (inner k hk h4).2⟩, Or.inr ⟨hc.y _, Or.inr ⟨hc.1, ?_, h2⟩⟩⟩
          show s.heap.first k = true
          rw [h3]; exact h1
    rw [show ((absSeg ε s.heap k).ff = o) = (s.heap.first k = o) from rfl, ind_congr b2, ind_or]
    rintro ⟨⟨-, h1⟩, -, -, -, h2⟩
    rw [b1] at h1
    have := ((mem_segment (I.proper k hk)).1 h2).2.2
    linarith [h1.2]
  unfold par
  rw [Finset.sum_congr rfl fun k hk => term k (Finset.mem_range.1 hk), Finset.sum_add_distrib]
  congr 1
  by_cases hex : o = true ∧ t.ff = false ∧ ∃ k < s.heap.count, s.heap.first k = o ∧ m ∈ (s.heap.segment k).pts
  · obtain ⟨h1, h2, k, hk, h3, h4⟩ := hex
    rw [ind_pos ⟨h1, h2, k, hk, h3, h4⟩, Finset.sum_eq_single k]
    · exact ind_pos ⟨h1, h2, h3, h4⟩
    · intro j hj hne
      apply ind_neg
      rintro ⟨-, -, h5, h6⟩
      rw [Finset.mem_range] at hj
      have hc := (htc j hj h5 h6).trans (htc k hk h3 h4).symm
      have i1 := inner j hj h6
      have i2 := inner k hk h4
      rcases I.noOv j hj k hk hne hc (h5.trans h3.symm) with h | h <;> linarith
    · intro h; exact absurd (Finset.mem_range.2 hk) h
  · rw [ind_neg hex]
    refine Finset.sum_eq_zero fun k hk => ind_neg ?_
    rintro ⟨h1, h2, h3, h4⟩
    exact hex ⟨h1, h2, k, Finset.mem_range.1 hk, h3, h4⟩

/-- parity of a count -/
theorem ind_countP {β : Type} (l : List β) (P : β → Bool) :
    ((l.countP P : ℕ) : ZMod 2) = ind (Odd (l.countP P)) := by
  rcases Nat.even_or_odd (l.countP P) with h | h
  · rw [ind_neg (Nat.not_odd_iff_even.2 h), ZMod.natCast_eq_zero_iff_even.2 h]
  · rw [ind_pos h, ZMod.natCast_eq_one_iff_odd.2 h]

theorem sum_countP {β : Type} (l : List β) (P : β → Bool) (Q : ℕ → Prop)
    (h : ∀ k x, l[k]? = some x → (Q k ↔ P x = true)) :
    ∑ k ∈ Finset.range l.length, ind (Q k) = ((l.countP P : ℕ) : ZMod 2) := by
  induction l using List.reverseRecOn with
  | nil => simp
  | append_singleton l x ih =>
    rw [List.length_append, List.length_singleton, Finset.sum_range_succ, List.countP_append, Nat.cast_add, ih]
    · congr 1
      have := h l.length x (by simp)
      by_cases hx : P x = true
      · rw [ind_pos (this.2 hx)]; simp [hx]
      · rw [ind_neg (fun g => hx (this.1 g))]; simp [hx]
    · intro k y hk
      apply h k y
      obtain ⟨hlt, -⟩ := List.getElem?_eq_some_iff.1 hk
      rw [List.getElem?_append_left hlt]; exact hk

/-- the segments of an operand -/
def operand (first second : List Segment) (o : Bool) : List Segment := if o then first else second

theorem countP_marked (first second : List Segment) (o : Bool) (P : Segment → Bool) :
    (marked first second).countP (fun x => x.2 == o && P x.1) = (operand first second o).countP P := by
  have h1 : ∀ (l : List Segment) (c : Bool), ((l.map fun t => (t, c)).countP fun x => x.2 == o && P x.1) =
      if c = o then l.countP P else 0 := by
    intro l c
    rw [List.countP_map]
    by_cases hc : c = o
    · subst hc
      rw [if_pos rfl]
      congr 1
      funext x
      simp
    · rw [if_neg hc, List.countP_eq_zero]
      intro x _
      simp [hc]
  unfold marked operand
  rw [List.countP_append, h1, h1]
  cases o <;> simp

/-- the middle between two points -/
def middle (p q : Point) : Point := ⟨(p.x + q.x) / 2, (p.y + q.y) / 2⟩

theorem sx_middle (p q : Point) : sx ε (middle p q) = (sx ε p + sx ε q) / 2 := by
  unfold sx middle; ring

theorem exists_last (l : List Point) (P : Point → Prop) (c : ℚ) (h : ∃ q ∈ l, P q ∧ sx ε q ≤ c) :
    ∃ q ∈ l, P q ∧ sx ε q ≤ c ∧ ∀ r ∈ l, P r → sx ε r ≤ c → sx ε r ≤ sx ε q := by
  classical
  obtain ⟨q0, h0, h1, h2⟩ := h
  obtain ⟨q, hq, hmax⟩ := (l.toFinset.filter fun q => P q ∧ sx ε q ≤ c).exists_max_image (sx ε) ⟨q0, by simp [*]⟩
  simp only [Finset.mem_filter, List.mem_toFinset] at hq hmax
  exact ⟨q, hq.1, hq.2.1, hq.2.2, fun r a b e => hmax r ⟨a, b, e⟩⟩

theorem exists_next (l : List Point) (P : Point → Prop) (c : ℚ) (h : ∃ q ∈ l, P q ∧ c < sx ε q) :
    ∃ q ∈ l, P q ∧ c < sx ε q ∧ ∀ r ∈ l, P r → c < sx ε r → sx ε q ≤ sx ε r := by
  classical
  obtain ⟨q0, h0, h1, h2⟩ := h
  obtain ⟨q, hq, hmin⟩ := (l.toFinset.filter fun q => P q ∧ c < sx ε q).exists_min_image (sx ε) ⟨q0, by simp [*]⟩
  simp only [Finset.mem_filter, List.mem_toFinset] at hq hmin
  exact ⟨q, hq.1, hq.2.1, hq.2.2, fun r a b e => hmin r ⟨a, b, e⟩⟩

/-- Places between consecutive vertices on a segment have the same parity as the middle. -/
theorem St.par_middle {Ex : ℕ → ℕ → Prop} (S : St ε Pt Y s L F p Ex) {k : ℕ} (hk : k < s.heap.count) {o : Bool}
    (hd : ∀ x, deg (absSeg ε s.heap) s.heap.count o x = 0) {c : ℚ} (hc : Act c (absSeg ε s.heap k)) :
    ∃ q ∈ Pt, ∃ q' ∈ Pt, middle q q' ∈ (s.heap.segment k).pts ∧ ¬ middle q q' ∈ Pt ∧
      par (absSeg ε s.heap) s.heap.count o c (absSeg ε s.heap k) =
        par (absSeg ε s.heap) s.heap.count o (sx ε (middle q q')) (absSeg ε s.heap k) := by
  have I := S.inv'
  have pk := I.proper k hk
  have m1 : s.heap.start k ∈ (s.heap.segment k).pts := by
    rw [mem_segment pk]; exact ⟨le_rfl, pk.le, abs_ya k⟩
  have m2 : s.heap.stop k ∈ (s.heap.segment k).pts := by
    rw [mem_segment pk]; exact ⟨pk.le, le_rfl, abs_yb pk⟩
  obtain ⟨q, q1, q2, q3, q4⟩ := exists_last (ε := ε) Pt (fun q => q ∈ (s.heap.segment k).pts) c
    ⟨s.heap.start k, (S.pts.mem k hk).1, m1, hc.1⟩
  obtain ⟨q', r1, r2, r3, r4⟩ := exists_next (ε := ε) Pt (fun q => q ∈ (s.heap.segment k).pts) c
    ⟨s.heap.stop k, (S.pts.mem k hk).2, m2, hc.2⟩
  have i1 := (mem_segment pk).1 q2
  have i2 := (mem_segment pk).1 r2
  have hmid := sx_middle (ε := ε) q q'
  have hmem : middle q q' ∈ (s.heap.segment k).pts := by
    rw [mem_segment pk, hmid]
    refine ⟨by linarith, by linarith, ?_⟩
    have e1 := i1.2.2
    have e2 := i2.2.2
    simp only [Seg.y, middle] at e1 e2 ⊢
    linear_combination (e1 + e2) / 2
  -- nothing happens on the segment between these points
  have free : ∀ c', sx ε q < c' → c' < sx ε q' → ∀ r ∈ Pt, r ∈ (s.heap.segment k).pts → sx ε r ≠ c' := by
    rintro c' h1 h2 r hr hrk rfl
    rcases le_or_gt (sx ε r) c with h | h
    · linarith [q4 r hr hrk h]
    · linarith [r4 r hr hrk h]
  have const : ∀ v, sx ε q ≤ v → v < sx ε q' →
      par (absSeg ε s.heap) s.heap.count o (sx ε q) (absSeg ε s.heap k) =
        par (absSeg ε s.heap) s.heap.count o v (absSeg ε s.heap k) := by
    intro v hv1 hv2
    have key : ∀ j < s.heap.count, ∀ c', sx ε q < c' → c' ≤ v → (absSeg ε s.heap j).a ≤ c' →
        c' ≤ (absSeg ε s.heap j).b → (absSeg ε s.heap j).y c' = (absSeg ε s.heap k).y c' →
        Col (absSeg ε s.heap j) (absSeg ε s.heap k) ∧ (absSeg ε s.heap j).a < c' ∧ c' < (absSeg ε s.heap j).b := by
      intro j hj c' h1 h2 h3 h4 h5
      obtain ⟨r, ra, rb, rfl⟩ := (com_seg (I.proper j hj) pk).1 (⟨h3, h4, by linarith, by linarith, h5⟩ :
        Com (absSeg ε s.heap j) (absSeg ε s.heap k) c')
      have hr : r ∉ Pt := fun hr => free (sx ε r) h1 (by linarith) r hr rb rfl
      refine ⟨?_, ?_, ?_⟩
      · by_contra hcol
        exact hr (S.pts.cross j hj k hk hcol r ra rb)
      · refine lt_of_le_of_ne h3 fun e => hr ?_
        have : s.heap.start j = r := pt_eq e (by
          rw [← ((mem_segment (I.proper j hj)).1 ra).2.2, ← e]; exact (abs_ya j).symm)
        rw [← this]; exact (S.pts.mem j hj).1
      · refine lt_of_le_of_ne h4 fun e => hr ?_
        have : r = s.heap.stop j := pt_eq e (by
          rw [← ((mem_segment (I.proper j hj)).1 ra).2.2, e]; exact abs_yb (I.proper j hj))
        rw [this]; exact (S.pts.mem j hj).2
    refine par_const hv1 hd I.proper I.endsY ?_ ?_ ?_ ?_
    · intro j hj _ c' h1 h2 h3 h4 h5
      exact key j hj c' h1 h2.le h3 h4 h5
    · intro hlt j hj _ h1 h2 h3
      exact (key j hj v hlt le_rfl h1.le h2.le h3).1
    · intro hlt j hj _ h1 h2
      exact absurd h1 (key j hj v hlt le_rfl (by rw [← h1]; exact (I.proper j hj).le) h1.ge h2).2.2.ne'
    · intro hlt j hj _ h1 h2
      exact absurd h1 (key j hj v hlt le_rfl h1.le (by rw [← h1]; exact (I.proper j hj).le) h2).2.1.ne
  refine ⟨q, q1, q', r1, hmem, ?_, ?_⟩
  · intro h
    exact free _ (by rw [hmid]; linarith) (by rw [hmid]; linarith) _ h hmem rfl
  · rw [← const c q3 r3]
    exact const _ (by rw [hmid]; linarith) (by rw [hmid]; linarith)

theorem isBelow_lo_hi (e : Segment) (m : Point) : IsBelow ⟨e.lo, e.hi⟩ m ↔ IsBelow e m := by
  unfold IsBelow
  simp [Segment.lo, Segment.hi]

/-- the payload of new events -/
theorem register_data {P : Payload α} {s : Store α} {l : List (Segment × Bool)} (f : Fresh s l)
    (hd : ∀ k x, l[k]? = some x → (s.heap.lefts k).data = P.create (!decide (x.1.stop < x.1.start)))
    (segs : List Segment) (b : Bool) : ∀ k x, (l ++ segs.map fun t => (t, b))[k]? = some x →
      ((register P s segs b).heap.lefts k).data = P.create (!decide (x.1.stop < x.1.start)) := by
  induction segs generalizing s l with
  | nil => simpa [Clipping.register] using hd
  | cons t ts ih =>
    have := ih (f.create (P := P) t b) (by
      intro k x h
      by_cases hk : k < l.length
      · rw [List.getElem?_append_left hk] at h
        have hne : k ≠ s.heap.count := by rw [f.count]; omega
        have := hd k x h
        simpa [Heap.create, Function.update_of_ne hne] using this
      · rw [List.getElem?_append_right (by omega)] at h
        have hk' : k = l.length := by
          rcases Nat.lt_or_ge 0 (k - l.length) with g | g
          · rw [List.getElem?_eq_none (by simp; omega)] at h; cases h
          · omega
        subst hk'
        simp only [Nat.sub_self, List.getElem?_cons_zero, Option.some.injEq] at h
        subst h
        simp [Heap.create, ← f.count])
    simpa [Clipping.register] using this

theorem init_data (P : Payload α) (d : α) (first second : List Segment) :
    ∀ k x, (marked first second)[k]? = some x →
      ((initStore P d first second).heap.lefts k).data = P.create (!decide (x.1.stop < x.1.start)) := by
  have h0 := register_data (P := P) (fresh_nothing d) (by simp) first true
  have h1 := register_data ((fresh_nothing d).register (P := P) first true) h0 second false
  simpa [initStore, marked] using h1

end Sweep

open Sweep

variable {α κ : Type} {O : Ops α} (f : Flags O κ) {ε : ℚ} {Pt : List Point} {Y : ℚ → ℚ} {p : ℚ}

theorem mem_marked' {a b : List Segment} {x : Segment × Bool} :
    x ∈ marked a b ↔ (x.1 ∈ a ∧ x.2 = true) ∨ (x.1 ∈ b ∧ x.2 = false) := by
  unfold marked
  obtain ⟨s, c⟩ := x
  simp only [List.mem_append, List.mem_map, Prod.mk.injEq]
  constructor
  · rintro (⟨t, h, rfl, rfl⟩ | ⟨t, h, rfl, rfl⟩)
    · exact Or.inl ⟨h, rfl⟩
    · exact Or.inr ⟨h, rfl⟩
  · rintro (⟨h, rfl⟩ | ⟨h, rfl⟩)
    · exact Or.inl ⟨s, h, rfl, rfl⟩
    · exact Or.inr ⟨s, h, rfl, rfl⟩

/-- Number of edges below a point, before the sweep. -/
theorem below_init (P : Payload α) (d : α) (first second : List Segment) (o : Bool) (m : Point) :
    ∑ k ∈ Finset.range (initStore P d first second).heap.count, ind ((initStore P d first second).heap.first k = o ∧
      IsBelow ((initStore P d first second).heap.segment k) m) = ind (Inside (operand first second o) m) := by
  have fr := fresh_init P d first second
  unfold Inside
  rw [← ind_countP, ← countP_marked, fr.count]
  refine sum_countP _ _ _ ?_
  intro k x hx
  rw [fr.segment hx, isBelow_lo_hi, (fr.get k x hx).2.2.2.2]
  simp

/-- Points which are no vertices are inner points of segments. -/
theorem Sweep.St.inner {s : Store α} {L F : List ℕ} {Ex : ℕ → ℕ → Prop} (S : St ε Pt Y s L F p Ex) {m : Point} (hmp : m ∉ Pt)
    {k : ℕ} (hk : k < s.heap.count) (hmk : m ∈ (s.heap.segment k).pts) :
    (absSeg ε s.heap k).a < sx ε m ∧ sx ε m < (absSeg ε s.heap k).b := by
  have I := S.inv'
  have h := (mem_segment (I.proper k hk)).1 hmk
  constructor
  · refine lt_of_le_of_ne h.1 fun e => hmp ?_
    have : s.heap.start k = m := pt_eq e (by rw [← h.2.2, ← e]; exact (abs_ya k).symm)
    rw [← this]; exact (S.pts.mem k hk).1
  · refine lt_of_le_of_ne h.2.1 fun e => hmp ?_
    have : m = s.heap.stop k := pt_eq e (by rw [← h.2.2, e]; exact abs_yb (I.proper k hk))
    rw [this]; exact (S.pts.mem k hk).2

/-- Segments with a common point which is no vertex are collinear. -/
theorem Sweep.St.col_point {s : Store α} {L F : List ℕ} {Ex : ℕ → ℕ → Prop} (S : St ε Pt Y s L F p Ex) {m : Point}
    (hmp : m ∉ Pt) {j k : ℕ} (hj : j < s.heap.count) (hk : k < s.heap.count) (hmj : m ∈ (s.heap.segment j).pts)
    (hmk : m ∈ (s.heap.segment k).pts) : Col (absSeg ε s.heap j) (absSeg ε s.heap k) := by
  by_contra hc
  exact hmp (S.pts.cross j hj k hk hc m hmj hmk)

/-- Such a point is on one segment of an operand only. -/
theorem Sweep.St.unique_point {s : Store α} {L F : List ℕ} {Ex : ℕ → ℕ → Prop} (S : St ε Pt Y s L F p Ex) {m : Point}
    (hmp : m ∉ Pt) {j k : ℕ} (hj : j < s.heap.count) (hk : k < s.heap.count) (hmj : m ∈ (s.heap.segment j).pts)
    (hmk : m ∈ (s.heap.segment k).pts) (hf : s.heap.first j = s.heap.first k) : j = k := by
  by_contra hne
  have i1 := S.inner hmp hj hmj
  have i2 := S.inner hmp hk hmk
  rcases S.inv'.noOv j hj k hk hne (S.col_point hmp hj hk hmj hmk) hf with h | h <;> linarith

theorem mem_operand {first second : List Segment} {o : Bool} {e : Segment} (h : e ∈ operand first second o) :
    ∃ k : ℕ, (marked first second)[k]? = some (e, o) := by
  have : (e, o) ∈ marked first second := by
    unfold operand at h
    unfold marked
    cases o <;> simp at h ⊢ <;> exact h
  obtain ⟨k, hk, e'⟩ := List.mem_iff_getElem.1 this
  exact ⟨k, by rw [List.getElem?_eq_getElem hk, e']⟩

theorem operand_mem {first second : List Segment} {k : ℕ} {x : Segment × Bool}
    (hx : (marked first second)[k]? = some x) : x.1 ∈ operand first second x.2 := by
  have := List.mem_of_getElem? hx
  rcases mem_marked'.1 this with ⟨h1, h2⟩ | ⟨h1, h2⟩ <;> rw [h2] <;> exact h1

/-- The edges of a region satisfy the conditions for the sides. -/
theorem region_init {d : α} {first second : List Segment} {o : Bool}
    (S : St ε Pt Y (initStore O.toPayload d first second) [] [] p NoEx) {X : List Point} (ho : Orders ε (Pt ++ X))
    (hX : ∀ q ∈ Pt, ∀ q' ∈ Pt, middle q q' ∈ X) (hE : IsBoundary (operand first second o)) :
    RegionOk f ε o (initStore O.toPayload d first second) := by
  classical
  set s := initStore O.toPayload d first second with hs
  have fr := fresh_init O.toPayload d first second
  have I := S.inv'
  have get : ∀ k < s.heap.count, ∃ x, (marked first second)[k]? = some x := by
    intro k hk
    rw [hs, fr.count] at hk
    exact ⟨_, List.getElem?_eq_getElem hk⟩
  have hdeg : ∀ x, deg (absSeg ε s.heap) s.heap.count o x = 0 := by
    intro x
    by_cases hq : ∃ q ∈ Pt, sx ε q = x
    · obtain ⟨q, hq, rfl⟩ := hq
      have h2 : ((degree (operand first second o) q : ℕ) : ZMod 2) = 0 :=
        ZMod.natCast_eq_zero_iff_even.2 (hE.even q)
      rw [← h2]
      unfold deg degree
      rw [Nat.cast_add, Finset.sum_add_distrib, ← countP_marked, ← countP_marked]
      rw [← sum_countP (marked first second) _ (fun k => ∃ x, (marked first second)[k]? = some x ∧ x.2 = o ∧ x.1.start = q),
        ← sum_countP (marked first second) _ (fun k => ∃ x, (marked first second)[k]? = some x ∧ x.2 = o ∧ x.1.stop = q),
        ← fr.count, ← Finset.sum_add_distrib, ← Finset.sum_add_distrib]
      · refine Finset.sum_congr rfl fun k hk => ?_
        rw [Finset.mem_range] at hk
        obtain ⟨x, hx⟩ := get k hk
        obtain ⟨g1, g2, g3, g4, g5⟩ := fr.get k x hx
        have e0 : ((absSeg ε s.heap k).ff = o) = (x.2 = o) := by rw [← g5]; rfl
        have e1 : (absSeg ε s.heap k).a = sx ε q ↔ x.1.lo = q := by
          rw [abs_a, ← S.pts.ord.eq_iff (S.pts.mem k hk).1 hq, ← g1]
        have e2 : (absSeg ε s.heap k).b = sx ε q ↔ x.1.hi = q := by
          rw [abs_b, ← S.pts.ord.eq_iff (S.pts.mem k hk).2 hq]
          rw [show s.heap.stop k = x.1.hi from congrArg Segment.stop (fr.segment hx)]
        have ex : ∀ P : Segment → Prop, (∃ y, (marked first second)[k]? = some y ∧ y.2 = o ∧ P y.1) ↔ (x.2 = o ∧ P x.1) := by
          intro P
          constructor
          · rintro ⟨y, h1, h2⟩
            rw [hx] at h1
            cases h1
            exact h2
          · intro h; exact ⟨x, hx, h⟩
        rw [ind_congr (ex fun t => t.start = q), ind_congr (ex fun t => t.stop = q), e0, e1, e2]
        unfold Segment.lo Segment.hi
        rcases le_total x.1.start x.1.stop with h | h
        · rw [min_eq_left h, max_eq_right h]
        · rw [min_eq_right h, max_eq_left h, add_comm]
      · intro k x hx
        simp [hx]
      · intro k x hx
        simp [hx]
    · unfold deg
      refine Finset.sum_eq_zero fun k hk => ?_
      rw [Finset.mem_range] at hk
      rw [ind_neg, ind_neg, add_zero]
      · rintro ⟨-, h⟩
        exact hq ⟨_, (S.pts.mem k hk).2, h⟩
      · rintro ⟨-, h⟩
        exact hq ⟨_, (S.pts.mem k hk).1, h⟩
  refine ⟨hdeg, ?_⟩
  intro k hk hf c hc
  obtain ⟨q, hq, q', hq', hm, hmp, e⟩ := S.par_middle hk hdeg hc
  set m := middle q q' with hmm
  rw [e]
  obtain ⟨x, hx⟩ := get k hk
  have hxo : x.2 = o := by rw [← (fr.get k x hx).2.2.2.2]; exact hf
  have hmx : m ∈ x.1.pts := by rw [fr.segment hx, pts_lo_hi] at hm; exact hm
  rw [S.par_point ho (hX q hq q' hq') hmp ((mem_segment (I.proper k hk)).1 hm).2.2
    (fun j hj _ hmj => S.col_point hmp hj hk hmj hm), below_init,
    ind_neg (P := o = true ∧ _) (by
      rintro ⟨h1, h2, -⟩
      have : s.heap.first k = false := h2
      rw [hf, h1] at this; cases this), add_zero, ← ind_not]
  apply ind_congr
  have hE' := hE.left x.1 (by rw [← hxo]; exact operand_mem hx) m hmx (by
    intro h
    have i1 := S.inner hmp hk hm
    rw [Segment.isEnd_iff] at h
    have g1 : s.heap.start k = x.1.lo := congrArg Segment.start (fr.segment hx)
    have g2 : s.heap.stop k = x.1.hi := congrArg Segment.stop (fr.segment hx)
    rcases h with h | h
    · rw [abs_a, g1, ← h] at i1; exact lt_irrefl _ i1.1
    · rw [abs_b, g2, ← h] at i1; exact lt_irrefl _ i1.2) (by
    intro e he hme
    obtain ⟨j, hj⟩ := mem_operand he
    have hjn : j < s.heap.count := by
      rw [hs, fr.count]; exact (List.getElem?_eq_some_iff.1 hj).1
    have : j = k := S.unique_point hmp hjn hk (by rw [fr.segment hj, pts_lo_hi]; exact hme) hm (by
      rw [hf]; exact (fr.get j _ hj).2.2.2.2)
    subst this
    rw [hx] at hj
    cases hj
    rfl)
  rw [← hE']
  unfold Flags.I
  rw [init_data O.toPayload d first second k x hx, f.create_itl]
  have hp : x.1.Proper := hE.noOverlap.1 x.1 (by rw [← hxo]; exact operand_mem hx)
  simp only [Bool.not_eq_true', decide_eq_false_iff_not, not_lt]
  exact ⟨fun h => lt_of_le_of_ne h hp, fun h => h.le⟩

end Clipping

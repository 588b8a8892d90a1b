import Verif.Lemmas.Sweep.Loop
import Verif.Lemmas.Relation
import Verif.Lemmas.Intersection
import Verif.Lemmas.Pieces
import Verif.Spec.Arrangement

/-!
# The initial state satisfies the invariant
-/

namespace Clipping.Sweep

variable {α : Type}

/-- The store right after the segments `l` have been registered; the mark tells the operand. -/
structure Fresh (s : Store α) (l : List (Segment × Bool)) : Prop where
  count : s.heap.count = l.length
  get : ∀ k x, l[k]? = some x → s.heap.start k = x.1.lo ∧ (s.heap.lefts k).right = k ∧
    (s.heap.rights k).left = k ∧ (s.heap.rights k).start = x.1.hi ∧ s.heap.first k = x.2
  nodup : s.queue.Nodup
  mem : ∀ e, e ∈ s.queue ↔ EvOk s.heap e
  length : s.queue.length = 2 * l.length

theorem fresh_nothing (d : α) : Fresh ⟨Heap.nothing d, []⟩ [] := by
  refine ⟨rfl, ?_, List.nodup_nil, ?_, rfl⟩
  · intro k x h; simp at h
  · intro e
    cases e <;> simp [EvOk, Heap.nothing]

theorem Fresh.create {P : Payload α} {s : Store α} {l : List (Segment × Bool)} (f : Fresh s l) (t : Segment)
    (b : Bool) : Fresh
      { heap := s.heap.create P.create t b
        queue := s.queue ++ [.left s.heap.count, .right s.heap.count] } (l ++ [(t, b)]) := by
  refine ⟨?_, ?_, ?_, ?_, ?_⟩
  · simp [Heap.create, f.count]
  · intro k x h
    by_cases hk : k < l.length
    · rw [List.getElem?_append_left hk] at h
      have hne : k ≠ s.heap.count := by rw [f.count]; omega
      have := f.get k x h
      simpa [Heap.create, Heap.start, Heap.first, Function.update_of_ne hne] using this
    · rw [List.getElem?_append_right (by omega)] at h
      have hk' : k = l.length := by
        rcases Nat.lt_or_ge 0 (k - l.length) with g | g
        · rw [List.getElem?_eq_none (by simp; omega)] at h; cases h
        · omega
      subst hk'
      simp only [Nat.sub_self, List.getElem?_cons_zero, Option.some.injEq] at h
      subst h
      simp only [Heap.create, Heap.start, Heap.first, ← f.count, Function.update_self, Segment.lo,
        Segment.hi, min_def, max_def]
      refine ⟨?_, trivial, trivial, ?_, trivial⟩
      · by_cases h : t.stop < t.start
        · simp [h]
        · simp [h, not_lt.1 h]
      · by_cases h : t.stop < t.start
        · simp [h]
        · simp [h, not_lt.1 h]
  · rw [List.nodup_append]
    refine ⟨f.nodup, by simp, ?_⟩
    intro a ha c hc he
    subst he
    rw [f.mem] at ha
    simp only [List.mem_cons, List.not_mem_nil, or_false] at hc
    rcases hc with rfl | rfl <;> simp [EvOk] at ha
  · intro e
    simp only [List.mem_append, f.mem, List.mem_cons, List.not_mem_nil, or_false]
    cases e <;> simp [EvOk, Heap.create] <;> omega
  · simp [f.length]; omega

theorem Fresh.register {P : Payload α} {s : Store α} {l : List (Segment × Bool)} (f : Fresh s l)
    (segs : List Segment) (b : Bool) : Fresh (register P s segs b) (l ++ segs.map fun t => (t, b)) := by
  induction segs generalizing s l with
  | nil => simpa [Clipping.register] using f
  | cons t ts ih =>
    have := ih (f.create (P := P) t b)
    simpa [Clipping.register] using this

/-- The segments of both operands with their marks. -/
def marked (first second : List Segment) : List (Segment × Bool) :=
  (first.map fun t => (t, true)) ++ second.map fun t => (t, false)

/-- the store before the loop -/
def initStore (P : Payload α) (d : α) (first second : List Segment) : Store α :=
  register P (register P ⟨Heap.nothing d, []⟩ first true) second false

theorem fresh_init (P : Payload α) (d : α) (first second : List Segment) :
    Fresh (initStore P d first second) (marked first second) := by
  have := ((fresh_nothing d).register (P := P) first true).register (P := P) second false
  simpa [initStore, marked] using this

/-- The segments have exactly one common point. -/
def meets (s t : Segment) : Bool :=
  match segmentsRelation s t with
  | .touch => true
  | .cross => true
  | _ => false

/-- End points and points of intersection. -/
def points (l : List Segment) : List Point :=
  (l.flatMap fun s => [s.start, s.stop]) ++
    l.flatMap fun s => (l.filter (meets s)).map fun t => segmentsIntersection s t

theorem length_flatMap_le {β γ : Type} (l : List β) (f : β → List γ) (k : ℕ)
    (h : ∀ x ∈ l, (f x).length ≤ k) : (l.flatMap f).length ≤ l.length * k := by
  induction l with
  | nil => simp
  | cons x l ih =>
    rw [List.flatMap_cons, List.length_append, List.length_cons, Nat.add_mul, Nat.one_mul, Nat.add_comm]
    exact Nat.add_le_add (ih fun y hy => h y (by simp [hy])) (h x (by simp))

theorem points_length (l : List Segment) : (points l).length ≤ 2 * l.length + l.length * l.length := by
  unfold points
  rw [List.length_append]
  have h1 := length_flatMap_le l (fun s => [s.start, s.stop]) 2 (by simp)
  have h2 := length_flatMap_le l (fun s => (l.filter (meets s)).map fun t => segmentsIntersection s t) l.length
    (fun x _ => by rw [List.length_map]; exact List.length_filter_le _ _)
  omega

theorem meets_iff {s t : Segment} :
    meets s t = true ↔ segmentsRelation s t = .touch ∨ segmentsRelation s t = .cross := by
  unfold meets
  cases segmentsRelation s t <;> simp

/-- These points are vertices of the arrangement. -/
theorem points_vertex {l : List Segment} (hl : ∀ s ∈ l, s.Proper) {p : Point} (h : p ∈ points l) :
    Vertex l p := by
  unfold points at h
  rcases List.mem_append.1 h with h | h
  · obtain ⟨s, hs, hp⟩ := List.mem_flatMap.1 h
    left
    exact ⟨s, hs, by simpa [Segment.IsEnd] using hp⟩
  · obtain ⟨s, hs, hp⟩ := List.mem_flatMap.1 h
    obtain ⟨t, ht, rfl⟩ := List.mem_map.1 hp
    rw [List.mem_filter] at ht
    have := intersection_spec (hl s hs) (hl t ht.1) (meets_iff.1 ht.2)
    right
    refine ⟨s, hs, t, ht.1, ?_⟩
    ext q
    constructor
    · rintro ⟨h1, h2⟩; exact this.2.2 q h1 h2
    · rintro rfl; exact ⟨this.1, this.2.1⟩

theorem mem_points_end {l : List Segment} {s : Segment} (h : s ∈ l) : s.lo ∈ points l ∧ s.hi ∈ points l := by
  have h1 : s.start ∈ points l := by
    unfold points
    exact List.mem_append_left _ (List.mem_flatMap.2 ⟨s, h, by simp⟩)
  have h2 : s.stop ∈ points l := by
    unfold points
    exact List.mem_append_left _ (List.mem_flatMap.2 ⟨s, h, by simp⟩)
  unfold Segment.lo Segment.hi
  constructor
  · rcases min_choice s.start s.stop with e | e <;> rw [e] <;> assumption
  · rcases max_choice s.start s.stop with e | e <;> rw [e] <;> assumption

theorem mem_points_cross {l : List Segment} {s t : Segment} (h : s ∈ l) (g : t ∈ l)
    (hm : segmentsRelation s t = .touch ∨ segmentsRelation s t = .cross) :
    segmentsIntersection s t ∈ points l := by
  unfold points
  exact List.mem_append_right _ (List.mem_flatMap.2 ⟨s, h, List.mem_map_of_mem (f := segmentsIntersection s)
    (List.mem_filter.2 ⟨g, meets_iff.2 hm⟩)⟩)

/-- the ordinate of the point with the given abscissa -/
noncomputable def ordinate (ε : ℚ) (Pt : List Point) (c : ℚ) : ℚ :=
  open Classical in if h : ∃ q ∈ Pt, sx ε q = c then h.choose.y else 0

theorem ordinate_eq {ε : ℚ} {Pt : List Point} (h : Orders ε Pt) {q : Point} (hq : q ∈ Pt) :
    ordinate ε Pt (sx ε q) = q.y := by
  have hex : ∃ q' ∈ Pt, sx ε q' = sx ε q := ⟨q, hq, rfl⟩
  unfold ordinate
  rw [dif_pos hex]
  have := hex.choose_spec
  rw [(h.eq_iff this.1 hq).2 this.2]

theorem exists_lower (ε : ℚ) (Pt : List Point) : ∃ p, ∀ q ∈ Pt, p ≤ sx ε q := by
  induction Pt with
  | nil => exact ⟨0, by simp⟩
  | cons x l ih =>
    obtain ⟨p, hp⟩ := ih
    refine ⟨min p (sx ε x), ?_⟩
    intro q hq
    rcases List.mem_cons.1 hq with rfl | hq
    · exact min_le_right _ _
    · exact (min_le_left _ _).trans (hp q hq)

/-- `segments_relation` of segments with a common point which are not on one line. -/
theorem relation_not_collinear {s t : Segment} (hs : s.Proper) (ht : t.Proper) (hc : ¬ SameLine s t)
    {q : Point} (h1 : q ∈ s.pts) (h2 : q ∈ t.pts) : q = segmentsIntersection s t ∧
      (segmentsRelation s t = .touch ∨ segmentsRelation s t = .cross) := by
  have hm := relation_spec hs ht
  have key : segmentsRelation s t = .touch ∨ segmentsRelation s t = .cross := by
    cases hr : segmentsRelation s t <;> rw [hr] at hm
    · exact absurd h2 (hm q h1)
    all_goals first | (left; rfl) | (right; rfl) | exfalso
    all_goals first | exact hc hm.1 | skip
    · refine hc ?_
      unfold SameLine
      rw [← hm.1, ← hm.2]
      simp [cross]
      ring
  exact ⟨(intersection_spec hs ht key).2.2 q h1 h2, key⟩

/-- No two segments of one operand overlap. -/
def OperandsOk (l : List (Segment × Bool)) : Prop :=
  (∀ x ∈ l, x.1.Proper) ∧ l.Pairwise fun x y => x.2 = y.2 → ¬ Overlapping x.1 y.1

theorem pts_lo_hi (s : Segment) : (Segment.mk s.lo s.hi).pts = s.pts :=
  pts_eq_of_lo_hi (by simp [Segment.lo, Segment.hi]) (by simp [Segment.lo, Segment.hi])

variable {s : Store α} {l : List (Segment × Bool)}

theorem Fresh.segment (f : Fresh s l) {k : ℕ} {x : Segment × Bool} (h : l[k]? = some x) :
    s.heap.segment k = ⟨x.1.lo, x.1.hi⟩ := by
  obtain ⟨a, b, c, d, e⟩ := f.get k x h
  unfold Heap.segment Heap.stop
  rw [a, b, d]

theorem Fresh.heapOk (f : Fresh s l) : HeapOk s.heap := by
  have g : ∀ k < s.heap.count, (s.heap.lefts k).right = k ∧ (s.heap.rights k).left = k := by
    intro k hk
    rw [f.count] at hk
    have := f.get k _ (List.getElem?_eq_getElem hk)
    exact ⟨this.2.1, this.2.2.1⟩
  refine ⟨?_, ?_, ?_, ?_⟩
  · intro i hi; rw [(g i hi).1]; exact hi
  · intro i hi; rw [(g i hi).2]; exact hi
  · intro i hi; rw [(g i hi).1, (g i hi).2]
  · intro i hi; rw [(g i hi).2, (g i hi).1]

theorem lo_lt_hi {s : Segment} (h : s.Proper) : s.lo < s.hi := by
  unfold Segment.lo Segment.hi
  exact min_lt_max.2 h

/-- the points of the operands -/
theorem Fresh.opPts (f : Fresh s l) (b : Bool) :
    opPts s.heap b = {q | ∃ x ∈ l, x.2 = b ∧ q ∈ x.1.pts} := by
  ext q
  constructor
  · rintro ⟨i, hi, hb, hq⟩
    rw [f.count] at hi
    have hx := List.getElem?_eq_getElem hi
    rw [f.segment hx, pts_lo_hi] at hq
    exact ⟨_, List.getElem_mem hi, by rw [← hb, (f.get i _ hx).2.2.2.2], hq⟩
  · rintro ⟨x, hx, hb, hq⟩
    obtain ⟨i, hi, rfl⟩ := List.mem_iff_getElem.1 hx
    have hx := List.getElem?_eq_getElem hi
    refine ⟨i, by rw [f.count]; exact hi, by rw [(f.get i _ hx).2.2.2.2]; exact hb, ?_⟩
    rw [f.segment hx, pts_lo_hi]; exact hq

/-- The invariant holds before the loop. -/
theorem Fresh.stAt (f : Fresh s l) (ok : OperandsOk l) {ε : ℚ} (ho : Orders ε (points (l.map Prod.fst))) :
    ∃ Y p, St ε (points (l.map Prod.fst)) Y s [] [] p NoEx ∧
      (∀ q ∈ points (l.map Prod.fst), Vertex (l.map Prod.fst) q) ∧
      potential ε (points (l.map Prod.fst)) s ≤
        2 * (l.length + l.length * (2 * l.length + l.length * l.length)) := by
  set Pt := points (l.map Prod.fst) with hPt
  obtain ⟨p, hp⟩ := exists_lower ε Pt
  have hk : ∀ k < s.heap.count, ∃ x ∈ l, l[k]? = some x := by
    intro k hk
    rw [f.count] at hk
    exact ⟨_, List.getElem_mem hk, List.getElem?_eq_getElem hk⟩
  have mem : ∀ k < s.heap.count, s.heap.start k ∈ Pt ∧ s.heap.stop k ∈ Pt := by
    intro k hk'
    obtain ⟨x, hx, hxk⟩ := hk k hk'
    have e := f.segment hxk
    have e1 : s.heap.start k = x.1.lo := congrArg Segment.start e
    have e2 : s.heap.stop k = x.1.hi := congrArg Segment.stop e
    rw [e1, e2]
    exact mem_points_end (List.mem_map_of_mem (f := Prod.fst) hx)
  have lt : ∀ k < s.heap.count, s.heap.start k < s.heap.stop k := by
    intro k hk'
    obtain ⟨x, hx, hxk⟩ := hk k hk'
    have e := f.segment hxk
    have e1 : s.heap.start k = x.1.lo := congrArg Segment.start e
    have e2 : s.heap.stop k = x.1.hi := congrArg Segment.stop e
    rw [e1, e2]
    exact lo_lt_hi (ok.1 x hx)
  have proper : ∀ k < s.heap.count, (absSeg ε s.heap k).a < (absSeg ε s.heap k).b := by
    intro k hk'
    exact ho _ (mem k hk').1 _ (mem k hk').2 (lt k hk')
  have cross : ∀ i < s.heap.count, ∀ j < s.heap.count, ¬ Col (absSeg ε s.heap i) (absSeg ε s.heap j) →
      ∀ q, q ∈ (s.heap.segment i).pts → q ∈ (s.heap.segment j).pts → q ∈ Pt := by
    intro i hi j hj hc q hq1 hq2
    obtain ⟨x, hx, hxi⟩ := hk i hi
    obtain ⟨y, hy, hyj⟩ := hk j hj
    rw [← sameLine_iff (proper i hi) (proper j hj) (lt i hi) (lt j hj)] at hc
    rw [f.segment hxi] at hc hq1
    rw [f.segment hyj] at hc hq2
    rw [pts_lo_hi] at hq1 hq2
    have hc' : ¬ SameLine x.1 y.1 := by
      intro h
      apply hc
      unfold SameLine at h ⊢
      simpa [Segment.lo, Segment.hi] using h
    obtain ⟨e1, e2⟩ := relation_not_collinear (ok.1 x hx) (ok.1 y hy) hc' hq1 hq2
    rw [e1]
    exact mem_points_cross (List.mem_map_of_mem (f := Prod.fst) hx) (List.mem_map_of_mem (f := Prod.fst) hy) e2
  refine ⟨ordinate ε Pt, p, ⟨f.heapOk, ⟨ho, mem, cross⟩, ⟨f.nodup, ?_, ?_⟩, absSeg ε s.heap,
    fun i _ => rfl, ?_⟩, fun q hq => points_vertex (by
      intro t ht
      obtain ⟨x, hx, rfl⟩ := List.mem_map.1 ht
      exact ok.1 x hx) hq, ?_⟩
  · intro i; rw [f.mem]; simp [EvOk]
  · intro i; rw [f.mem]; simp [EvOk]
  · constructor
    · simp
    · simp
    · exact proper
    · intro i hi _ _
      exact hp _ (mem i hi).1
    · simp
    · simp
    · intro i hi
      rw [abs_a, abs_b, abs_ya, abs_yb (proper i hi), ordinate_eq ho (mem i hi).1,
        ordinate_eq ho (mem i hi).2]
      exact ⟨rfl, rfl⟩
    · intro i hi j hj hc c hcom
      obtain ⟨q, h1, h2, rfl⟩ := (com_seg (proper i hi) (proper j hj)).1 hcom
      have := cross i hi j hj hc q h1 h2
      rw [ordinate_eq ho this]
      exact ((mem_segment (proper i hi)).1 h1).2.2
    · intro i hi j hj hij hc hff
      by_contra hn
      push Not at hn
      obtain ⟨x, hx, hxi⟩ := hk i hi
      obtain ⟨y, hy, hyj⟩ := hk j hj
      have hov : Overlapping (s.heap.segment i) (s.heap.segment j) := by
        set a := max (absSeg ε s.heap i).a (absSeg ε s.heap j).a
        set b := min (absSeg ε s.heap i).b (absSeg ε s.heap j).b
        have hab : a < b := by
          rw [max_lt_iff, lt_min_iff, lt_min_iff]
          exact ⟨⟨proper i hi, hn.2⟩, hn.1, proper j hj⟩
        have g : ∀ c, a ≤ c → c ≤ b → pointAt ε c ((absSeg ε s.heap i).y c) ∈ (s.heap.segment i).pts ∧
            pointAt ε c ((absSeg ε s.heap i).y c) ∈ (s.heap.segment j).pts := by
          intro c h1 h2
          rw [mem_segment (proper i hi), mem_segment (proper j hj), sx_pointAt, y_pointAt, hc.y]
          have := max_le_iff.1 h1
          have := le_min_iff.1 h2
          tauto
        refine ⟨pointAt ε a ((absSeg ε s.heap i).y a), pointAt ε b ((absSeg ε s.heap i).y b), ?_,
          (g a le_rfl hab.le).1, (g b hab.le le_rfl).1, (g a le_rfl hab.le).2, (g b hab.le le_rfl).2⟩
        intro e
        have := congrArg (sx ε) e
        rw [sx_pointAt, sx_pointAt] at this
        exact hab.ne this
      have sym : ∀ u v : Segment, Overlapping u v → Overlapping v u := by
        rintro u v ⟨p, q, a, b, c, d, e⟩; exact ⟨p, q, a, d, e, b, c⟩
      have hov' : Overlapping x.1 y.1 := by
        rw [f.segment hxi, f.segment hyj] at hov
        unfold Overlapping at hov ⊢
        simpa only [pts_lo_hi] using hov
      have fe : x.2 = y.2 := by
        have e1 := (f.get i x hxi).2.2.2.2
        have e2 := (f.get j y hyj).2.2.2.2
        rw [← e1, ← e2]; exact hff
      rw [f.count] at hi hj
      rw [List.getElem?_eq_getElem hi, Option.some.injEq] at hxi
      rw [List.getElem?_eq_getElem hj, Option.some.injEq] at hyj
      rcases lt_or_gt_of_ne hij with h | h
      · have := List.pairwise_iff_getElem.1 ok.2 i j hi hj h
        rw [hxi, hyj] at this
        exact this fe hov'
      · have := List.pairwise_iff_getElem.1 ok.2 j i hj hi h
        rw [hxi, hyj] at this
        exact this fe.symm (sym _ _ hov')
    · intro i hi j hj c hc hcom
      exact absurd (hp _ (mem i hi).1) (not_le.2 (lt_of_le_of_lt hcom.1 hc))
    · intro u v h
      exact absurd h.mem_left (by simp)
    · exact List.Pairwise.nil
    · simp
    · simp
    · simp
    · simp
    · exact List.Pairwise.nil
  · unfold potential
    have h1 : total ε Pt s.heap ≤ l.length * Pt.length := by
      unfold total
      have : ∀ i ∈ Finset.range s.heap.count, inner ε Pt s.heap i ≤ Pt.length := by
        intro i _
        unfold inner
        exact List.length_filter_le _ _
      have := Finset.sum_le_card_nsmul _ _ _ this
      rw [Finset.card_range, smul_eq_mul] at this
      exact this.trans (by rw [f.count])
    have h2 : Pt.length ≤ 2 * l.length + l.length * l.length := by
      have := points_length (l.map Prod.fst)
      rwa [← hPt, List.length_map] at this
    have h3 := h1.trans (Nat.mul_le_mul_left _ h2)
    have := f.length
    omega

theorem Fresh.stX (f : Fresh s l) (ok : OperandsOk l) (X : List Point) :
    ∃ ε Y p, Orders ε (points (l.map Prod.fst) ++ X) ∧ St ε (points (l.map Prod.fst)) Y s [] [] p NoEx ∧
      (∀ q ∈ points (l.map Prod.fst), Vertex (l.map Prod.fst) q) ∧
      potential ε (points (l.map Prod.fst)) s ≤
        2 * (l.length + l.length * (2 * l.length + l.length * l.length)) := by
  obtain ⟨ε, ho⟩ := exists_orders (points (l.map Prod.fst) ++ X)
  obtain ⟨Y, p, h⟩ := f.stAt ok (ε := ε) fun p hp q hq => ho p (by simp [hp]) q (by simp [hq])
  exact ⟨ε, Y, p, ho, h⟩

theorem Fresh.st (f : Fresh s l) (ok : OperandsOk l) :
    ∃ ε Pt Y p, St ε Pt Y s [] [] p NoEx ∧ (∀ q ∈ Pt, Vertex (l.map Prod.fst) q) ∧
      potential ε Pt s ≤ 2 * (l.length + l.length * (2 * l.length + l.length * l.length)) := by
  obtain ⟨ε, Y, p, -, h⟩ := f.stX ok []
  exact ⟨ε, _, Y, p, h⟩

end Clipping.Sweep

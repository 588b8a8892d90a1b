import Verif.Lemmas.Flags.Run
import Verif.Lemmas.Shaped.Core

/-!
# How the events below change
-/

namespace Clipping

open Sweep

section detect

variable {α β : Type} {O : Ops α} (g : ℕ → α → β)

/-- A field is kept in old events, new events have the fields of a tail. -/
structure KeepField (O : Ops α) (g : ℕ → α → β) (s s' : Store α) : Prop where
  count : s.heap.count ≤ s'.heap.count
  old : ∀ i < s.heap.count, g i (s'.heap.lefts i).data = g i (s.heap.lefts i).data
  new : ∀ i < s'.heap.count, s.heap.count ≤ i → ∃ d, (s'.heap.lefts i).data = O.tail d

variable {g}

theorem KeepField.refl (s : Store α) : KeepField O g s s :=
  ⟨le_rfl, fun _ _ => rfl, fun _ h h' => absurd h (not_lt.2 h')⟩

/-- divisions keep all data -/
theorem KeepField.trans {s s' s'' : Store α} (a : KeepField O g s s') (b : KeepField O (fun _ => (id : α → α)) s' s'') :
    KeepField O g s s'' where
  count := a.count.trans b.count
  old i hi := by
    have : (s''.heap.lefts i).data = (s'.heap.lefts i).data := b.old i (hi.trans_le a.count)
    rw [this, a.old i hi]
  new i hi hge := by
    by_cases h : i < s'.heap.count
    · have : (s''.heap.lefts i).data = (s'.heap.lefts i).data := b.old i h
      rw [this]; exact a.new i h hge
    · exact b.new i hi (not_lt.1 h)

theorem keepField_divide {s : Store α} {i : ℕ} {q : Point} (hi : i < s.heap.count) :
    KeepField O (fun _ => (id : α → α)) s (divideSegment O.toPayload s i q) := by
  refine ⟨Nat.le_succ _, fun j hj => Flags.divide_data_old hj, ?_⟩
  intro j hj hge
  have : j = s.heap.count := by
    have : j < s.heap.count + 1 := hj
    omega
  subst this
  exact ⟨_, Flags.divide_data_new hi⟩

theorem keepField_overlapping {s : Store α} {u v : ℕ} (ok : HeapOk s.heap) (hu : u < s.heap.count)
    (hv : v < s.heap.count) : KeepField O (fun _ => (id : α → α)) s (divideOverlapping O.toPayload s u v) := by
  have ou : s.heap.primary (s.heap.opposite (.left u)) = u := ok.lr u hu
  have ov : s.heap.primary (s.heap.opposite (.left v)) = v := ok.lr v hv
  have one : ∀ {i : ℕ} {q : Point}, i < s.heap.count → KeepField O (fun _ => (id : α → α)) s (divideSegment O.toPayload s i q) :=
    fun hi => keepField_divide hi
  have two : ∀ {i j : ℕ} {q r : Point}, i < s.heap.count → j < s.heap.count →
      KeepField O (fun _ => (id : α → α)) s (divideSegment O.toPayload (divideSegment O.toPayload s i q) j r) :=
    fun hi hj => (one hi).trans (keepField_divide (Nat.lt_succ_of_lt hj))
  unfold divideOverlapping
  dsimp only
  split_ifs <;> first | exact KeepField.refl s | skip
  all_goals first
    | (refine one ?_; first | assumption | (simp only [ou, ov]; assumption))
    | (refine two ?_ ?_ <;> assumption)

theorem detect_keep {s s' : Store α} {u v : ℕ} {b : Bool} (ok : HeapOk s.heap) (hu : u < s.heap.count)
    (hv : v < s.heap.count) (huv : u ≠ v) (h : detectIntersection O.toPayload s u v = .ok (s', b))
    (hg : ∀ l r, g u (O.overlap b l r).1 = g u l.data ∧ g v (O.overlap b l r).2 = g v r.data) : KeepField O g s s' := by
  have ofk : ∀ {s'}, KeepField O (fun _ => (id : α → α)) s s' → KeepField O g s s' := fun k => (KeepField.refl s).trans k
  have pt : ∀ {s₂ : Store α} {b' : Bool}, (if s.heap.start v ≠ s.heap.start u ∧ s.heap.stop v ≠ s.heap.stop u then
      let point := segmentsIntersection (s.heap.segment u) (s.heap.segment v)
      let s₁ := if point ≠ s.heap.start u ∧ point ≠ s.heap.stop u then divideSegment O.toPayload s u point else s
      let s₂ := if point ≠ s₁.heap.start v ∧ point ≠ s₁.heap.stop v
        then divideSegment O.toPayload s₁ v point else s₁
      (Except.ok (s₂, false) : Except Err (Store α × Bool))
    else Except.ok (s, false)) = Except.ok (s₂, b') → KeepField O (fun _ => (id : α → α)) s s₂ := by
    intro s₂ b' h
    split_ifs at h with h1
    · dsimp only at h
      have k1 : KeepField O (fun _ => (id : α → α)) s (if segmentsIntersection (s.heap.segment u) (s.heap.segment v) ≠ s.heap.start u ∧
          segmentsIntersection (s.heap.segment u) (s.heap.segment v) ≠ s.heap.stop u then
          divideSegment O.toPayload s u (segmentsIntersection (s.heap.segment u) (s.heap.segment v)) else s) := by
        split_ifs
        · exact keepField_divide hu
        · exact KeepField.refl s
      generalize (if segmentsIntersection (s.heap.segment u) (s.heap.segment v) ≠ s.heap.start u ∧
          segmentsIntersection (s.heap.segment u) (s.heap.segment v) ≠ s.heap.stop u then
          divideSegment O.toPayload s u (segmentsIntersection (s.heap.segment u) (s.heap.segment v)) else s) = s₁ at h k1
      split_ifs at h
      · cases h
        exact k1.trans (keepField_divide (hv.trans_le k1.count))
      · cases h
        exact k1
    · cases h
      exact KeepField.refl s
  have ovl : (if s.heap.first u = s.heap.first v then Except.error Err.sameOperandOverlap
      else
        let startsEqual := decide (s.heap.start u = s.heap.start v)
        let d := O.overlap startsEqual (s.heap.lefts u) (s.heap.lefts v)
        let s' := { s with heap := (s.heap.setData u d.1).setData v d.2 }
        Except.ok (divideOverlapping O.toPayload s' u v, startsEqual)) = Except.ok (s', b) → KeepField O g s s' := by
    intro h
    split_ifs at h with h1
    dsimp only at h
    simp only [Except.ok.injEq, Prod.mk.injEq] at h
    obtain ⟨hs, hb⟩ := h
    rw [hb] at hs
    set d := O.overlap b (s.heap.lefts u) (s.heap.lefts v) with hd
    set t : Store α := { s with heap := (s.heap.setData u d.1).setData v d.2 } with ht
    have gg : SameGeo s.heap t.heap := (SameGeo.setData _ _ _).trans (SameGeo.setData _ _ _)
    have k := keepField_overlapping (O := O) (s := t) (gg.ok ok) (by rw [gg.count]; exact hu) (by rw [gg.count]; exact hv)
    rw [hs] at k
    refine KeepField.trans ⟨gg.count.ge, ?_, ?_⟩ k
    · intro i _
      have du : (t.heap.lefts u).data = d.1 := by simp [ht, Heap.setData, huv]
      have dv : (t.heap.lefts v).data = d.2 := by simp [ht, Heap.setData]
      have dn : ∀ i, i ≠ u → i ≠ v → (t.heap.lefts i).data = (s.heap.lefts i).data := by
        intro i a b; simp [ht, Heap.setData, a, b]
      by_cases e : i = u
      · subst e; rw [du]; exact (hg _ _).1
      · by_cases e' : i = v
        · subst e'; rw [dv]; exact (hg _ _).2
        · rw [dn i e e']
    · intro i hi hge
      rw [gg.count] at hi
      exact absurd hi (not_lt.2 hge)
  unfold detectIntersection at h
  dsimp only at h
  cases hr : segmentsRelation (s.heap.segment u) (s.heap.segment v) <;> rw [hr] at h <;> dsimp only at h
  · cases h; exact KeepField.refl s
  all_goals first
    | exact ovl h
    | exact ofk (pt h)

end detect

/-- `below_event_from_shaped_result` of an event -/
def Bw (h : Heap ShapedData) (i : ℕ) : Option ℕ := (h.lefts i).data.below

/-- what the event above `b` gets from it -/
def bwFrom (rule : ShapedRule) (h : Heap ShapedData) (b : ℕ) : Option ℕ :=
  if !rule (h.first b) (h.lefts b).data || h.isVertical b then Bw h b else some b

theorem bwFrom_congr {rule : ShapedRule} {h h' : Heap ShapedData} {b : ℕ} (h1 : h'.first b = h.first b)
    (h2 : h'.isVertical b = h.isVertical b) (h3 : (h'.lefts b).data = (h.lefts b).data) :
    bwFrom rule h' b = bwFrom rule h b := by
  simp only [bwFrom, Bw, h1, h2, h3]

/-- A part of a segment is vertical if the segment is. -/
theorem part_vertical {a b q : Point} (hq : q ∈ (⟨a, b⟩ : Segment).pts) (hne : q ≠ a) : a.x = q.x ↔ a.x = b.x := by
  obtain ⟨t, -, -, hx, hy⟩ := hq
  dsimp only at hx hy
  constructor
  · intro h
    rw [h] at hx
    have : t * (b.x - a.x) = 0 := by rw [h]; linarith
    rcases mul_eq_zero.1 this with h0 | h0
    · exact absurd (Point.ext' (by rw [hx, h0, h]; ring) (by rw [hy, h0]; ring)) hne
    · linarith
  · intro h
    rw [hx, ← h]; ring

theorem SameGeo.isVertical {h h' : Heap ShapedData} (g : SameGeo h h') (i : ℕ) : h'.isVertical i = h.isVertical i := by
  have : h'.stop i = h.stop i := by simp only [Heap.stop, g.right, g.rights]
  unfold Heap.isVertical
  rw [g.start, this]

section

variable {ε : ℚ} {Pt : List Point} {Y : ℚ → ℚ} {L F : List ℕ} {p : ℚ}

theorem Sweep.Evolves.isVertical {O : Ops ShapedData} {s s' : Store ShapedData} {M L' F' : List ℕ} {p' : ℚ}
    {Ex' : ℕ → ℕ → Prop} (ev : Evolves O ε Pt M s s') (S' : St ε Pt Y s' L' F' p' Ex') {i : ℕ}
    (hi : i < s.heap.count) : s'.heap.isVertical i = s.heap.isVertical i := by
  unfold Heap.isVertical
  rw [ev.start i hi]
  congr 1
  have h1 := (ev.own i hi).pts (s'.heap.segment i).stop_mem
  have hne : (s'.heap.segment i).stop ≠ s.heap.start i := by
    intro h
    have := S'.inv'.proper i (hi.trans_le ev.count)
    have h2 : s'.heap.stop i = s'.heap.start i := by rw [ev.start i hi]; exact h
    simp only [absSeg] at this
    rw [h2] at this
    exact absurd this (lt_irrefl _)
  exact propext (part_vertical h1 hne)

variable {rule : ShapedRule}

/-- what an event gets from the one below -/
def bwBelow (rule : ShapedRule) (h : Heap ShapedData) (i : ℕ) : Option ℕ → Option ℕ
  | none => Bw h i
  | some b => bwFrom rule h b

/-- the event has been decided by its fields -/
def Decided (rule : ShapedRule) (h : Heap ShapedData) (i : ℕ) : Prop :=
  rule (h.first i) (h.lefts i).data = (h.lefts i).data.fromShapedResult

theorem compute_bw (hr : RuleOk rule) (s : Store ShapedData) (i : ℕ) (b : Option ℕ) :
    Bw (computeFields (holeyOps rule) s i b).heap i = bwBelow rule s.heap i b ∧
    (∀ j, j ≠ i → ((computeFields (holeyOps rule) s i b).heap.lefts j).data = (s.heap.lefts j).data) ∧
    Decided rule (computeFields (holeyOps rule) s i b).heap i := by
  have self : ((computeFields (holeyOps rule) s i b).heap.lefts i).data = holeyCompute rule s.heap i b := by
    simp [computeFields, Heap.setData, holeyOps]
  refine ⟨?_, ?_, ?_⟩
  · unfold Bw; rw [self]
    cases b <;> rfl
  · intro j hj; simp [computeFields, Heap.setData, hj]
  · unfold Decided
    rw [self, (computeFields_geo (holeyOps rule) s i b).1.first]
    unfold holeyCompute
    dsimp only
    rw [hr]
    conv_rhs => rw [hr]

theorem holey_detect_false {s s' : Store ShapedData} {u v : ℕ} (ok : HeapOk s.heap) (hu : u < s.heap.count)
    (hv : v < s.heap.count) (huv : u ≠ v)
    (h : detectIntersection (holeyOps rule).toPayload s u v = .ok (s', false)) :
    KeepField (holeyOps rule) (fun _ => (id : ShapedData → ShapedData)) s s' :=
  detect_keep ok hu hv huv h fun _ _ => ⟨rfl, rfl⟩

theorem holey_detect {s s' : Store ShapedData} {u v : ℕ} {b : Bool} (ok : HeapOk s.heap) (hu : u < s.heap.count)
    (hv : v < s.heap.count) (huv : u ≠ v)
    (h : detectIntersection (holeyOps rule).toPayload s u v = .ok (s', b)) :
    KeepField (holeyOps rule) (fun _ => ShapedData.below) s s' :=
  detect_keep ok hu hv huv h fun _ _ => by cases b <;> exact ⟨rfl, rfl⟩

theorem detect_other {α : Type} {O : Ops α} {s s' : Store α} {u v : ℕ} {b : Bool} (ok : HeapOk s.heap) (hu : u < s.heap.count)
    (hv : v < s.heap.count) (huv : u ≠ v) (h : detectIntersection O.toPayload s u v = .ok (s', b)) {i : ℕ}
    (hi : i < s.heap.count) (h1 : i ≠ u) (h2 : i ≠ v) : (s'.heap.lefts i).data = (s.heap.lefts i).data := by
  have k := detect_keep (g := fun j d => if j = u ∨ j = v then none else some d) ok hu hv huv h fun _ _ => by simp
  have := k.old i hi
  simpa [h1, h2] using this

end

end Clipping

import Verif.Model.Sweep
import Verif.Lemmas.Sweep.Process

/-!
# How the sides recorded in events change

`Flags O` describes an operation whose events record whether the interior of their own operand is to
the left, whether they are inside of the other operand, and whether they belong to the result.
-/

namespace Clipping

open Sweep

variable {α : Type}

/-- An operation with the marks of `mixed.py`, `holeless.py` and `holey.py`. -/
structure Flags (O : Ops α) (κ : Type) where
  /-- `interior_to_left` -/
  itl : α → Bool
  /-- `other_interior_to_left` -/
  oth : α → Bool
  /-- `from_result` -/
  res : α → Bool
  /-- `is_overlap`, `overlap_kind` -/
  mark : α → κ
  /-- the mark of segments which do not overlap -/
  none : κ
  /-- the mark of overlapping segments of both operands, from their `interior_to_left` -/
  kind : Bool → Bool → κ
  /-- the decision: from first operand, inside of the other operand, mark -/
  rule : Bool → Bool → κ → Bool
  tail_itl : ∀ d, itl (O.tail d) = itl d
  tail_oth : ∀ d, oth (O.tail d) = false
  tail_mark : ∀ d, mark (O.tail d) = none
  create_itl : ∀ b, itl (O.create b) = b
  create_oth : ∀ b, oth (O.create b) = false
  create_mark : ∀ b, mark (O.create b) = none
  overlap_itl : ∀ b l r, itl (O.overlap b l r).1 = itl l.data ∧ itl (O.overlap b l r).2 = itl r.data
  overlap_oth : ∀ b l r, oth (O.overlap b l r).1 = oth l.data ∧ oth (O.overlap b l r).2 = oth r.data
  overlap_res : ∀ b l r, res (O.overlap b l r).1 = res l.data ∧ res (O.overlap b l r).2 = res r.data
  overlap_mark : ∀ l r, mark (O.overlap true l r).1 = kind (itl l.data) (itl r.data) ∧
    mark (O.overlap true l r).2 = kind (itl l.data) (itl r.data)
  compute_itl : ∀ h i b, itl (O.compute h i b) = itl (h.lefts i).data
  compute_oth : ∀ h i b, oth (O.compute h i b) = match b with
    | .none => oth (h.lefts i).data
    | some b => if h.first b = h.first i then oth (h.lefts b).data else itl (h.lefts b).data
  compute_mark : ∀ h i b, mark (O.compute h i b) = mark (h.lefts i).data
  compute_res : ∀ h i b, res (O.compute h i b) =
    rule (h.first i) (oth (O.compute h i b)) (mark (h.lefts i).data)

namespace Flags

variable {O : Ops α} {κ : Type} (f : Flags O κ)

theorem keepsAll : KeepsAll O f.itl :=
  ⟨⟨f.tail_itl, fun b l r => (f.overlap_itl b l r).1, fun b l r => (f.overlap_itl b l r).2⟩, f.compute_itl⟩

/-- What detections of intersections leave as it is. -/
structure Keep (s s' : Store α) : Prop where
  count : s.heap.count ≤ s'.heap.count
  itl : ∀ i < s.heap.count, f.itl (s'.heap.lefts i).data = f.itl (s.heap.lefts i).data
  oth : ∀ i < s.heap.count, f.oth (s'.heap.lefts i).data = f.oth (s.heap.lefts i).data
  res : ∀ i < s.heap.count, f.res (s'.heap.lefts i).data = f.res (s.heap.lefts i).data
  fresh : ∀ i < s'.heap.count, s.heap.count ≤ i →
    f.oth (s'.heap.lefts i).data = false ∧ f.mark (s'.heap.lefts i).data = f.none

variable {f}

theorem Keep.refl (s : Store α) : f.Keep s s :=
  ⟨le_rfl, fun _ _ => rfl, fun _ _ => rfl, fun _ _ => rfl, fun _ h h' => absurd h (not_lt.2 h')⟩

theorem Keep.trans {s s' s'' : Store α} (a : f.Keep s s') (b : f.Keep s' s'') (hm : ∀ i < s'.heap.count,
    f.mark (s''.heap.lefts i).data = f.mark (s'.heap.lefts i).data) : f.Keep s s'' where
  count := a.count.trans b.count
  itl i hi := (b.itl i (hi.trans_le a.count)).trans (a.itl i hi)
  oth i hi := (b.oth i (hi.trans_le a.count)).trans (a.oth i hi)
  res i hi := (b.res i (hi.trans_le a.count)).trans (a.res i hi)
  fresh i hi hge := by
    by_cases h : i < s'.heap.count
    · rw [b.oth i h, hm i h]; exact a.fresh i h hge
    · exact b.fresh i hi (not_lt.1 h)

theorem divide_data_old {P : Payload α} {s : Store α} {i j : ℕ} {q : Point} (hj : j < s.heap.count) :
    ((divideSegment P s i q).heap.lefts j).data = (s.heap.lefts j).data := by
  simp only [divideSegment, Heap.divide]
  by_cases e : j = i
  · subst e; simp
  · simp [e, hj.ne]

theorem divide_data_new {P : Payload α} {s : Store α} {i : ℕ} {q : Point} (hi : i < s.heap.count) :
    ((divideSegment P s i q).heap.lefts s.heap.count).data = P.tail (s.heap.lefts i).data := by
  simp only [divideSegment, Heap.divide]
  simp [hi.ne']

theorem keep_divide {s : Store α} {i : ℕ} {q : Point} (hi : i < s.heap.count) :
    f.Keep s (divideSegment O.toPayload s i q) ∧ ∀ j < s.heap.count,
      f.mark ((divideSegment O.toPayload s i q).heap.lefts j).data = f.mark (s.heap.lefts j).data := by
  refine ⟨⟨Nat.le_succ _, ?_, ?_, ?_, ?_⟩, ?_⟩
  · intro j hj; rw [divide_data_old hj]
  · intro j hj; rw [divide_data_old hj]
  · intro j hj; rw [divide_data_old hj]
  · intro j hj hge
    have : j = s.heap.count := by
      have : j < s.heap.count + 1 := hj
      omega
    subst this
    rw [divide_data_new hi]
    exact ⟨f.tail_oth _, f.tail_mark _⟩
  · intro j hj; rw [divide_data_old hj]

/-- marks kept as well -/
def Keep' (f : Flags O κ) (s s' : Store α) : Prop := f.Keep s s' ∧ ∀ j < s.heap.count,
  f.mark (s'.heap.lefts j).data = f.mark (s.heap.lefts j).data

theorem Keep'.refl (s : Store α) : f.Keep' s s := ⟨Keep.refl s, fun _ _ => rfl⟩

theorem Keep'.trans {s s' s'' : Store α} (a : f.Keep' s s') (b : f.Keep' s' s'') : f.Keep' s s'' :=
  ⟨a.1.trans b.1 b.2, fun j hj => (b.2 j (hj.trans_le a.1.count)).trans (a.2 j hj)⟩

theorem keep_overlapping {s : Store α} {u v : ℕ} (ok : HeapOk s.heap) (hu : u < s.heap.count)
    (hv : v < s.heap.count) : f.Keep' s (divideOverlapping O.toPayload s u v) := by
  have ou : s.heap.primary (s.heap.opposite (.left u)) = u := ok.lr u hu
  have ov : s.heap.primary (s.heap.opposite (.left v)) = v := ok.lr v hv
  have two : ∀ {i j : ℕ} {q r : Point}, i < s.heap.count → j < s.heap.count →
      f.Keep' s (divideSegment O.toPayload (divideSegment O.toPayload s i q) j r) := by
    intro i j q r hi hj
    have h1 : f.Keep' s (divideSegment O.toPayload s i q) := keep_divide hi
    have h2 : f.Keep' (divideSegment O.toPayload s i q) (divideSegment O.toPayload (divideSegment O.toPayload s i q) j r) :=
      keep_divide (Nat.lt_succ_of_lt hj)
    exact h1.trans h2
  have one : ∀ {i : ℕ} {q : Point}, i < s.heap.count → f.Keep' s (divideSegment O.toPayload s i q) :=
    fun hi => keep_divide hi
  unfold divideOverlapping
  dsimp only
  split_ifs <;> first | exact Keep'.refl s | skip
  all_goals first
    | (refine one ?_; first | assumption | (simp only [ou, ov]; assumption))
    | (refine two ?_ ?_ <;> assumption)

/-- What `detect_intersection` does to the marks. -/
theorem detect_data {s s' : Store α} {u v : ℕ} {b : Bool} (ok : HeapOk s.heap) (hu : u < s.heap.count)
    (hv : v < s.heap.count) (huv : u ≠ v) (h : detectIntersection O.toPayload s u v = .ok (s', b)) :
    f.Keep s s' ∧
    (∀ i < s.heap.count, i ≠ u → i ≠ v → f.mark (s'.heap.lefts i).data = f.mark (s.heap.lefts i).data) ∧
    (b = true → f.mark (s'.heap.lefts u).data = f.kind (f.itl (s.heap.lefts u).data) (f.itl (s.heap.lefts v).data) ∧
      f.mark (s'.heap.lefts v).data = f.kind (f.itl (s.heap.lefts u).data) (f.itl (s.heap.lefts v).data)) := by
  have ofk : ∀ {s'}, f.Keep' s s' → b = false → f.Keep s s' ∧
    (∀ i < s.heap.count, i ≠ u → i ≠ v → f.mark (s'.heap.lefts i).data = f.mark (s.heap.lefts i).data) ∧
    (b = true → f.mark (s'.heap.lefts u).data = f.kind (f.itl (s.heap.lefts u).data) (f.itl (s.heap.lefts v).data) ∧
      f.mark (s'.heap.lefts v).data = f.kind (f.itl (s.heap.lefts u).data) (f.itl (s.heap.lefts v).data)) := by
    intro s' k hb
    exact ⟨k.1, fun i hi _ _ => k.2 i hi, fun h => by rw [hb] at h; cases h⟩
  have pt : ∀ {s₂ : Store α} {b' : Bool}, (if s.heap.start v ≠ s.heap.start u ∧ s.heap.stop v ≠ s.heap.stop u then
      let point := segmentsIntersection (s.heap.segment u) (s.heap.segment v)
      let s₁ := if point ≠ s.heap.start u ∧ point ≠ s.heap.stop u then divideSegment O.toPayload s u point else s
      let s₂ := if point ≠ s₁.heap.start v ∧ point ≠ s₁.heap.stop v
        then divideSegment O.toPayload s₁ v point else s₁
      (Except.ok (s₂, false) : Except Err (Store α × Bool))
    else Except.ok (s, false)) = Except.ok (s₂, b') → f.Keep' s s₂ ∧ b' = false := by
    intro s₂ b' h
    split_ifs at h with h1
    · dsimp only at h
      have k1 : f.Keep' s (if segmentsIntersection (s.heap.segment u) (s.heap.segment v) ≠ s.heap.start u ∧
          segmentsIntersection (s.heap.segment u) (s.heap.segment v) ≠ s.heap.stop u then
          divideSegment O.toPayload s u (segmentsIntersection (s.heap.segment u) (s.heap.segment v)) else s) := by
        split_ifs
        · exact keep_divide hu
        · exact Keep'.refl s
      generalize (if segmentsIntersection (s.heap.segment u) (s.heap.segment v) ≠ s.heap.start u ∧
          segmentsIntersection (s.heap.segment u) (s.heap.segment v) ≠ s.heap.stop u then
          divideSegment O.toPayload s u (segmentsIntersection (s.heap.segment u) (s.heap.segment v)) else s) = s₁ at h k1
      split_ifs at h
      · cases h
        have k2 : f.Keep' s₁ (divideSegment O.toPayload s₁ v
          (segmentsIntersection (s.heap.segment u) (s.heap.segment v))) := keep_divide (hv.trans_le k1.1.count)
        exact ⟨k1.trans k2, rfl⟩
      · cases h
        exact ⟨k1, rfl⟩
    · cases h
      exact ⟨Keep'.refl s, rfl⟩
  have ovl : (if s.heap.first u = s.heap.first v then Except.error Err.sameOperandOverlap
      else
        let startsEqual := decide (s.heap.start u = s.heap.start v)
        let d := O.overlap startsEqual (s.heap.lefts u) (s.heap.lefts v)
        let s' := { s with heap := (s.heap.setData u d.1).setData v d.2 }
        Except.ok (divideOverlapping O.toPayload s' u v, startsEqual)) = Except.ok (s', b) →
      f.Keep s s' ∧
      (∀ i < s.heap.count, i ≠ u → i ≠ v → f.mark (s'.heap.lefts i).data = f.mark (s.heap.lefts i).data) ∧
      (b = true → f.mark (s'.heap.lefts u).data = f.kind (f.itl (s.heap.lefts u).data) (f.itl (s.heap.lefts v).data) ∧
        f.mark (s'.heap.lefts v).data = f.kind (f.itl (s.heap.lefts u).data) (f.itl (s.heap.lefts v).data)) := by
    intro h
    split_ifs at h with h1
    dsimp only at h
    simp only [Except.ok.injEq, Prod.mk.injEq] at h
    obtain ⟨hs, hb⟩ := h
    set d := O.overlap (decide (s.heap.start u = s.heap.start v)) (s.heap.lefts u) (s.heap.lefts v) with hd
    set t : Store α := { s with heap := (s.heap.setData u d.1).setData v d.2 } with ht
    have g : SameGeo s.heap t.heap := (SameGeo.setData _ _ _).trans (SameGeo.setData _ _ _)
    have k := keep_overlapping (f := f) (s := t) (g.ok ok) (by rw [g.count]; exact hu) (by rw [g.count]; exact hv)
    rw [hs] at k
    have du : (t.heap.lefts u).data = d.1 := by simp [ht, Heap.setData, huv]
    have dv : (t.heap.lefts v).data = d.2 := by simp [ht, Heap.setData]
    have dn : ∀ i, i ≠ u → i ≠ v → (t.heap.lefts i).data = (s.heap.lefts i).data := by
      intro i a b; simp [ht, Heap.setData, a, b]
    have all : ∀ g : α → Bool, (g d.1 = g (s.heap.lefts u).data ∧ g d.2 = g (s.heap.lefts v).data) →
        ∀ i, g (t.heap.lefts i).data = g (s.heap.lefts i).data := by
      intro g hg i
      by_cases e : i = u
      · subst e; rw [du]; exact hg.1
      · by_cases e' : i = v
        · subst e'; rw [dv]; exact hg.2
        · rw [dn i e e']
    refine ⟨⟨g.count.ge.trans k.1.count, ?_, ?_, ?_, ?_⟩, ?_, ?_⟩
    · intro i hi
      rw [k.1.itl i (by rw [g.count]; exact hi)]; exact all _ (f.overlap_itl _ _ _) i
    · intro i hi
      rw [k.1.oth i (by rw [g.count]; exact hi)]; exact all _ (f.overlap_oth _ _ _) i
    · intro i hi
      rw [k.1.res i (by rw [g.count]; exact hi)]; exact all _ (f.overlap_res _ _ _) i
    · intro i hi hge
      exact k.1.fresh i hi (by rw [g.count]; exact hge)
    · intro i hi a b
      rw [k.2 i (by rw [g.count]; exact hi), dn i a b]
    · intro hbt
      rw [hbt] at hb
      rw [k.2 u (by rw [g.count]; exact hu), k.2 v (by rw [g.count]; exact hv), du, dv, hd, hb]
      exact f.overlap_mark _ _
  unfold detectIntersection at h
  dsimp only at h
  cases hr : segmentsRelation (s.heap.segment u) (s.heap.segment v) <;> rw [hr] at h <;> dsimp only at h
  · cases h; exact ofk (Keep'.refl s) rfl
  all_goals first
    | exact ovl h
    | exact ofk (pt h).1 (pt h).2

end Flags

end Clipping

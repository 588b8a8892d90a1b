import Verif.Lemmas.Sweep.Order
import Verif.Lemmas.Sweep.Steps2
import Verif.Lemmas.Segments

/-!
# Events as a store: dividing an event is cutting its segment
-/

namespace Clipping.Sweep

variable {α : Type} {h : Heap α} {ε : ℚ}

/-- Left and right events point to each other. -/
structure HeapOk (h : Heap α) : Prop where
  rlt : ∀ i < h.count, (h.lefts i).right < h.count
  llt : ∀ j < h.count, (h.rights j).left < h.count
  lr : ∀ i < h.count, (h.rights (h.lefts i).right).left = i
  rl : ∀ j < h.count, (h.lefts (h.rights j).left).right = j

section divide

variable {tail : α → α} {i j : ℕ} {q : Point}

theorem divide_count : (h.divide tail i q).count = h.count + 1 := rfl

theorem divide_start_old (hi : i < h.count) (hj : j < h.count) :
    (h.divide tail i q).start j = h.start j := by
  unfold Heap.divide Heap.start
  by_cases e : j = i
  · subst e; simp
  · simp [e, hj.ne]

theorem divide_start_new (hi : i < h.count) : (h.divide tail i q).start h.count = q := by
  unfold Heap.divide Heap.start
  simp [hi.ne']

theorem divide_first_old (hi : i < h.count) (hj : j < h.count) :
    (h.divide tail i q).first j = h.first j := by
  unfold Heap.divide Heap.first
  by_cases e : j = i
  · subst e; simp
  · simp [e, hj.ne]

theorem divide_first_new (hi : i < h.count) : (h.divide tail i q).first h.count = h.first i := by
  unfold Heap.divide Heap.first
  simp [hi.ne']

theorem divide_right_self : ((h.divide tail i q).lefts i).right = h.count := by
  unfold Heap.divide; simp

theorem divide_right_new (hi : i < h.count) :
    ((h.divide tail i q).lefts h.count).right = (h.lefts i).right := by
  unfold Heap.divide; simp [hi.ne']

theorem divide_right_old (hj : j < h.count) (hne : j ≠ i) :
    ((h.divide tail i q).lefts j).right = (h.lefts j).right := by
  unfold Heap.divide; simp [hj.ne, hne]

theorem divide_rstart_new : ((h.divide tail i q).rights h.count).start = q := by
  unfold Heap.divide; simp

theorem divide_rstart_old (hj : j < h.count) :
    ((h.divide tail i q).rights j).start = (h.rights j).start := by
  unfold Heap.divide
  by_cases e : j = (h.lefts i).right
  · subst e; simp [hj.ne]
  · simp [hj.ne, e]

theorem divide_left_new : ((h.divide tail i q).rights h.count).left = i := by
  unfold Heap.divide; simp

theorem divide_left_old (hj : j < h.count) (hne : j ≠ (h.lefts i).right) :
    ((h.divide tail i q).rights j).left = (h.rights j).left := by
  unfold Heap.divide; simp [hj.ne, hne]

theorem divide_left_right (hr : (h.lefts i).right < h.count) :
    ((h.divide tail i q).rights (h.lefts i).right).left = h.count := by
  unfold Heap.divide; simp [hr.ne]

theorem divide_stop_self : (h.divide tail i q).stop i = q := by
  unfold Heap.stop; rw [divide_right_self, divide_rstart_new]

theorem divide_stop_new (ok : HeapOk h) (hi : i < h.count) :
    (h.divide tail i q).stop h.count = h.stop i := by
  unfold Heap.stop; rw [divide_right_new hi, divide_rstart_old (ok.rlt i hi)]

theorem divide_stop_old (ok : HeapOk h) (hj : j < h.count) (hne : j ≠ i) :
    (h.divide tail i q).stop j = h.stop j := by
  unfold Heap.stop; rw [divide_right_old hj hne, divide_rstart_old (ok.rlt j hj)]

theorem HeapOk.divide (ok : HeapOk h) (hi : i < h.count) : HeapOk (h.divide tail i q) := by
  have key : ∀ j < h.count + 1, j < h.count ∨ j = h.count := fun j hj => by omega
  constructor
  · intro j hj
    rw [divide_count] at hj ⊢
    rcases key j hj with hj | rfl
    · by_cases e : j = i
      · subst e; rw [divide_right_self]; omega
      · rw [divide_right_old hj e]; have := ok.rlt j hj; omega
    · rw [divide_right_new hi]; have := ok.rlt i hi; omega
  · intro j hj
    rw [divide_count] at hj ⊢
    rcases key j hj with hj | rfl
    · by_cases e : j = (h.lefts i).right
      · subst e; rw [divide_left_right hj]; omega
      · rw [divide_left_old hj e]; have := ok.llt j hj; omega
    · rw [divide_left_new]; omega
  · intro j hj
    rw [divide_count] at hj
    rcases key j hj with hj | rfl
    · by_cases e : j = i
      · subst e; rw [divide_right_self, divide_left_new]
      · rw [divide_right_old hj e, divide_left_old (ok.rlt j hj), ok.lr j hj]
        intro he
        have := congrArg (fun x => (h.rights x).left) he
        simp only [ok.lr j hj, ok.lr i hi] at this
        exact e this
    · rw [divide_right_new hi, divide_left_right (ok.rlt i hi)]
  · intro j hj
    rw [divide_count] at hj
    rcases key j hj with hj | rfl
    · by_cases e : j = (h.lefts i).right
      · subst e; rw [divide_left_right hj, divide_right_new hi]
      · rw [divide_left_old hj e, divide_right_old (ok.llt j hj), ok.rl j hj]
        intro he
        apply e
        rw [← he, ok.rl j hj]
    · rw [divide_left_new, divide_right_self]

end divide

theorem seg_cut_left {s e q : Point} {ff : Bool} (hs : sx ε s < sx ε q)
    (hq : (seg ε s e ff).y (sx ε q) = q.y) : seg ε s q ff = { seg ε s e ff with b := sx ε q } := by
  have hm : (q.y - s.y) / (sx ε q - sx ε s) = (seg ε s e ff).m := by
    rw [div_eq_iff (by linarith), ← hq, ← seg_y_start (ε := ε) (s := s) (e := e) (ff := ff)]
    simp only [Seg.y]; ring
  simp only [seg] at hm ⊢
  rw [hm]

theorem seg_cut_right {s e q : Point} {ff : Bool} (hse : sx ε s < sx ε e) (he : sx ε q < sx ε e)
    (hq : (seg ε s e ff).y (sx ε q) = q.y) : seg ε q e ff = { seg ε s e ff with a := sx ε q } := by
  have hm : (e.y - q.y) / (sx ε e - sx ε q) = (seg ε s e ff).m := by
    rw [div_eq_iff (by linarith), ← hq, ← seg_y_stop (ff := ff) hse]
    simp only [Seg.y]; ring
  have hk : q.y - (seg ε s e ff).m * sx ε q = (seg ε s e ff).k := by
    rw [← hq]; simp only [Seg.y]; ring
  have : seg ε q e ff = ⟨sx ε q, sx ε e, (e.y - q.y) / (sx ε e - sx ε q),
    q.y - (e.y - q.y) / (sx ε e - sx ε q) * sx ε q, ff⟩ := rfl
  rw [this, hm, hk]
  rfl

/-- `A` are the segments of the events -/
def Rep (ε : ℚ) (h : Heap α) (A : ℕ → Seg) : Prop := ∀ i < h.count, A i = absSeg ε h i

theorem Rep.divide {A : ℕ → Seg} {tail : α → α} {i : ℕ} {q : Point} (R : Rep ε h A) (ok : HeapOk h)
    (hi : i < h.count) (h1 : (A i).a < sx ε q) (h2 : sx ε q < (A i).b) (hq : (A i).y (sx ε q) = q.y) :
    Rep ε (h.divide tail i q) (cut A h.count i (sx ε q)) := by
  rw [R i hi] at h1 h2 hq
  intro j hj
  rw [divide_count] at hj
  rcases Nat.lt_succ_iff_lt_or_eq.1 hj with hj | rfl
  · by_cases e : j = i
    · subst e
      rw [cut_i _ hi, R j hi]
      unfold absSeg
      rw [divide_start_old hi hi, divide_stop_self, divide_first_old hi hi]
      exact (seg_cut_left h1 hq).symm
    · rw [cut_j _ hj e, R j hj]
      unfold absSeg
      rw [divide_start_old hi hj, divide_stop_old ok hj e, divide_first_old hi hj]
  · rw [cut_n, R i hi]
    unfold absSeg
    rw [divide_start_new hi, divide_stop_new ok hi, divide_first_new hi]
    exact (seg_cut_right (h1.trans h2) h2 hq).symm

end Clipping.Sweep

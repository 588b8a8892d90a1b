import Verif.Lemmas.Flags.Laws

/-!
# Fields of events after a left event has been checked with its neighbours
-/

namespace Clipping

open Sweep

variable {α κ : Type} {O : Ops α} (f : Flags O κ)

namespace Flags

/-- `interior_to_left` of an event -/
def I (h : Heap α) (i : ℕ) : Bool := f.itl (h.lefts i).data

/-- `other_interior_to_left` of an event -/
def X (h : Heap α) (i : ℕ) : Bool := f.oth (h.lefts i).data

/-- `from_result` of an event -/
def R (h : Heap α) (i : ℕ) : Bool := f.res (h.lefts i).data

/-- overlap mark of an event -/
def K (h : Heap α) (i : ℕ) : κ := f.mark (h.lefts i).data

/-- Only the fields of `T` and the marks of `M` may have changed. -/
structure Upd (s s' : Store α) (T M : List ℕ) : Prop where
  count : s.heap.count ≤ s'.heap.count
  itl : ∀ i < s.heap.count, f.I s'.heap i = f.I s.heap i
  oth : ∀ i < s.heap.count, i ∉ T → f.X s'.heap i = f.X s.heap i
  res : ∀ i < s.heap.count, i ∉ T → f.R s'.heap i = f.R s.heap i
  mark : ∀ i < s.heap.count, i ∉ M → f.K s'.heap i = f.K s.heap i
  fresh : ∀ i < s'.heap.count, s.heap.count ≤ i → f.X s'.heap i = false ∧ f.K s'.heap i = f.none

/-- `other_interior_to_left` from the event below -/
def form (h : Heap α) (i : ℕ) : Option ℕ → Bool
  | .none => f.X h i
  | some b => if h.first b = h.first i then f.X h b else f.I h b

theorem form_some (h : Heap α) (i b : ℕ) :
    f.form h i (some b) = if h.first b = h.first i then f.X h b else f.I h b := rfl

variable {f}

theorem Upd.refl (s : Store α) : f.Upd s s [] [] :=
  ⟨le_rfl, fun _ _ => rfl, fun _ _ _ => rfl, fun _ _ _ => rfl, fun _ _ _ => rfl,
    fun _ h h' => absurd h (not_lt.2 h')⟩

theorem Upd.trans {s s' s'' : Store α} {T M T' M' : List ℕ} (a : f.Upd s s' T M) (b : f.Upd s' s'' T' M')
    (hT : ∀ i ∈ T', i < s.heap.count) (hM : ∀ i ∈ M', i < s.heap.count) :
    f.Upd s s'' (T ++ T') (M ++ M') where
  count := a.count.trans b.count
  itl i hi := (b.itl i (hi.trans_le a.count)).trans (a.itl i hi)
  oth i hi h := (b.oth i (hi.trans_le a.count) fun h' => h (by simp [h'])).trans
    (a.oth i hi fun h' => h (by simp [h']))
  res i hi h := (b.res i (hi.trans_le a.count) fun h' => h (by simp [h'])).trans
    (a.res i hi fun h' => h (by simp [h']))
  mark i hi h := (b.mark i (hi.trans_le a.count) fun h' => h (by simp [h'])).trans
    (a.mark i hi fun h' => h (by simp [h']))
  fresh i hi hge := by
    by_cases h : i < s'.heap.count
    · rw [b.oth i h fun h' => absurd (hT i h') (not_lt.2 hge), b.mark i h fun h' => absurd (hM i h') (not_lt.2 hge)]
      exact a.fresh i h hge
    · exact b.fresh i hi (not_lt.1 h)

theorem Upd.mono {s s' : Store α} {T M T' M' : List ℕ} (a : f.Upd s s' T M) (hT : T ⊆ T') (hM : M ⊆ M') :
    f.Upd s s' T' M' :=
  ⟨a.count, a.itl, fun i hi h => a.oth i hi fun h' => h (hT h'), fun i hi h => a.res i hi fun h' => h (hT h'),
    fun i hi h => a.mark i hi fun h' => h (hM h'), a.fresh⟩

theorem compute_upd (s : Store α) (i : ℕ) (b : Option ℕ) :
    f.Upd s (computeFields O s i b) [i] [] ∧
    f.X (computeFields O s i b).heap i = f.form s.heap i b ∧
    f.R (computeFields O s i b).heap i = f.rule (s.heap.first i) (f.form s.heap i b) (f.K s.heap i) := by
  have self : ((computeFields O s i b).heap.lefts i).data = O.compute s.heap i b := by
    simp [computeFields, Heap.setData]
  have other : ∀ j, j ≠ i → ((computeFields O s i b).heap.lefts j).data = (s.heap.lefts j).data := by
    intro j hj; simp [computeFields, Heap.setData, hj]
  have cf : f.oth (O.compute s.heap i b) = f.form s.heap i b := by
    rw [f.compute_oth]
    cases b <;> rfl
  refine ⟨⟨le_rfl, ?_, ?_, ?_, ?_, fun _ h h' => absurd h (not_lt.2 h')⟩, ?_, ?_⟩
  · intro j _
    unfold I
    by_cases e : j = i
    · rw [e, self, f.compute_itl]
    · rw [other j e]
  · intro j _ h
    unfold X
    rw [other j (by simpa using h)]
  · intro j _ h
    unfold R
    rw [other j (by simpa using h)]
  · intro j _ _
    unfold K
    by_cases e : j = i
    · rw [e, self, f.compute_mark]
    · rw [other j e]
  · unfold X; rw [self, cf]
  · unfold R; rw [self, f.compute_res, cf]; rfl

theorem detect_upd {s s' : Store α} {u v : ℕ} {b : Bool} (ok : HeapOk s.heap) (hu : u < s.heap.count)
    (hv : v < s.heap.count) (huv : u ≠ v) (h : detectIntersection O.toPayload s u v = .ok (s', b)) :
    f.Upd s s' [] [u, v] ∧ (b = true → f.K s'.heap u = f.kind (f.I s.heap u) (f.I s.heap v) ∧
      f.K s'.heap v = f.kind (f.I s.heap u) (f.I s.heap v)) := by
  obtain ⟨k, m, q⟩ := f.detect_data ok hu hv huv h
  exact ⟨⟨k.count, k.itl, fun i hi _ => k.oth i hi, fun i hi _ => k.res i hi, fun i hi hn =>
    m i hi (fun e => hn (by simp [e])) (fun e => hn (by simp [e])), k.fresh⟩, q⟩

theorem form_congr {h h' : Heap α} {i : ℕ} {b : Option ℕ} (hf : ∀ j, b = some j → h'.first j = h.first j)
    (hfi : h'.first i = h.first i) (hi : ∀ j, b = some j → f.I h' j = f.I h j)
    (hx : ∀ j, b = some j → f.X h' j = f.X h j) (hxi : b = .none → f.X h' i = f.X h i) :
    f.form h' i b = f.form h i b := by
  cases b with
  | none => exact hxi rfl
  | some j =>
    simp only [form]
    rw [hf j rfl, hfi, hi j rfl, hx j rfl]

variable {ε : ℚ} {Pt : List Point} {Y : ℚ → ℚ} {L F : List ℕ} {p : ℚ}

theorem checkAbove_upd {s s' : Store α} {Ex : ℕ → ℕ → Prop} (S : St ε Pt Y s L F p Ex) {t a : ℕ}
    (ht : t ∈ L) (ha : a ∈ L) (hta : t ≠ a) {below : Option ℕ}
    (hb : ∀ j, below = some j → j ∈ L ∧ j ≠ t)
    (h : checkAbove O s t (some a) below = .ok s') :
    (¬ (Col (absSeg ε s.heap t) (absSeg ε s.heap a) ∧ s.heap.start t = s.heap.start a) → f.Upd s s' [] [t, a]) ∧
    (Col (absSeg ε s.heap t) (absSeg ε s.heap a) ∧ s.heap.start t = s.heap.start a →
      f.Upd s s' [t, a] [t, a] ∧
      f.X s'.heap t = f.form s.heap t below ∧
      f.X s'.heap a = (if s.heap.first t = s.heap.first a then f.form s.heap t below else f.I s.heap t) ∧
      f.R s'.heap t = f.rule (s.heap.first t) (f.X s'.heap t) (f.kind (f.I s.heap t) (f.I s.heap a)) ∧
      f.R s'.heap a = f.rule (s.heap.first a) (f.X s'.heap a) (f.kind (f.I s.heap t) (f.I s.heap a))) := by
  obtain ⟨A, r, J⟩ := S.inv
  have htn := J.ltn ht
  have han := J.ltn ha
  obtain ⟨s₁, b, e, S', ev, hbt⟩ := S.detect (O := O) ht ha hta
  obtain ⟨u, k⟩ := f.detect_upd S.ok htn han hta e
  unfold checkAbove at h
  dsimp only at h
  rw [e] at h
  cases b with
  | false =>
    cases h
    exact ⟨fun _ => u, fun hh => absurd (hbt.2 hh) (by simp)⟩
  | true =>
    refine ⟨fun hh => absurd (hbt.1 rfl) hh, fun _ => ?_⟩
    dsimp only at h
    cases h
    obtain ⟨k1, k2⟩ := k rfl
    obtain ⟨u1, x1, r1⟩ := f.compute_upd s₁ t below
    obtain ⟨u2, x2, r2⟩ := f.compute_upd (computeFields O s₁ t below) a (some t)
    obtain ⟨g1, -⟩ := computeFields_geo O s₁ t below
    have htn' : t < s₁.heap.count := htn.trans_le u.count
    have han' : a < s₁.heap.count := han.trans_le u.count
    have han'' : a < (computeFields O s₁ t below).heap.count := by rw [g1.count]; exact han'
    have htn'' : t < (computeFields O s₁ t below).heap.count := by rw [g1.count]; exact htn'
    have fm : f.form s₁.heap t below = f.form s.heap t below := by
      refine f.form_congr (fun j hj => ev.first j (J.ltn (hb j hj).1)) (ev.first t htn)
        (fun j hj => u.itl j (J.ltn (hb j hj).1)) (fun j hj => u.oth j (J.ltn (hb j hj).1) (by simp))
        (fun _ => u.oth t htn (by simp))
    have xt : f.X (computeFields O (computeFields O s₁ t below) a (some t)).heap t = f.form s.heap t below := by
      rw [u2.oth t htn'' (by simpa using hta), x1, fm]
    refine ⟨?_, xt, ?_, ?_, ?_⟩
    · refine ((u.trans u1 (by simpa using htn) (by simp)).trans u2 (by simpa using han) (by simp)).mono ?_ ?_
      · simp
      · simp
    · rw [x2, form_some, g1.first, g1.first, ev.first t htn, ev.first a han, x1, fm, u1.itl t htn', u.itl t htn]
    · rw [u2.res t htn'' (by simpa using hta), r1, xt, fm, k1, ev.first t htn]
    · rw [r2, x2, g1.first, u1.mark a han' (by simp), k2, ev.first a han]

theorem checkBelow_upd {s s' : Store α} {Ex : ℕ → ℕ → Prop} {l₁ l₂ : List ℕ} {t b : ℕ}
    (S : St ε Pt Y s (l₁ ++ b :: l₂) F p Ex) (ht : t ∈ l₁ ++ b :: l₂) (hbt : b ≠ t)
    (h : checkBelow O (l₁ ++ b :: l₂) s t (some b) = .ok s') :
    (¬ (Col (absSeg ε s.heap b) (absSeg ε s.heap t) ∧ s.heap.start b = s.heap.start t) → f.Upd s s' [] [b, t]) ∧
    (Col (absSeg ε s.heap b) (absSeg ε s.heap t) ∧ s.heap.start b = s.heap.start t →
      f.Upd s s' [b, t] [b, t] ∧
      f.X s'.heap b = f.form s.heap b l₁.getLast? ∧
      f.X s'.heap t = (if s.heap.first b = s.heap.first t then f.form s.heap b l₁.getLast? else f.I s.heap b) ∧
      f.R s'.heap b = f.rule (s.heap.first b) (f.X s'.heap b) (f.kind (f.I s.heap b) (f.I s.heap t)) ∧
      f.R s'.heap t = f.rule (s.heap.first t) (f.X s'.heap t) (f.kind (f.I s.heap b) (f.I s.heap t))) := by
  obtain ⟨A, r, J⟩ := S.inv
  have hbL : b ∈ l₁ ++ b :: l₂ := by simp
  have htn := J.ltn ht
  have hbn := J.ltn hbL
  obtain ⟨s₁, c, e, S', ev, hct⟩ := S.detect (O := O) hbL ht hbt
  obtain ⟨u, k⟩ := f.detect_upd S.ok hbn htn hbt e
  unfold checkBelow at h
  dsimp only at h
  rw [e] at h
  cases c with
  | false =>
    cases h
    exact ⟨fun _ => u, fun hh => absurd (hct.2 hh) (by simp)⟩
  | true =>
    refine ⟨fun hh => absurd (hct.1 rfl) hh, fun _ => ?_⟩
    obtain ⟨A', r', J'⟩ := S'.inv
    dsimp only at h
    rw [lineBelow_append (line_eq_false r' J')] at h
    cases h
    obtain ⟨k1, k2⟩ := k rfl
    set below := l₁.getLast? with hbelow
    have hb : ∀ j, below = some j → j ∈ l₁ ++ b :: l₂ := fun j hj => by
      have := List.mem_of_getLast? hj
      simp [this]
    obtain ⟨u1, x1, r1⟩ := f.compute_upd s₁ b below
    obtain ⟨u2, x2, r2⟩ := f.compute_upd (computeFields O s₁ b below) t (some b)
    obtain ⟨g1, -⟩ := computeFields_geo O s₁ b below
    have htn' : t < s₁.heap.count := htn.trans_le u.count
    have hbn' : b < s₁.heap.count := hbn.trans_le u.count
    have htn'' : t < (computeFields O s₁ b below).heap.count := by rw [g1.count]; exact htn'
    have hbn'' : b < (computeFields O s₁ b below).heap.count := by rw [g1.count]; exact hbn'
    have fm : f.form s₁.heap b below = f.form s.heap b below := by
      refine f.form_congr (fun j hj => ev.first j (J.ltn (hb j hj))) (ev.first b hbn)
        (fun j hj => u.itl j (J.ltn (hb j hj))) (fun j hj => u.oth j (J.ltn (hb j hj)) (by simp))
        (fun _ => u.oth b hbn (by simp))
    have xb : f.X (computeFields O (computeFields O s₁ b below) t (some b)).heap b = f.form s.heap b below := by
      rw [u2.oth b hbn'' (by simpa using hbt), x1, fm]
    refine ⟨?_, xb, ?_, ?_, ?_⟩
    · refine ((u.trans u1 (by simpa using hbn) (by simp)).trans u2 (by simpa using htn) (by simp)).mono ?_ ?_
      · simp
      · simp
    · rw [x2, form_some, g1.first, g1.first, ev.first b hbn, ev.first t htn, x1, fm, u1.itl b hbn', u.itl b hbn]
    · rw [u2.res b hbn'' (by simpa using hbt), r1, xb, fm, k1, ev.first b hbn]
    · rw [r2, x2, g1.first, u1.mark t htn' (by simp), k2, ev.first t htn]

end Flags

end Clipping

import Verif.Lemmas.Below.Touch

/-!
# Where segments are cut

Segments end where segments have ended before, where a segment of the sweep line starts, or where two segments of it
cross.
-/

namespace Clipping.Sweep

variable {α : Type} {O : Ops α} {ε : ℚ} {Pt : List Point} {Y : ℚ → ℚ} {L F : List ℕ} {p : ℚ} {Ex Ex' : ℕ → ℕ → Prop}
  {s s' s'' : Store α}

/-- A place where segments of the list may be cut, or where something ends. -/
def CutOf (ε : ℚ) (L : List ℕ) (h : Heap α) (c : ℚ) : Prop :=
  (∃ k < h.count, (absSeg ε h k).b = c) ∨ (∃ u ∈ L, (absSeg ε h u).a = c) ∨
    ∃ u ∈ L, ∃ v ∈ L, ¬ Col (absSeg ε h u) (absSeg ε h v) ∧ Com (absSeg ε h u) (absSeg ε h v) c

theorem Cuts.stops {u v : ℕ} {G : ℚ → Prop} {A : ℕ → Seg} {n : ℕ} {A' : ℕ → Seg} {n' : ℕ} (h : Cuts u v G A n A' n')
    (hu : u < n) (hv : v < n) : n ≤ n' ∧ ∀ i < n', (∃ k < n, (A k).b = (A' i).b) ∨ G (A' i).b := by
  induction h with
  | refl => exact ⟨le_refl _, fun i hi => Or.inl ⟨i, hi, rfl⟩⟩
  | @step A' n' j c _ hj h1 h2 hG ih =>
    obtain ⟨i1, i2⟩ := ih
    have hjn : j < n' := by rcases hj with rfl | rfl <;> omega
    refine ⟨by omega, fun i hi => ?_⟩
    rcases Nat.lt_succ_iff_lt_or_eq.1 hi with h | rfl
    · by_cases e : i = j
      · subst e
        rw [cut_i _ h]
        exact Or.inr hG
      · rw [cut_j _ h e]
        exact i2 i h
    · rw [cut_n]
      exact i2 j hjn

theorem St.detect_cuts (S : St ε Pt Y s L F p Ex) {u v : ℕ} (hu : u ∈ L) (hv : v ∈ L) (huv : u ≠ v) {b : Bool}
    (e : detectIntersection O.toPayload s u v = .ok (s', b)) :
    ∀ i < s'.heap.count, CutOf ε L s.heap (absSeg ε s'.heap i).b := by
  have I := S.inv'
  have r : Rep ε s.heap (absSeg ε s.heap) := fun i _ => rfl
  have hun : u < s.heap.count := I.ltn hu
  have hvn : v < s.heap.count := I.ltn hv
  obtain ⟨s₁, b₁, e₁, d, -, -⟩ := detect_divs (P := O.toPayload) (s := s) (ε := ε) (Pt := Pt) S.ok hun hvn huv
    (I.proper u hun) (I.proper v hvn) S.pts.ord
    (S.pts.mem u hun) (S.pts.mem v hvn) (S.pts.cross u hun v hvn) (by
      intro hc h1 h2 hf
      rcases I.noOv u hun v hvn huv hc hf with h | h <;> linarith)
  rw [e] at e₁
  cases e₁
  have dis : ∀ i ∈ L, i ∉ F := fun i hi hF => (List.disjoint_of_nodup_append I.nodup) hi hF
  obtain ⟨A', r', c, -, -, -, -, -⟩ := d.st S.ok S.pts S.queue r I.bound I.proper hu hv (dis u hu) (dis v hv)
  intro i hi
  rw [← r' i hi]
  rcases (c.stops hun hvn).2 i hi with h | ⟨h, h' | h' | h'⟩
  · exact Or.inl h
  · exact Or.inr (Or.inr ⟨u, hu, v, hv, h', h⟩)
  · rcases h' with h' | h'
    · exact Or.inr (Or.inl ⟨u, hu, h'.symm⟩)
    · exact Or.inl ⟨u, hun, h'.symm⟩
  · rcases h' with h' | h'
    · exact Or.inr (Or.inl ⟨v, hv, h'.symm⟩)
    · exact Or.inl ⟨v, hvn, h'.symm⟩

/-- A place of a later store is one of an earlier store. -/
theorem CutOf.back (S : St ε Pt Y s L F p Ex) (S' : St ε Pt Y s' L F p Ex') {M : List ℕ} (ev : Evolves O ε Pt M s s')
    (cu : ∀ i < s'.heap.count, CutOf ε L s.heap (absSeg ε s'.heap i).b) {c : ℚ} (h : CutOf ε L s'.heap c) :
    CutOf ε L s.heap c := by
  rcases h with ⟨k, hk, rfl⟩ | ⟨u, hu, rfl⟩ | ⟨u, hu, v, hv, hc, hm⟩
  · exact cu k hk
  · exact Or.inr (Or.inl ⟨u, hu, (ev.abs S S' (S.inv'.ltn hu)).2.2.1.symm⟩)
  · obtain ⟨u1, -, u3, u4⟩ := ev.abs S S' (S.inv'.ltn hu)
    obtain ⟨v1, -, v3, v4⟩ := ev.abs S S' (S.inv'.ltn hv)
    refine Or.inr (Or.inr ⟨u, hu, v, hv, fun h => hc (u1.trans (h.trans v1.symm)), ?_⟩)
    exact com_sub hm u3.ge u4 v3.ge v4 u1.1 u1.2 v1.1 v1.2

theorem SameGeo.cutOf (g : SameGeo s.heap s'.heap) {c : ℚ} : CutOf ε L s'.heap c ↔ CutOf ε L s.heap c := by
  unfold CutOf
  simp only [g.count, g.absSeg]

theorem SameGeo.cuts (g : SameGeo s.heap s'.heap) :
    ∀ i < s'.heap.count, CutOf ε L s.heap (Sweep.absSeg ε s'.heap i).b :=
  fun i hi => Or.inl ⟨i, by rw [← g.count]; exact hi, by rw [g.absSeg]⟩

theorem checkAbove_cuts (S : St ε Pt Y s L F p Ex) {t : ℕ} (ht : t ∈ L) {above below : Option ℕ}
    (ha : ∀ a, above = some a → a ∈ L ∧ t ≠ a) (e : checkAbove O s t above below = .ok s') :
    ∀ i < s'.heap.count, CutOf ε L s.heap (absSeg ε s'.heap i).b := by
  cases above with
  | none => cases e; exact SameGeo.cuts (.refl _)
  | some a =>
    obtain ⟨haL, hta⟩ := ha a rfl
    obtain ⟨s₁, b, e₁, -⟩ := S.detect (O := O) ht haL hta
    have c := S.detect_cuts ht haL hta e₁
    unfold checkAbove at e
    dsimp only at e
    rw [e₁] at e
    cases b with
    | false => cases e; exact c
    | true =>
      cases e
      intro i hi
      obtain ⟨g1, -⟩ := computeFields_geo O s₁ t below
      obtain ⟨g2, -⟩ := computeFields_geo O (computeFields O s₁ t below) a (some t)
      rw [(g1.trans g2).absSeg]
      exact c i (by rw [← (g1.trans g2).count]; exact hi)

theorem checkBelow_cuts (S : St ε Pt Y s L F p Ex) {t : ℕ} (ht : t ∈ L) {below : Option ℕ}
    (hb : ∀ a, below = some a → a ∈ L ∧ a ≠ t) (line : List ℕ) (e : checkBelow O line s t below = .ok s') :
    ∀ i < s'.heap.count, CutOf ε L s.heap (absSeg ε s'.heap i).b := by
  cases below with
  | none => cases e; exact SameGeo.cuts (.refl _)
  | some a =>
    obtain ⟨haL, hta⟩ := hb a rfl
    obtain ⟨s₁, b, e₁, -⟩ := S.detect (O := O) haL ht hta
    have c := S.detect_cuts haL ht hta e₁
    unfold checkBelow at e
    dsimp only at e
    rw [e₁] at e
    cases b with
    | false => cases e; exact c
    | true =>
      cases e
      intro i hi
      obtain ⟨g1, -⟩ := computeFields_geo O s₁ a (lineBelow s₁.heap line a)
      obtain ⟨g2, -⟩ := computeFields_geo O (computeFields O s₁ a (lineBelow s₁.heap line a)) t (some a)
      rw [(g1.trans g2).absSeg]
      exact c i (by rw [← (g1.trans g2).count]; exact hi)

/-- A left event. -/
theorem processLeft_cuts (S : St ε Pt Y s L F p NoEx) {t : ℕ} (he : Ev.left t ∈ s.queue)
    (hmin : ∀ f ∈ s.queue, precedes s.heap f (.left t) = false) {r : SweepState α}
    (h : processLeft O ⟨{ s with queue := s.queue.erase (.left t) }, L⟩ t = .ok r) :
    ∀ i < r.store.heap.count, CutOf ε r.line s.heap (absSeg ε r.store.heap i).b := by
  obtain ⟨hcon, l₁, l₂, hL, hadd, heq, htL, S1⟩ := S.pushed he hmin
  set s0 : Store α := { s with queue := s.queue.erase (.left t) } with hs0
  have hh : s0.heap = s.heap := rfl
  obtain ⟨g1, q1⟩ := computeFields_geo O s0 t l₁.getLast?
  set s1 := computeFields O s0 t l₁.getLast? with hs1
  have S2 := g1.st q1 S1
  have htm : t ∈ l₁ ++ t :: l₂ := by simp
  have ndt : ∀ x ∈ l₁ ++ l₂, x ≠ t := by
    rintro x hx rfl
    exact htL (hL ▸ hx)
  have a1 : ∀ a, l₂.head? = some a → a ∈ l₁ ++ t :: l₂ ∧ t ≠ a := by
    intro a ha
    have : a ∈ l₂ := List.mem_of_mem_head? ha
    exact ⟨by simp [this], (ndt a (by simp [this])).symm⟩
  have a2 : ∀ a, l₁.getLast? = some a → a ∈ l₁ ++ t :: l₂ ∧ a ≠ t := by
    intro a ha
    have : a ∈ l₁ := List.mem_of_getLast? ha
    exact ⟨by simp [this], ndt a (by simp [this])⟩
  obtain ⟨s2, e2, S3, ev2⟩ := checkAbove_spec O S2 htm (above := l₂.head?) (below := l₁.getLast?) a1
  obtain ⟨s3, e3, S4, ev3⟩ := checkBelow_spec O S3 htm (below := l₁.getLast?) a2 (l₁ ++ t :: l₂)
  have e : processLeft O ⟨s0, L⟩ t = .ok ⟨s3, l₁ ++ t :: l₂⟩ := by
    unfold processLeft
    dsimp only
    rw [hh, hcon, Bool.and_false, if_neg (by simp), hadd, lineAbove_append heq, lineBelow_append heq,
      ← hs1, e2]
    dsimp only
    rw [e3]
  rw [e] at h
  cases h
  intro i hi
  have c2 := checkAbove_cuts S2 htm a1 e2
  have c3 := checkBelow_cuts S3 htm a2 _ e3 i hi
  have := c3.back S2 S3 ev2 c2
  rw [g1.cutOf] at this
  exact this

/-- A right event. -/
theorem processRight_cuts (S : St ε Pt Y s L F p NoEx) {j : ℕ} (he : Ev.right j ∈ s.queue)
    (hmin : ∀ f ∈ s.queue, precedes s.heap f (.right j) = false) {r : SweepState α}
    (h : processRight O ⟨{ s with queue := s.queue.erase (.right j) }, L⟩ (s.heap.rights j).left = .ok r) :
    ∀ i < r.store.heap.count, CutOf ε r.line s.heap (absSeg ε r.store.heap i).b := by
  obtain ⟨l₁, l₂, hL, heq, hj, S1⟩ := S.pulled he hmin
  set i := (s.heap.rights j).left with hi
  set s0 : Store α := { s with queue := s.queue.erase (.right j) } with hs0
  have hh : s0.heap = s.heap := rfl
  have nd : (l₁ ++ l₂).Nodup := by obtain ⟨A, r, I⟩ := S1.inv; exact I.nodupL
  have red : processRight O ⟨s0, L⟩ i = (match l₁.getLast?, l₂.head? with
      | some b, some a =>
        match detectIntersection O.toPayload s0 b a with
        | .error e => .error e
        | .ok (s', _) => .ok ⟨s', l₁ ++ l₂⟩
      | _, _ => .ok ⟨s0, l₁ ++ l₂⟩) := by
    unfold processRight
    dsimp only
    rw [hh, hL, lineContains_append, if_pos rfl, lineAbove_append heq, lineBelow_append heq,
      lineRemove_append heq]
    cases l₁.getLast? <;> cases l₂.head? <;> rfl
  rw [red] at h
  rcases hb : l₁.getLast? with _ | b
  · rw [hb] at h
    cases h
    exact SameGeo.cuts (s := s) (.refl _)
  rcases ha : l₂.head? with _ | a
  · rw [hb, ha] at h
    cases h
    exact SameGeo.cuts (s := s) (.refl _)
  have hbm : b ∈ l₁ := List.mem_of_getLast? hb
  have ham : a ∈ l₂ := List.mem_of_mem_head? ha
  have nba := (List.nodup_append.1 nd).2.2 b hbm a ham
  obtain ⟨s', f, e, S2, ev, -⟩ := S1.detect (O := O) (u := b) (v := a) (by simp [hbm]) (by simp [ham]) nba
  have c := S1.detect_cuts (O := O) (u := b) (v := a) (by simp [hbm]) (by simp [ham]) nba e
  rw [hb, ha] at h
  dsimp only at h
  rw [e] at h
  cases h
  exact c

end Clipping.Sweep

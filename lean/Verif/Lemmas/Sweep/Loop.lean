import Verif.Lemmas.Sweep.Process

/-!
# The loop of the sweep
-/

namespace Clipping

variable {α : Type}

/-- States of the loop of `sweep`, with the log of processed events (last one first).  One step is one
iteration of the loop. -/
inductive Reach (O : Ops α) (tb : TieBreak) (init : SweepState α) :
    SweepState α → List (Ev × ℕ) → Prop
  | init : Reach O tb init init []
  | step {s s' : SweepState α} {log : List (Ev × ℕ)} {e : Ev} {q : List Ev} : Reach O tb init s log →
      pop tb s.store = some (e, q) →
      processEvent O { s with store := { s.store with queue := q } } e = .ok s' →
      Reach O tb init s' ((e, s'.store.heap.primary e) :: log)

/-- An invariant of the steps together with a measure describes the result of the loop. -/
theorem sweepLoop_rule {O : Ops α} {tb : TieBreak} {stop : Point → Bool}
    (Q : SweepState α → List (Ev × ℕ) → Prop) (M : SweepState α → ℕ)
    (step : ∀ s log e q, Q s log → pop tb s.store = some (e, q) →
      stop (s.store.heap.evStart e) = false →
      ∃ s', processEvent O { s with store := { s.store with queue := q } } e = .ok s' ∧
        Q s' ((e, s'.store.heap.primary e) :: log) ∧ M s' < M s) :
    ∀ fuel s log, Q s log → M s < fuel → ∃ s' log', sweepLoop O tb stop fuel s log = .ok (s', log'.reverse) ∧
      Q s' log' ∧ (pop tb s'.store = none ∨
        ∃ e q, pop tb s'.store = some (e, q) ∧ stop (s'.store.heap.evStart e) = true) := by
  intro fuel
  induction fuel with
  | zero => intro s log _ h; omega
  | succ fuel ih =>
    intro s log hQ hM
    unfold sweepLoop
    rcases hp : pop tb s.store with _ | ⟨e, q⟩
    · exact ⟨s, log, rfl, hQ, Or.inl hp⟩
    · dsimp only
      by_cases hs : stop (s.store.heap.evStart e) = true
      · rw [if_pos hs]
        exact ⟨s, log, rfl, hQ, Or.inr ⟨e, q, hp, hs⟩⟩
      · rw [if_neg hs]
        obtain ⟨s', e', Q', M'⟩ := step s log e q hQ hp (by simpa using hs)
        rw [e']
        dsimp only
        exact ih s' _ Q' (by omega)

namespace Sweep

variable {ε : ℚ} {Pt : List Point} {Y : ℚ → ℚ} {s : Store α} {L F : List ℕ} {p : ℚ}
  {log : List (Ev × ℕ)}

/-- The log (last event first) agrees with the state. -/
structure LogOk (ε : ℚ) (s : Store α) (L F : List ℕ) (p : ℚ) (log : List (Ev × ℕ)) : Prop where
  nodup : (log.map Prod.fst).Nodup
  left : ∀ i, Ev.left i ∈ log.map Prod.fst ↔ i ∈ L ∨ i ∈ F
  right : ∀ j, Ev.right j ∈ log.map Prod.fst ↔ ∃ i ∈ F, (s.heap.lefts i).right = j
  prim : ∀ x ∈ log, x.2 = s.heap.primary x.1
  fin : F = (log.filterMap fun (e, i) => if Heap.isLeft e then none else some i).reverse
  sorted : log.Pairwise fun x y => s.heap.evStart y.1 ≤ s.heap.evStart x.1
  le : ∀ x ∈ log, evX ε s.heap x.1 ≤ p

theorem evStart_evolves {O : Ops α} {L : List ℕ} {s s' : Store α} (ev : Evolves O ε Pt L s s') {e : Ev}
    (h : EvOk s.heap e) : s'.heap.evStart e = s.heap.evStart e := by
  cases e with
  | left i => exact ev.start i h
  | right j => exact ev.rstart j h

theorem LogOk.evOk (S : St ε Pt Y s L F p NoEx) (l : LogOk ε s L F p log) : ∀ x ∈ log, EvOk s.heap x.1 := by
  obtain ⟨A, r, I⟩ := S.inv
  rintro ⟨e, i⟩ hx
  have hm : e ∈ log.map Prod.fst := List.mem_map_of_mem (f := Prod.fst) hx
  cases e with
  | left i =>
    rw [l.left] at hm
    exact I.bound i (by simpa using hm)
  | right j =>
    rw [l.right] at hm
    obtain ⟨i, hi, rfl⟩ := hm
    exact S.ok.rlt i (I.bound i (by simp [hi]))

/-- The log after an event, from what is known of the step. -/
theorem LogOk.push {s' : Store α} {L' M F' : List ℕ} {p' : ℚ} {e : Ev} (S : St ε Pt Y s L F p NoEx)
    (l : LogOk ε s L F p log) (S' : St ε Pt Y s' L' F' p' NoEx) (ev : Evolves O ε Pt M s s')
    (hM : ∀ i ∈ F, i ∉ M) (hp' : p' = evX ε s.heap e) (hp : p ≤ p') (heo : EvOk s.heap e)
    (hn : e ∉ log.map Prod.fst)
    (hl : ∀ i, i ∈ L' ∨ i ∈ F' ↔ (i ∈ L ∨ i ∈ F) ∨ e = Ev.left i)
    (hr : ∀ j, (∃ i ∈ F', (s'.heap.lefts i).right = j) ↔
      (∃ i ∈ F, (s.heap.lefts i).right = j) ∨ e = Ev.right j)
    (hf : F' = F ++ (if Heap.isLeft e then [] else [s'.heap.primary e])) :
    LogOk ε s' L' F' p' ((e, s'.heap.primary e) :: log) := by
  obtain ⟨A, r, I⟩ := S.inv
  have hFb : ∀ i ∈ F, i < s.heap.count := fun i hi => I.bound i (by simp [hi])
  have st : ∀ x ∈ log, s'.heap.evStart x.1 = s.heap.evStart x.1 := fun x hx =>
    evStart_evolves ev (l.evOk S x hx)
  have ste : s'.heap.evStart e = s.heap.evStart e := evStart_evolves ev heo
  have mem : ∀ e, EvOk s.heap e → s.heap.evStart e ∈ Pt := fun e he => evStart_mem S.ok S.pts he
  refine ⟨?_, ?_, ?_, ?_, ?_, ?_, ?_⟩
  · simp only [List.map_cons, List.nodup_cons]
    exact ⟨hn, l.nodup⟩
  · intro i
    rw [hl i, ← l.left i]
    simp only [List.map_cons, List.mem_cons]
    constructor
    · rintro (h | h)
      · exact Or.inr h.symm
      · exact Or.inl h
    · rintro (h | h)
      · exact Or.inr h
      · exact Or.inl h.symm
  · intro j
    rw [hr j, ← l.right j]
    simp only [List.map_cons, List.mem_cons]
    constructor
    · rintro (h | h)
      · exact Or.inr h.symm
      · exact Or.inl h
    · rintro (h | h)
      · exact Or.inr h
      · exact Or.inl h.symm
  · rintro x hx
    rcases List.mem_cons.1 hx with rfl | hx
    · rfl
    · rw [l.prim x hx]
      obtain ⟨e', i'⟩ := x
      cases e' with
      | left i => rfl
      | right j =>
        have hm : Ev.right j ∈ log.map Prod.fst := List.mem_map_of_mem (f := Prod.fst) hx
        rw [l.right] at hm
        obtain ⟨i, hi, rfl⟩ := hm
        have e1 := ev.right i (hFb i hi) (hM i hi)
        simp only [Heap.primary]
        rw [S.ok.lr i (hFb i hi), ← e1, S'.ok.lr i ((hFb i hi).trans_le ev.count)]
  · rw [hf]
    cases e with
    | left i => simp only [Heap.isLeft, if_true, List.append_nil, List.filterMap_cons]; exact l.fin
    | right j =>
      simp only [Heap.isLeft, Bool.false_eq_true, if_false, List.filterMap_cons, List.reverse_cons]
      rw [l.fin]
      rfl
  · rw [List.pairwise_cons]
    constructor
    · intro x hx
      rw [ste, st x hx, S.pts.ord.le_iff (mem _ (l.evOk S x hx)) (mem e heo)]
      have := l.le x hx
      have h2 : sx ε (s.heap.evStart e) = p' := hp'.symm
      rw [h2]
      exact this.trans hp
    · refine l.sorted.imp_of_mem ?_
      intro x y hx hy h
      rw [st x hx, st y hy]; exact h
  · rintro x hx
    rcases List.mem_cons.1 hx with rfl | hx
    · unfold evX
      simp only [ste]
      exact hp'.ge
    · have := l.le x hx
      unfold evX at this ⊢
      rw [st x hx]
      exact this.trans hp

/-- One iteration of the loop. -/
theorem St.step (O : Ops α) {tb : TieBreak} {s : SweepState α} (S : St ε Pt Y s.store s.line F p NoEx)
    (l : LogOk ε s.store s.line F p log) {e : Ev} {q : List Ev} (hpop : pop tb s.store = some (e, q)) :
    ∃ s' F', processEvent O { s with store := { s.store with queue := q } } e = .ok s' ∧
      St ε Pt Y s'.store s'.line F' (evX ε s.store.heap e) NoEx ∧
      LogOk ε s'.store s'.line F' (evX ε s.store.heap e) ((e, s'.store.heap.primary e) :: log) ∧
      (∀ b, opPts s'.store.heap b = opPts s.store.heap b) ∧
      (∀ e, EvOk s.store.heap e → s'.store.heap.evStart e = s.store.heap.evStart e) ∧
      potential ε Pt s'.store < potential ε Pt s.store ∧
      s.store.heap.count ≤ s'.store.heap.count ∧
      (∀ i < s.store.heap.count, s'.store.heap.first i = s.store.heap.first i) ∧
      (∀ i < s'.store.heap.count, ∃ k < s.store.heap.count, Part O s.store.heap s'.store.heap k i) ∧
      (∀ k < s.store.heap.count, ∀ q ∈ (s.store.heap.segment k).pts, ∃ i < s'.store.heap.count,
        Part O s.store.heap s'.store.heap k i ∧ q ∈ (s'.store.heap.segment i).pts) ∧
      ∃ M, Evolves O ε Pt M s.store s'.store := by
  obtain ⟨A, r, I⟩ := S.inv
  have pr : ∀ i < s.store.heap.count, (absSeg ε s.store.heap i).a < (absSeg ε s.store.heap i).b :=
    fun i hi => by rw [← r i hi]; exact I.proper i hi
  obtain ⟨he, rfl, hmin⟩ := (pop_spec (tb := tb) S.ok S.pts pr S.queue.evOk).2 e q hpop
  have dis : ∀ i ∈ s.line, i ∉ F := fun i hi hF => (List.disjoint_of_nodup_append I.nodup) hi hF
  have hFb : ∀ i ∈ F, i < s.store.heap.count := fun i hi => I.bound i (by simp [hi])
  obtain ⟨n1, -, -, nl, nr⟩ := S.next he hmin r I
  have heo : EvOk s.store.heap e := S.queue.evOk e he
  cases e with
  | left t =>
    obtain ⟨s', e1, S', ev, pm, pot⟩ := processLeft_spec O S he hmin
    obtain ⟨t1, t2, t3, -⟩ := nl t rfl
    have hM : ∀ i ∈ F, i ∉ t :: s.line := by
      intro i hi hm
      rcases List.mem_cons.1 hm with rfl | hm
      · exact t3 hi
      · exact dis i hm hi
    refine ⟨s', F, e1, S', l.push S S' ev hM rfl n1 heo ?_ ?_ ?_ ?_, ev.pts,
      fun e h => evStart_evolves ev h, by omega, ev.count, ev.first, ev.sub, ev.cov, _, ev⟩
    · rw [l.left]; tauto
    · intro i
      rw [pm.mem_iff, List.mem_cons, Ev.left.injEq, eq_comm (a := t)]
      tauto
    · intro j
      have : ∀ i ∈ F, (s'.store.heap.lefts i).right = (s.store.heap.lefts i).right := fun i hi =>
        ev.right i (hFb i hi) (hM i hi)
      constructor
      · rintro ⟨i, hi, rfl⟩; exact Or.inl ⟨i, hi, (this i hi).symm⟩
      · rintro (⟨i, hi, rfl⟩ | h)
        · exact ⟨i, hi, this i hi⟩
        · cases h
    · simp [Heap.isLeft]
  | right j =>
    obtain ⟨s', e1, S', ev, pm, pot⟩ := processRight_spec O S he hmin
    obtain ⟨j1, j2, -, -⟩ := nr j rfl
    set i := (s.store.heap.rights j).left with hi
    obtain ⟨A', r', I'⟩ := S'.inv
    have hin : i < s.store.heap.count := I.ltn j2
    have hiL : i ∉ s'.line := by
      intro h
      have := (pm.nodup_iff.1 I.nodupL)
      exact (List.nodup_cons.1 this).1 h
    have hM : ∀ i ∈ F, i ∉ s'.line := by
      intro k hk hm
      exact dis k (pm.mem_iff.2 (by simp [hm])) hk
    have hri : (s'.store.heap.lefts i).right = j := by
      rw [ev.right i hin hiL, hi]; exact S.ok.rl j j1
    have hpj : s'.store.heap.primary (.right j) = i := by
      simp only [Heap.primary]
      rw [← hri]; exact S'.ok.lr i (hin.trans_le ev.count)
    refine ⟨s', F ++ [i], e1, S', l.push S S' ev hM rfl n1 heo ?_ ?_ ?_ ?_, ev.pts,
      fun e h => evStart_evolves ev h, by omega, ev.count, ev.first, ev.sub, ev.cov, _, ev⟩
    · rw [l.right]
      rintro ⟨k, hk, hkj⟩
      have : k = i := by
        rw [hi, ← hkj]; exact (S.ok.lr k (hFb k hk)).symm
      exact dis i j2 (this ▸ hk)
    · intro k
      rw [pm.mem_iff]
      simp only [List.mem_append, List.mem_cons, List.not_mem_nil, or_false, reduceCtorEq]
      tauto
    · intro k
      have : ∀ i ∈ F, (s'.store.heap.lefts i).right = (s.store.heap.lefts i).right := fun i hi =>
        ev.right i (hFb i hi) (hM i hi)
      constructor
      · rintro ⟨x, hx, rfl⟩
        rcases List.mem_append.1 hx with hx | hx
        · exact Or.inl ⟨x, hx, (this x hx).symm⟩
        · rw [List.mem_singleton] at hx
          subst hx
          right; rw [hri]
      · rintro (⟨x, hx, rfl⟩ | h)
        · exact ⟨x, by simp [hx], this x hx⟩
        · cases h
          exact ⟨i, by simp, hri⟩
    · rw [hpj]; simp [Heap.isLeft]

end Sweep

end Clipping

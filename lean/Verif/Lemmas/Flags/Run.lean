import Verif.Lemmas.Flags.Step
import Verif.Lemmas.Sweep.Final

/-!
# Sides and decisions in every state of the sweep
-/

namespace Clipping

open Sweep

variable {α κ : Type} {O : Ops α} {f : Flags O κ} {ε : ℚ} {Pt : List Point} {Y : ℚ → ℚ} {L F : List ℕ} {p : ℚ}

/-- What a left event does. -/
theorem processLeft_flags {s : Store α} (S : St ε Pt Y s L F p NoEx) {t : ℕ} (he : Ev.left t ∈ s.queue)
    (hmin : ∀ f ∈ s.queue, precedes s.heap f (.left t) = false) {s' : SweepState α}
    (e : processLeft O ⟨{ s with queue := s.queue.erase (.left t) }, L⟩ t = .ok s') :
    ∃ l₁ l₂, s'.line = l₁ ++ t :: l₂ ∧
      LeftGeo Y (absSeg ε s.heap) s.heap.count L F (evX ε s.heap (.left t)) t l₁ l₂ ∧
      LeftData f ε s s'.store t l₁ l₂ := by
  obtain ⟨l₁, l₂, hadd, hcon, heq, G, S1⟩ := S.leftGeo he hmin
  refine ⟨l₁, l₂, ?_⟩
  unfold processLeft at e
  dsimp only at e
  rw [hcon, Bool.and_false, if_neg (by simp), hadd, lineAbove_append heq, lineBelow_append heq] at e
  cases e2 : checkAbove O (computeFields O { s with queue := s.queue.erase (.left t) } t l₁.getLast?) t l₂.head?
    l₁.getLast? with
  | error x => rw [e2] at e; cases e
  | ok s₂ =>
    rw [e2] at e
    dsimp only at e
    cases e3 : checkBelow O (l₁ ++ t :: l₂) s₂ t l₁.getLast? with
    | error x => rw [e3] at e; cases e
    | ok s₃ =>
      rw [e3] at e
      cases e
      have ld := left_data (f := f) S1 e2 e3
      exact ⟨rfl, G, ld.count, ld.itl, ld.rest, ld.mark, ld.fresh, ld.self, ld.above, ld.below, ld.alone⟩

/-- What a right event does. -/
theorem processRight_flags {s : Store α} (S : St ε Pt Y s L F p NoEx) {j : ℕ} (he : Ev.right j ∈ s.queue)
    (hmin : ∀ f ∈ s.queue, precedes s.heap f (.right j) = false) {s' : SweepState α}
    (e : processRight O ⟨{ s with queue := s.queue.erase (.right j) }, L⟩ (s.heap.rights j).left = .ok s') :
    ∃ m, f.Upd s s'.store [] m ∧ ∀ i ∈ m, i ∈ L := by
  obtain ⟨l₁, l₂, hL, heq, hj, S1⟩ := S.pulled he hmin
  set i := (s.heap.rights j).left with hi
  set s0 : Store α := { s with queue := s.queue.erase (.right j) } with hs0
  have hh : s0.heap = s.heap := rfl
  have nd : (l₁ ++ l₂).Nodup := by obtain ⟨A, r, I⟩ := S1.inv; exact I.nodupL
  have red : processRight O ⟨s0, L⟩ i = (match l₁.getLast?, l₂.head? with
      | some b, some a =>
        match detectIntersection O.toPayload s0 b a with
        | .error e => .error e
        | .ok (s', _) => .ok ⟨s', l₁ ++ l₂⟩
      | _, _ => .ok ⟨s0, l₁ ++ l₂⟩) := by
    unfold processRight
    dsimp only
    rw [hh, hL, lineContains_append, if_pos rfl, lineAbove_append heq, lineBelow_append heq,
      lineRemove_append heq]
    cases l₁.getLast? <;> cases l₂.head? <;> rfl
  rw [red] at e
  have r0 : f.Upd s s0 [] [] :=
    ⟨le_rfl, fun _ _ => rfl, fun _ _ _ => rfl, fun _ _ _ => rfl, fun _ _ _ => rfl,
      fun _ h h' => absurd h (not_lt.2 h')⟩
  rcases hb : l₁.getLast? with _ | b
  · rw [hb] at e
    cases e
    exact ⟨[], r0, by simp⟩
  rcases ha : l₂.head? with _ | a
  · rw [hb, ha] at e
    cases e
    exact ⟨[], r0, by simp⟩
  rw [hb, ha] at e
  dsimp only at e
  have hbm : b ∈ l₁ := List.mem_of_getLast? hb
  have ham : a ∈ l₂ := List.mem_of_mem_head? ha
  have I1 := S1.inv'
  cases hd : detectIntersection O.toPayload s0 b a with
  | error x => rw [hd] at e; cases e
  | ok x =>
    obtain ⟨s1, c⟩ := x
    rw [hd] at e
    cases e
    obtain ⟨u, -⟩ := f.detect_upd S1.ok (I1.ltn (by simp [hbm])) (I1.ltn (by simp [ham]))
      ((List.nodup_append.1 nd).2.2 b hbm a ham) hd
    refine ⟨[b, a], ⟨u.count, u.itl, u.oth, u.res, u.mark, u.fresh⟩, ?_⟩
    intro x hx
    rw [hL]
    simp only [List.mem_cons, List.not_mem_nil, or_false] at hx
    rcases hx with rfl | rfl
    · simp [hbm]
    · simp [ham]

/-- One iteration of the loop. -/
theorem flags_step {tb : TieBreak} {s s' : SweepState α} {log : List (Ev × ℕ)}
    (S : St ε Pt Y s.store s.line F p NoEx) (l : LogOk ε s.store s.line F p log) {e : Ev} {q : List Ev}
    (hpop : pop tb s.store = some (e, q))
    (hev : processEvent O { s with store := { s.store with queue := q } } e = .ok s')
    (D : DataInv f ε s.store s.line F) :
    ∃ F', St ε Pt Y s'.store s'.line F' (evX ε s.store.heap e) NoEx ∧
      LogOk ε s'.store s'.line F' (evX ε s.store.heap e) ((e, s'.store.heap.primary e) :: log) ∧
      DataInv f ε s'.store s'.line F' ∧
      (∀ o c t, par (absSeg ε s'.store.heap) s'.store.heap.count o c t =
        par (absSeg ε s.store.heap) s.store.heap.count o c t) ∧
      ∀ o, RegionOk f ε o s.store → SideInv f ε o s.store s.line F →
        RegionOk f ε o s'.store ∧ SideInv f ε o s'.store s'.line F' := by
  obtain ⟨s'', F', e1, S', l', -, -, -, -, -, -, -, M, ev⟩ := S.step O l hpop
  rw [hev] at e1
  cases e1
  have pr : ∀ i < s.store.heap.count, (absSeg ε s.store.heap i).a < (absSeg ε s.store.heap i).b :=
    S.inv'.proper
  obtain ⟨he, rfl, hmin⟩ := (pop_spec (tb := tb) S.ok S.pts pr S.queue.evOk).2 e q hpop
  refine ⟨F', S', l', ?_⟩
  cases e with
  | left t =>
    have hF : F' = F := by
      rw [l'.fin, l.fin]
      simp [Heap.isLeft]
    subst hF
    obtain ⟨l₁, l₂, hl, G, ld⟩ := processLeft_flags (f := f) S he hmin hev
    rw [hl] at S' ⊢
    exact ⟨D.left S S' G ev ld, ev.par, fun o R h => ⟨R.evolves ev S S', h.left S S' G ev R D ld⟩⟩
  | right j =>
    obtain ⟨m, u, hm⟩ := processRight_flags (f := f) S he hmin hev
    have mem : ∀ i, i ∈ s'.line ++ F' ↔ i ∈ s.line ++ F := by
      intro i
      rw [List.mem_append, List.mem_append, ← l'.left, ← l.left]
      simp
    exact ⟨D.keep S S' ev u mem fun i hi => by simp [hm i hi], ev.par,
      fun o R h => ⟨R.evolves ev S S', h.keep S S' ev u mem⟩⟩

/-- Every state of the loop. -/
theorem flags_reach {tb : TieBreak} {init : SweepState α} (S : St ε Pt Y init.store init.line [] p NoEx)
    (hl : init.line = [])
    (hD : ∀ k < init.store.heap.count, f.X init.store.heap k = false ∧ f.K init.store.heap k = f.none)
    {s : SweepState α} {log : List (Ev × ℕ)} (r : Reach O tb init s log) :
    ∃ F p', St ε Pt Y s.store s.line F p' NoEx ∧ LogOk ε s.store s.line F p' log ∧
      DataInv f ε s.store s.line F ∧
      (∀ o c t, par (absSeg ε s.store.heap) s.store.heap.count o c t =
        par (absSeg ε init.store.heap) init.store.heap.count o c t) ∧
      ∀ o, RegionOk f ε o init.store → RegionOk f ε o s.store ∧ SideInv f ε o s.store s.line F := by
  induction r with
  | init =>
    refine ⟨[], p, S, ⟨?_, ?_, ?_, ?_, ?_, ?_, ?_⟩, ⟨fun k hk _ _ => hD k hk, ?_⟩, fun _ _ _ => rfl, fun o R => ⟨R, ?_⟩⟩
    any_goals simp [hl]
    intro i hi
    simp [hl] at hi
  | @step s s' log e q r h1 h2 ih =>
    obtain ⟨F, p', S, l, D, hp, h⟩ := ih
    obtain ⟨F', S', l', D', hp', h'⟩ := flags_step S l h1 h2 D
    exact ⟨F', _, S', l', D', fun o c t => (hp' o c t).trans (hp o c t), fun o R => h' o (h o R).1 (h o R).2⟩

end Clipping

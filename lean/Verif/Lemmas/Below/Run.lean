import Verif.Lemmas.Below.Step

/-!
# Events below after right events, and in every state of the sweep
-/

namespace Clipping

open Sweep

variable {rule : ShapedRule} {ε : ℚ} {Pt : List Point} {Y : ℚ → ℚ} {L F : List ℕ} {p : ℚ}

/-- What a left event does. -/
theorem processLeft_below (hr : RuleOk rule) {s : Store ShapedData} (S : St ε Pt Y s L F p NoEx) {t : ℕ}
    (he : Ev.left t ∈ s.queue) (hmin : ∀ f ∈ s.queue, precedes s.heap f (.left t) = false) {s' : SweepState ShapedData}
    (e : processLeft (holeyOps rule) ⟨{ s with queue := s.queue.erase (.left t) }, L⟩ t = .ok s') :
    ∃ l₁ l₂, s'.line = l₁ ++ t :: l₂ ∧
      LeftGeo Y (absSeg ε s.heap) s.heap.count L F (evX ε s.heap (.left t)) t l₁ l₂ ∧
      LeftData (shapedFlags (isShaped_holey hr)) ε s s'.store t l₁ l₂ ∧ LeftBelow rule ε s s'.store t l₁ l₂ := by
  obtain ⟨l₁, l₂, hadd, hcon, heq, G, S1⟩ := S.leftGeo he hmin
  refine ⟨l₁, l₂, ?_⟩
  unfold processLeft at e
  dsimp only at e
  rw [hcon, Bool.and_false, if_neg (by simp), hadd, lineAbove_append heq, lineBelow_append heq] at e
  cases e2 : checkAbove (holeyOps rule) (computeFields (holeyOps rule) { s with queue := s.queue.erase (.left t) } t
    l₁.getLast?) t l₂.head? l₁.getLast? with
  | error x => rw [e2] at e; cases e
  | ok s₂ =>
    rw [e2] at e
    dsimp only at e
    cases e3 : checkBelow (holeyOps rule) (l₁ ++ t :: l₂) s₂ t l₁.getLast? with
    | error x => rw [e3] at e; cases e
    | ok s₃ =>
      rw [e3] at e
      cases e
      have ld := left_data (f := shapedFlags (isShaped_holey hr)) S1 e2 e3
      have lb := left_below hr S1 e2 e3
      exact ⟨rfl, G, ⟨ld.count, ld.itl, ld.rest, ld.mark, ld.fresh, ld.self, ld.above, ld.below, ld.alone⟩,
        ⟨lb.new, lb.old, lb.self, lb.decided, lb.above, lb.below⟩⟩

/-- What a right event does. -/
structure RightBelow (rule : ShapedRule) (hr : RuleOk rule) (ε : ℚ) (L : List ℕ) (s s' : Store ShapedData) : Prop where
  new : ∀ i < s'.heap.count, s.heap.count ≤ i → Bw s'.heap i = none
  old : ∀ i < s.heap.count, Bw s'.heap i = Bw s.heap i
  upd : ∃ m, (shapedFlags (isShaped_holey hr)).Upd s s' [] m ∧ ∀ i ∈ m, i ∈ L
  data : (∀ i < s.heap.count, (s'.heap.lefts i).data = (s.heap.lefts i).data) ∨
    ∃ b ∈ L, ∃ a ∈ L, b ≠ a ∧ Hot ε s.heap b a ∧ s.heap.first b = true ∧ s.heap.first a = false ∧
      (∀ i < s.heap.count, i ≠ b → i ≠ a → (s'.heap.lefts i).data = (s.heap.lefts i).data) ∧
      (s'.heap.lefts b).data.overlapKind = overlapKindOf (s.heap.lefts b).data.interiorToLeft
        (s.heap.lefts a).data.interiorToLeft ∧
      (s'.heap.lefts a).data.overlapKind = overlapKindOf (s.heap.lefts b).data.interiorToLeft
        (s.heap.lefts a).data.interiorToLeft

theorem processRight_below (hr : RuleOk rule) {s : Store ShapedData} (S : St ε Pt Y s L F p NoEx) {j : ℕ}
    (he : Ev.right j ∈ s.queue) (hmin : ∀ f ∈ s.queue, precedes s.heap f (.right j) = false)
    {s' : SweepState ShapedData}
    (e : processRight (holeyOps rule) ⟨{ s with queue := s.queue.erase (.right j) }, L⟩ (s.heap.rights j).left = .ok s') :
    RightBelow rule hr ε L s s'.store ∧ ∀ i ∈ s'.line, i ∈ L := by
  obtain ⟨l₁, l₂, hL, heq, hj, S1⟩ := S.pulled he hmin
  set i := (s.heap.rights j).left with hi
  set s0 : Store ShapedData := { s with queue := s.queue.erase (.right j) } with hs0
  have hh : s0.heap = s.heap := rfl
  have nd : (l₁ ++ l₂).Nodup := by obtain ⟨A, r, I⟩ := S1.inv; exact I.nodupL
  have red : processRight (holeyOps rule) ⟨s0, L⟩ i = (match l₁.getLast?, l₂.head? with
      | some b, some a =>
        match detectIntersection (holeyOps rule).toPayload s0 b a with
        | .error e => .error e
        | .ok (s', _) => .ok ⟨s', l₁ ++ l₂⟩
      | _, _ => .ok ⟨s0, l₁ ++ l₂⟩) := by
    unfold processRight
    dsimp only
    rw [hh, hL, lineContains_append, if_pos rfl, lineAbove_append heq, lineBelow_append heq,
      lineRemove_append heq]
    cases l₁.getLast? <;> cases l₂.head? <;> try rfl
    rename_i x y
    dsimp only
    cases detectIntersection (holeyOps rule).toPayload s0 x y <;> rfl
  rw [red] at e
  have sub : ∀ x ∈ l₁ ++ l₂, x ∈ L := by
    intro x hx
    rw [hL]
    simp only [List.mem_append, List.mem_cons] at hx ⊢
    tauto
  have r0 : RightBelow rule hr ε L s s0 :=
    ⟨fun _ h h' => absurd h (not_lt.2 h'), fun _ _ => rfl, ⟨[], ⟨le_rfl, fun _ _ => rfl, fun _ _ _ => rfl, fun _ _ _ => rfl,
      fun _ _ _ => rfl, fun _ h h' => absurd h (not_lt.2 h')⟩, by simp⟩, Or.inl fun _ _ => rfl⟩
  rcases hb : l₁.getLast? with _ | b
  · rw [hb] at e
    cases e
    exact ⟨r0, sub⟩
  rcases ha : l₂.head? with _ | a
  · rw [hb, ha] at e
    cases e
    exact ⟨r0, sub⟩
  rw [hb, ha] at e
  dsimp only at e
  have hbm : b ∈ l₁ := List.mem_of_getLast? hb
  have ham : a ∈ l₂ := List.mem_of_mem_head? ha
  have I1 := S1.inv'
  have hbn : b < s0.heap.count := I1.ltn (by simp [hbm])
  have han : a < s0.heap.count := I1.ltn (by simp [ham])
  have hba : b ≠ a := (List.nodup_append.1 nd).2.2 b hbm a ham
  cases hd : detectIntersection (holeyOps rule).toPayload s0 b a with
  | error x => rw [hd] at e; cases e
  | ok x =>
    obtain ⟨s1, c⟩ := x
    rw [hd] at e
    cases e
    refine ⟨?_, sub⟩
    obtain ⟨u, hk⟩ := (shapedFlags (isShaped_holey hr)).detect_upd S1.ok hbn han hba hd
    have kb := holey_detect (rule := rule) S1.ok hbn han hba hd
    obtain ⟨s2, c2, hd2, -, -, hct⟩ := S1.detect (O := holeyOps rule) (u := b) (v := a) (by simp [hbm]) (by simp [ham]) hba
    rw [hd] at hd2
    obtain ⟨rfl, rfl⟩ : s1 = s2 ∧ c = c2 := by simpa using hd2
    refine ⟨?_, kb.old, ⟨[b, a], ⟨u.count, u.itl, u.oth, u.res, u.mark, u.fresh⟩, ?_⟩, ?_⟩
    · intro i hi hge
      obtain ⟨d, hd⟩ := kb.new i hi hge
      unfold Bw; rw [hd]; rfl
    · intro x hx
      simp only [List.mem_cons, List.not_mem_nil, or_false] at hx
      rcases hx with rfl | rfl
      · exact sub x (by simp [hbm])
      · exact sub x (by simp [ham])
    · cases c with
      | false => exact Or.inl (holey_detect_false S1.ok hbn han hba hd).old
      | true =>
        right
        obtain ⟨hc, hst⟩ := hct.1 rfl
        have hlt := (List.pairwise_append.1 I1.ord).2.2 b hbm a ham
        have hff : (absSeg ε s.heap b).ff = true ∧ (absSeg ε s.heap a).ff = false := by
          rcases hlt with ⟨-, h1, h2⟩ | ⟨h1, -⟩
          · exact ⟨h1, h2⟩
          · exact absurd hc h1
        refine ⟨b, sub b (by simp [hbm]), a, sub a (by simp [ham]), hba, ⟨hc, ?_⟩, hff.1, hff.2, ?_, (hk rfl).1, (hk rfl).2⟩
        · exact congrArg (sx ε) hst
        · intro i hi h1 h2
          exact detect_other S1.ok hbn han hba hd hi h1 h2

theorem BelowInv.right (hr : RuleOk rule) {s s' : Store ShapedData} {M L' F' : List ℕ} {p' : ℚ}
    (S : St ε Pt Y s L F p NoEx) (S' : St ε Pt Y s' L' F' p' NoEx) (ev : Evolves (holeyOps rule) ε Pt M s s')
    (hp : p ≤ p') (D : DataInv (shapedFlags (isShaped_holey hr)) ε s L F) (mem : ∀ i, i ∈ L' ++ F' ↔ i ∈ L ++ F)
    (hsub : ∀ i ∈ L', i ∈ L) (rb : RightBelow rule hr ε L s s') (B : BelowInv rule ε s L F p) :
    BelowInv rule ε s' L' F' p' := by
  have I := S.inv'
  have bd := I.bound
  obtain ⟨m, u, hm⟩ := rb.upd
  have nw : ∀ k, k ∉ L' → k ∉ F' → k ∉ L ∧ k ∉ F := by
    intro k h1 h2
    have : k ∉ L ++ F := by rw [← mem]; simp [h1, h2]
    simpa using this
  refine ⟨?_, ?_, ?_, ?_⟩
  · intro k hk h1 h2
    by_cases hkn : k < s.heap.count
    · rw [rb.old k hkn]
      exact B.wait k hkn (nw k h1 h2).1 (nw k h1 h2).2
    · exact rb.new k hk (not_lt.1 hkn)
  · intro i hi
    rw [mem] at hi
    have hin := bd i hi
    have keep : (s'.heap.lefts i).data = (s.heap.lefts i).data → Decided rule s'.heap i := fun h =>
      (B.decided i hi).congr (ev.first i hin) h
    rcases rb.data with h | ⟨b, hb, a, ha, hba, hot, fb, fa, rest, kb, ka⟩
    · exact keep (h i hin)
    have hbn := bd b (by simp [hb])
    have han := bd a (by simp [ha])
    have pair : ∀ k, (s'.heap.lefts i).data.overlapKind = k → ∀ c, c ≠ i → c ∈ L ++ F → Hot ε s.heap i c →
        (shapedFlags (isShaped_holey hr)).pairKind s.heap i c = k → Decided rule s'.heap i := by
      intro k hk c hci hc hh hpk
      unfold Decided
      rw [hr, hk, ev.first i hin]
      have e1 : (s'.heap.lefts i).data.otherInteriorToLeft = (s.heap.lefts i).data.otherInteriorToLeft :=
        u.oth i hin (by simp)
      have e2 : (s'.heap.lefts i).data.fromShapedResult = (s.heap.lefts i).data.fromShapedResult :=
        u.res i hin (by simp)
      rw [e1, e2]
      rcases D.res i hi with ⟨k', hk', hki, hh', hR⟩ | ⟨hno, -⟩
      · have : k' = c := by
          by_contra hne
          exact S.hot_three (bd k' hk') hin (bd c hc) hki hci.symm hne hh'.symm hh
        subst this
        rw [hpk] at hR
        exact hR.symm
      · exact absurd hh (hno c hc hci)
    by_cases e1 : i = b
    · subst e1
      refine pair _ kb a hba.symm (by simp [ha]) hot ?_
      unfold Flags.pairKind
      rw [fb, if_pos rfl]; rfl
    by_cases e2 : i = a
    · subst e2
      refine pair _ ka b hba (by simp [hb]) hot.symm ?_
      unfold Flags.pairKind
      rw [fa]; rfl
    exact keep (rest i hin e1 e2)
  · intro b hb hba v hv hva hvb hcol
    have hbL := hsub b hb
    have hvL := hsub v hv
    obtain ⟨a1, a2, a3, a4⟩ := ev.abs S S' (bd b (by simp [hbL]))
    obtain ⟨b1, b2, b3, b4⟩ := ev.abs S S' (bd v (by simp [hvL]))
    have hpp : p = p' := le_antisymm hp (by rw [← hba, a3]; exact (I.act b hbL).1)
    refine B.thru b hbL (by rw [hpp, ← hba, a3]) v hvL (by rw [hpp, ← b3]; exact hva) ?_ (b1.symm.trans (hcol.trans a1))
    rw [hpp]; exact hvb.trans_le b4
  · intro i hi b hb
    rw [mem] at hi
    have hin := bd i hi
    rw [rb.old i hin] at hb
    obtain ⟨m1, m2, m3, m4⟩ := B.main i hi b hb
    have hbn := bd b m1
    refine ⟨(mem b).2 m1, ?_, ?_, ?_⟩
    · have : (s'.heap.lefts b).data.fromShapedResult = (s.heap.lefts b).data.fromShapedResult := u.res b hbn (by simp)
      rw [this, m2]
    · obtain ⟨a1, a2, a3, -⟩ := ev.abs S S' hbn
      obtain ⟨b1, b2, b3, -⟩ := ev.abs S S' hin
      unfold Ord at m3 ⊢
      rw [a1.1, a2, a3, b1.1, b2, b3]
      exact m3
    · intro k hk k1 k2 hh
      by_cases hkn : k < s.heap.count
      · exact m4 k hkn (nw k k1 k2).1 (nw k k1 k2).2 ((ev.hot S S' hkn hbn).1 hh)
      · exact B.no_new S S' ev hp m1 hk (not_lt.1 hkn) k1 k2 hh

/-- One iteration of the loop. -/
theorem below_step (hr : RuleOk rule) {tb : TieBreak} {s s' : SweepState ShapedData} {log : List (Ev × ℕ)}
    (S : St ε Pt Y s.store s.line F p NoEx) (l : LogOk ε s.store s.line F p log) {e : Ev} {q : List Ev}
    (hpop : pop tb s.store = some (e, q))
    (hev : processEvent (holeyOps rule) { s with store := { s.store with queue := q } } e = .ok s')
    (D : DataInv (shapedFlags (isShaped_holey hr)) ε s.store s.line F) (B : BelowInv rule ε s.store s.line F p) :
    ∃ F', St ε Pt Y s'.store s'.line F' (evX ε s.store.heap e) NoEx ∧
      LogOk ε s'.store s'.line F' (evX ε s.store.heap e) ((e, s'.store.heap.primary e) :: log) ∧
      DataInv (shapedFlags (isShaped_holey hr)) ε s'.store s'.line F' ∧
      BelowInv rule ε s'.store s'.line F' (evX ε s.store.heap e) := by
  obtain ⟨s'', F', e1, S', l', -, -, -, -, -, -, -, M, ev⟩ := S.step (holeyOps rule) l hpop
  rw [hev] at e1
  cases e1
  have pr : ∀ i < s.store.heap.count, (absSeg ε s.store.heap i).a < (absSeg ε s.store.heap i).b :=
    S.inv'.proper
  obtain ⟨he, rfl, hmin⟩ := (pop_spec (tb := tb) S.ok S.pts pr S.queue.evOk).2 e q hpop
  have hp := (S.next he hmin (fun i _ => rfl) S.inv').1
  refine ⟨F', S', l', ?_⟩
  cases e with
  | left t =>
    have hF : F' = F := by
      rw [l'.fin, l.fin]
      simp [Heap.isLeft]
    subst hF
    obtain ⟨l₁, l₂, hl, G, ld, lb⟩ := processLeft_below hr S he hmin hev
    rw [hl] at S' ⊢
    exact ⟨D.left S S' G ev ld, B.left hr S S' G ev ld lb⟩
  | right j =>
    obtain ⟨rb, hsub⟩ := processRight_below hr S he hmin hev
    obtain ⟨m, u, hm⟩ := rb.upd
    have mem : ∀ i, i ∈ s'.line ++ F' ↔ i ∈ s.line ++ F := by
      intro i
      rw [List.mem_append, List.mem_append, ← l'.left, ← l.left]
      simp
    exact ⟨D.keep S S' ev u mem fun i hi => by simp [hm i hi], B.right hr S S' ev hp D mem hsub rb⟩

/-- Every state of the loop. -/
theorem below_reach (hr : RuleOk rule) {tb : TieBreak} {init : SweepState ShapedData}
    (S : St ε Pt Y init.store init.line [] p NoEx) (hl : init.line = [])
    (hD : ∀ k < init.store.heap.count, ∃ b, (init.store.heap.lefts k).data = (holeyOps rule).create b)
    {s : SweepState ShapedData} {log : List (Ev × ℕ)} (r : Reach (holeyOps rule) tb init s log) :
    ∃ F p', St ε Pt Y s.store s.line F p' NoEx ∧ LogOk ε s.store s.line F p' log ∧
      DataInv (shapedFlags (isShaped_holey hr)) ε s.store s.line F ∧ BelowInv rule ε s.store s.line F p' := by
  induction r with
  | init =>
    refine ⟨[], p, S, ⟨?_, ?_, ?_, ?_, ?_, ?_, ?_⟩, ⟨fun k hk _ _ => ?_, ?_⟩, ⟨fun k hk _ _ => ?_, ?_, ?_, ?_⟩⟩
    any_goals simp [hl]
    · obtain ⟨b, hb⟩ := hD k hk
      unfold Flags.X Flags.K
      rw [hb]; exact ⟨rfl, rfl⟩
    · obtain ⟨b, hb⟩ := hD k hk
      unfold Bw
      rw [hb]; rfl
  | @step s s' log e q r h1 h2 ih =>
    obtain ⟨F, p', S, l, D, B⟩ := ih
    obtain ⟨F', S', l', D', B'⟩ := below_step hr S l h1 h2 D B
    exact ⟨F', _, S', l', D', B'⟩

end Clipping

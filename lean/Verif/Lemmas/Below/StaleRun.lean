import Verif.Lemmas.Below.Stale

/-!
# Which events below are out of date, for every state of the loop
-/

namespace Clipping

open Sweep

variable {rule : ShapedRule} {ε : ℚ} {Pt : List Point} {Y : ℚ → ℚ} {L F L' F' M : List ℕ} {p p' : ℚ}
  {s s' : Store ShapedData}

structure StaleInv (ε : ℚ) (Y : ℚ → ℚ) (h₀ : Heap ShapedData) (s : Store ShapedData) (L F : List ℕ) : Prop where
  /-- if something ends where segments pass, then something has started there -/
  stop : ∀ v j, Thru (origs ε h₀) v (Y v) j → ∀ i < s.heap.count, (absSeg ε s.heap i).b = v →
    ∃ t ∈ L ++ F, t < h₀.count ∧ (absSeg ε s.heap t).a = v
  /-- what waits is above what has started at the same point -/
  mono : ∀ t ∈ L ++ F, ∀ k < h₀.count, k ∉ L → k ∉ F → (absSeg ε s.heap k).a = (absSeg ε s.heap t).a →
    (absSeg ε s.heap t).m ≤ (absSeg ε s.heap k).m
  main : ∀ i ∈ L ++ F, Sound ε (origs ε h₀) s L F i

section
variable {O : Ops ShapedData} {s₀ : Store ShapedData} {L₀ F₀ : List ℕ} {p₀ : ℚ} {Ex₀ : ℕ → ℕ → Prop}
  (S₀ : St ε Pt Y s₀ L₀ F₀ p₀ Ex₀) (R : Orig O ε s₀.heap s.heap) (S : St ε Pt Y s L F p NoEx)
include S₀ R S

/-- One step keeps the first condition. -/
theorem StaleInv.stop_step (J : StaleInv ε Y s₀.heap s L F) (S' : St ε Pt Y s' L' F' p' NoEx) (ev : Evolves O ε Pt M s s')
    (new : ∀ k ∈ L' ++ F', k < s.heap.count) (sub : ∀ k ∈ L ++ F, k ∈ L' ++ F')
    (cu : ∀ i < s'.heap.count, CutOf ε L' s.heap (absSeg ε s'.heap i).b) :
    ∀ v j, Thru (origs ε s₀.heap) v (Y v) j → ∀ i < s'.heap.count, (absSeg ε s'.heap i).b = v →
      ∃ t ∈ L' ++ F', t < s₀.heap.count ∧ (absSeg ε s'.heap t).a = v := by
  have I := S.inv'
  intro v j T i hi hb
  have old : ∀ k < s.heap.count, (absSeg ε s.heap k).b = v →
      ∃ t ∈ L' ++ F', t < s₀.heap.count ∧ (absSeg ε s'.heap t).a = v := by
    intro k hk hkb
    obtain ⟨t, ht, t1, t2⟩ := J.stop v j T k hk hkb
    exact ⟨t, sub t ht, t1, (ev.abs S S' (I.bound t ht)).2.2.1.trans t2⟩
  have start : ∀ u ∈ L', (absSeg ε s.heap u).a = v →
      ∃ t ∈ L' ++ F', t < s₀.heap.count ∧ (absSeg ε s'.heap t).a = v := by
    intro u hu ha
    have hun := new u (by simp [hu])
    by_cases hu0 : u < s₀.heap.count
    · exact ⟨u, by simp [hu], hu0, (ev.abs S S' hun).2.2.1.trans ha⟩
    · obtain ⟨k, hk, k1, k2, k3, k4⟩ := R.tail S₀ S hun (not_lt.1 hu0)
      have pu := I.proper u hun
      obtain ⟨w, hw, w1, w2, w3, w4⟩ := R.before S₀ S hk k3 (by linarith)
      refine old w hw ?_
      rcases I.noOv w hw u hun (fun e => by rw [e] at w3; exact lt_irrefl _ w3) (w1.trans k1.symm) (w2.trans k2.symm) with h | h
      · linarith
      · linarith
  rcases cu i hi with ⟨k, hk, hkb⟩ | ⟨u, hu, ha⟩ | ⟨u, hu, w, hw, hc, hm⟩
  · exact old k hk (hkb.trans hb)
  · exact start u hu (ha.trans hb)
  · rw [hb] at hm
    have hun := new u (by simp [hu])
    have hwn := new w (by simp [hw])
    rcases hm.1.lt_or_eq with h1 | h1
    · rcases hm.2.2.1.lt_or_eq with h2 | h2
      · exfalso
        have y1 := I.crossY u hun w hwn hc v hm
        have y2 := hm.2.2.2.2.symm.trans y1
        exact hc ((T.col S₀ S R hun h1 hm.2.1 y1).trans (T.col S₀ S R hwn h2 hm.2.2.2.1 y2).symm)
      · exact start w hw h2
    · exact start u hu h1

/-- A new segment is not touched if nothing passes through its start. -/
theorem StaleInv.not_touched (J : StaleInv ε Y s₀.heap s L F) {t : ℕ} {l₁ l₂ : List ℕ}
    (G : LeftGeo Y (absSeg ε s.heap) s.heap.count L F p' t l₁ l₂) (cl : Clear (absSeg ε s.heap) s.heap.count t) :
    ¬ Touched (origs ε s₀.heap) (absSeg ε s.heap t) := by
  intro T
  have I := G.inv
  have t0 := T.orig S₀ S R G.tn
  have yt : (absSeg ε s.heap t).y p' = Y p' := by have := (I.endsY t G.tn).1; rwa [G.ta] at this
  obtain ⟨j, h1, h2⟩ := T.thru
  rw [G.ta, yt] at h1
  have h1' := h1
  obtain ⟨k, hk, rfl⟩ := of_mem_origs h1.mem
  obtain ⟨w, hw, w1, w2, w3, w4⟩ := R.before S₀ S hk h1.lo h1.hi.le
  have wm : (absSeg ε s.heap w).m < (absSeg ε s.heap t).m := by rw [w1.1]; exact h2
  have wy : (absSeg ε s.heap w).y p' = Y p' := (w1.y _).trans h1.val
  rcases w4.lt_or_eq with h | h
  · have := cl w hw (by rw [G.ta]; exact ⟨w3.le, h⟩) (by rw [G.ta]; exact w3)
      (by rw [G.ta]; exact Or.inr ⟨wy.trans yt.symm, Or.inl wm⟩) (by rw [G.ta]; exact wy.trans yt.symm)
    exact wm.ne this.1
  · obtain ⟨t', ht', t1, t2⟩ := J.stop p' _ h1' w hw h.symm
    have hne : t' ≠ t := by
      rintro rfl
      rcases List.mem_append.1 ht' with h | h
      exacts [G.tL h, G.tF h]
    have m1 := J.mono t' ht' t t0 G.tL G.tF (G.ta.trans t2.symm)
    obtain ⟨e1, -, e3⟩ := R.abs t' t1
    have m2 : (absSeg ε s.heap t).m ≤ (absSeg ε s₀.heap t').m := by
      have := T.least _ (mem_origs (ε := ε) t1) (by
        change (absSeg ε s₀.heap t').a = _
        rw [← e3, t2, G.ta])
      exact this
    have ht'n := I.bound t' ht'
    have y' := (I.endsY t' ht'n).1
    rw [t2] at y'
    refine T.no_hot S₀ S R G.tn ht'n hne ⟨col_of_slope ?_ (y'.trans yt.symm), t2.trans G.ta.symm⟩
    rw [← e1.1] at m2
    exact le_antisymm m1 m2

end

/-- One iteration of the loop. -/
theorem stale_step (hr : RuleOk rule) {tb : TieBreak} {s₀ : Store ShapedData} {L₀ F₀ : List ℕ} {p₀ : ℚ}
    {Ex₀ : ℕ → ℕ → Prop} (S₀ : St ε Pt Y s₀ L₀ F₀ p₀ Ex₀) {s s' : SweepState ShapedData}
    {log : List (Ev × ℕ)} (S : St ε Pt Y s.store s.line F p NoEx) (l : LogOk ε s.store s.line F p log) {e : Ev} {q : List Ev}
    (hpop : pop tb s.store = some (e, q))
    (hev : processEvent (holeyOps rule) { s with store := { s.store with queue := q } } e = .ok s')
    (D : DataInv (shapedFlags (isShaped_holey hr)) ε s.store s.line F) (B : BelowInv rule ε s.store s.line F p)
    (R : Orig (holeyOps rule) ε s₀.heap s.store.heap) (J : StaleInv ε Y s₀.heap s.store s.line F) :
    ∃ F', St ε Pt Y s'.store s'.line F' (evX ε s.store.heap e) NoEx ∧
      LogOk ε s'.store s'.line F' (evX ε s.store.heap e) ((e, s'.store.heap.primary e) :: log) ∧
      DataInv (shapedFlags (isShaped_holey hr)) ε s'.store s'.line F' ∧
      BelowInv rule ε s'.store s'.line F' (evX ε s.store.heap e) ∧ Orig (holeyOps rule) ε s₀.heap s'.store.heap ∧
      StaleInv ε Y s₀.heap s'.store s'.line F' := by
  obtain ⟨s'', F', e1, S', l', -, -, -, -, -, -, -, M, ev⟩ := S.step (holeyOps rule) l hpop
  rw [hev] at e1
  cases e1
  have pr : ∀ i < s.store.heap.count, (absSeg ε s.store.heap i).a < (absSeg ε s.store.heap i).b :=
    S.inv'.proper
  obtain ⟨he, rfl, hmin⟩ := (pop_spec (tb := tb) S.ok S.pts pr S.queue.evOk).2 e q hpop
  have hp := (S.next he hmin (fun i _ => rfl) S.inv').1
  have R' := R.step S S' ev
  have bd := S.inv'.bound
  refine ⟨F', S', l', ?_⟩
  cases e with
  | left t =>
    have hF : F' = F := by
      rw [l'.fin, l.fin]
      simp [Heap.isLeft]
    subst hF
    obtain ⟨l₁, l₂, hl, G, ld, lb⟩ := processLeft_below hr S he hmin hev
    have cu := processLeft_cuts (O := holeyOps rule) S he hmin hev
    rw [hl] at S' cu ⊢
    have B' := B.left hr S S' G ev ld lb
    have mem : ∀ i, i ∈ l₁ ++ t :: l₂ ++ F' ↔ i = t ∨ i ∈ s.line ++ F' := by
      intro i
      rw [G.hL]
      simp only [List.mem_append, List.mem_cons]
      tauto
    have new : ∀ i ∈ l₁ ++ t :: l₂ ++ F', i < s.store.heap.count := by
      intro i hi
      rcases (mem i).1 hi with rfl | h
      exacts [G.tn, bd i h]
    refine ⟨D.left S S' G ev ld, B', R', ?_, ?_, J.main |> fun J' => Sound.left S₀ R S S' G ev lb B B' J' fun cl =>
      J.not_touched S₀ R S G cl⟩
    · exact J.stop_step S₀ R S S' ev new (fun k hk => (mem k).2 (Or.inr hk)) cu
    · intro i hi k hk k1 k2 hka
      have hkn := hk.trans_le R.count
      obtain ⟨a1, -, a3, -⟩ := ev.abs S S' hkn
      obtain ⟨b1, -, b3, -⟩ := ev.abs S S' (new i hi)
      rw [a3, b3] at hka
      rw [a1.1, b1.1]
      have k3 : k ∉ s.line := fun h => by
        have := (mem k).2 (Or.inr (by simp [h]))
        simp only [List.mem_append] at this k1
        tauto
      rcases (mem i).1 hi with rfl | h
      · by_contra hlt
        have yi := (G.inv.endsY i G.tn).1
        have yk := (G.inv.endsY k hkn).1
        rw [hka] at yk
        rw [G.ta] at hka yi yk
        have := (G.q k hkn k3 k2 hka (Or.inr ⟨yk.trans yi.symm, Or.inl (not_le.1 hlt)⟩)).2.1.1
        exact hlt this.ge
      · exact J.mono i h k hk k3 k2 hka
  | right j =>
    obtain ⟨rb, hsub⟩ := processRight_below hr S he hmin hev
    have cu := processRight_cuts (O := holeyOps rule) S he hmin hev
    obtain ⟨m, u, hm⟩ := rb.upd
    have mem : ∀ i, i ∈ s'.line ++ F' ↔ i ∈ s.line ++ F := by
      intro i
      rw [List.mem_append, List.mem_append, ← l'.left, ← l.left]
      simp
    refine ⟨D.keep S S' ev u mem fun i hi => by simp [hm i hi], B.right hr S S' ev hp D mem hsub rb, R', ?_, ?_,
      Sound.right S S' ev hp mem rb B J.main⟩
    · exact J.stop_step S₀ R S S' ev (fun k hk => bd k ((mem k).1 hk)) (fun k hk => (mem k).2 hk) cu
    · intro i hi k hk k1 k2 hka
      rw [mem] at hi
      have hkn := hk.trans_le R.count
      obtain ⟨a1, -, a3, -⟩ := ev.abs S S' hkn
      obtain ⟨b1, -, b3, -⟩ := ev.abs S S' (bd i hi)
      rw [a3, b3] at hka
      rw [a1.1, b1.1]
      have : k ∉ s.line ++ F := by rw [← mem]; simp [k1, k2]
      simp only [List.mem_append, not_or] at this
      exact J.mono i hi k hk this.1 this.2 hka

/-- Every state of the loop. -/
theorem stale_reach (hr : RuleOk rule) {tb : TieBreak} {init : SweepState ShapedData}
    (S : St ε Pt Y init.store init.line [] p NoEx) (hl : init.line = [])
    (hD : ∀ k < init.store.heap.count, ∃ b, (init.store.heap.lefts k).data = (holeyOps rule).create b)
    {s : SweepState ShapedData} {log : List (Ev × ℕ)} (r : Reach (holeyOps rule) tb init s log) :
    ∃ F p', St ε Pt Y s.store s.line F p' NoEx ∧ LogOk ε s.store s.line F p' log ∧
      BelowInv rule ε s.store s.line F p' ∧ Orig (holeyOps rule) ε init.store.heap s.store.heap ∧
      StaleInv ε Y init.store.heap s.store s.line F := by
  suffices H : ∃ F p', St ε Pt Y s.store s.line F p' NoEx ∧ LogOk ε s.store s.line F p' log ∧
      DataInv (shapedFlags (isShaped_holey hr)) ε s.store s.line F ∧ BelowInv rule ε s.store s.line F p' ∧
      Orig (holeyOps rule) ε init.store.heap s.store.heap ∧ StaleInv ε Y init.store.heap s.store s.line F by
    obtain ⟨F, p', h1, h2, -, h3⟩ := H
    exact ⟨F, p', h1, h2, h3⟩
  induction r with
  | init =>
    refine ⟨[], p, S, ⟨?_, ?_, ?_, ?_, ?_, ?_, ?_⟩, ⟨fun k hk _ _ => ?_, ?_⟩, ⟨fun k hk _ _ => ?_, ?_, ?_, ?_⟩,
      Orig.refl _, ⟨?_, ?_, ?_⟩⟩
    any_goals simp [hl]
    · obtain ⟨b, hb⟩ := hD k hk
      unfold Flags.X Flags.K
      rw [hb]; exact ⟨rfl, rfl⟩
    · obtain ⟨b, hb⟩ := hD k hk
      unfold Bw
      rw [hb]; rfl
    · intro v j T i hi hb
      have y := (S.inv'.endsY i hi).2
      rw [hb] at y
      have := (T.all _ (mem_origs hi) (by rw [← hb]; exact S.inv'.proper i hi) hb.ge y).1
      rw [← hb] at this
      exact lt_irrefl _ this
  | @step s s' log e q r h1 h2 ih =>
    obtain ⟨F, p', S', l, D, B, R, J⟩ := ih
    obtain ⟨F', S'', l', D', B', R', J'⟩ := stale_step hr S S' l h1 h2 D B R J
    exact ⟨F', _, S'', l', D', B', R', J'⟩

end Clipping

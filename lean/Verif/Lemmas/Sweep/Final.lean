import Verif.Lemmas.Sweep.Init

/-!
# The end of the sweep
-/

namespace Clipping.Sweep

variable {α : Type}

/-- The marked input covers the points of the operands. -/
def inputPts (l : List (Segment × Bool)) (b : Bool) : Set Point := {q | ∃ x ∈ l, x.2 = b ∧ q ∈ x.1.pts}

/-- the state before the loop -/
def initState (P : Payload α) (d : α) (first second : List Segment) : SweepState α :=
  ⟨initStore P d first second, []⟩

/-- Every state of the loop satisfies the invariant. -/
theorem reach_ok (O : Ops α) (d : α) (tb : TieBreak) {first second : List Segment}
    (ok : OperandsOk (marked first second)) :
    ∃ ε Pt Y, (∀ s log, Reach O tb (initState O.toPayload d first second) s log →
      ∃ F p, St ε Pt Y s.store s.line F p NoEx ∧ LogOk ε s.store s.line F p log ∧
        (∀ b, opPts s.store.heap b = inputPts (marked first second) b) ∧
        log.length + potential ε Pt s.store ≤ potential ε Pt (initStore O.toPayload d first second) ∧
        (marked first second).length ≤ s.store.heap.count ∧
        (∀ k x, (marked first second)[k]? = some x → s.store.heap.first k = x.2) ∧
        (∀ i < s.store.heap.count, ∃ k < (initStore O.toPayload d first second).heap.count,
          Part O (initStore O.toPayload d first second).heap s.store.heap k i) ∧
        (∀ k < (initStore O.toPayload d first second).heap.count,
          ∀ q ∈ ((initStore O.toPayload d first second).heap.segment k).pts, ∃ i < s.store.heap.count,
          Part O (initStore O.toPayload d first second).heap s.store.heap k i ∧
          q ∈ (s.store.heap.segment i).pts)) ∧
      (∀ q ∈ Pt, Vertex ((marked first second).map Prod.fst) q) ∧
      potential ε Pt (initStore O.toPayload d first second) < sweepFuel (first.length + second.length) := by
  have f := fresh_init O.toPayload d first second
  obtain ⟨ε, Pt, Y, p, S, hv, pot⟩ := f.st ok
  refine ⟨ε, Pt, Y, ?_, hv, ?_⟩
  · intro s log r
    induction r with
    | init =>
      refine ⟨[], p, S, ⟨?_, ?_, ?_, ?_, ?_, ?_, ?_⟩, f.opPts, ?_, f.count.ge,
        fun k x h => (f.get k x h).2.2.2.2, fun i hi => ⟨i, hi, .refl⟩, fun i hi q hq => ⟨i, hi, .refl, hq⟩⟩ <;>
        simp [initState]
    | @step s s' log e q r h1 h2 ih =>
      obtain ⟨F, p, S, l, h, hp, hc, hf, hs, hv⟩ := ih
      obtain ⟨s'', F', e1, S', l', h', -, pot', hc', hf', hs', hv', -⟩ := S.step O l h1
      rw [h2] at e1
      cases e1
      refine ⟨F', _, S', l', fun b => (h' b).trans (h b), ?_, hc.trans hc', ?_, ?_, ?_⟩
      · rw [List.length_cons]; omega
      · intro k x hx
        rw [hf' k, hf k x hx]
        obtain ⟨hk, -⟩ := List.getElem?_eq_some_iff.1 hx
        exact hk.trans_le hc
      · intro i hi
        obtain ⟨k, hk, a⟩ := hs' i hi
        obtain ⟨m, hm, b⟩ := hs k hk
        exact ⟨m, hm, b.trans a⟩
      · intro k hk q hq
        obtain ⟨i, hi, a, hq'⟩ := hv k hk q hq
        obtain ⟨j, hj, b, hq''⟩ := hv' i hi q hq'
        exact ⟨j, hj, a.trans b, hq''⟩
  · have : (marked first second).length = first.length + second.length := by simp [marked]
    rw [this] at pot
    unfold sweepFuel
    omega

/-- No step fails. -/
theorem reach_step {O : Ops α} {d : α} {tb : TieBreak} {first second : List Segment}
    (ok : OperandsOk (marked first second)) {s : SweepState α} {log : List (Ev × ℕ)}
    (r : Reach O tb (initState O.toPayload d first second) s log) {e : Ev} {q : List Ev}
    (h : pop tb s.store = some (e, q)) :
    ∃ s', processEvent O { s with store := { s.store with queue := q } } e = .ok s' := by
  obtain ⟨ε, Pt, Y, h', -⟩ := reach_ok O d tb ok
  obtain ⟨F, p, S, l, -⟩ := h' s log r
  obtain ⟨s'', F', e1, -⟩ := S.step O l h
  exact ⟨s'', e1⟩

/-- A run makes at most so many steps, whatever the tie-break. -/
theorem reach_length {O : Ops α} {d : α} {tb : TieBreak} {first second : List Segment}
    (ok : OperandsOk (marked first second)) {s : SweepState α} {log : List (Ev × ℕ)}
    (r : Reach O tb (initState O.toPayload d first second) s log) :
    log.length < sweepFuel (first.length + second.length) := by
  obtain ⟨ε, Pt, Y, h, -, pot⟩ := reach_ok O d tb ok
  obtain ⟨F, p, S, l, -, hp, -⟩ := h s log r
  omega

/-- The sweep ends in a reachable state, with an empty queue or with the early exit. -/
theorem sweep_reach (O : Ops α) (d : α) (tb : TieBreak) (stop : Point → Bool) {first second : List Segment}
    (ok : OperandsOk (marked first second)) :
    ∃ s log, sweep O d tb stop first second = .ok (s, log.reverse) ∧
      Reach O tb (initState O.toPayload d first second) s log ∧
      (∀ x ∈ log, stop (s.store.heap.evStart x.1) = false) ∧
      (pop tb s.store = none ∨ ∃ e q, pop tb s.store = some (e, q) ∧
        stop (s.store.heap.evStart e) = true) := by
  obtain ⟨ε, Pt, Y, h, -, pot⟩ := reach_ok O d tb ok
  have key := sweepLoop_rule (O := O) (tb := tb) (stop := stop)
    (fun s log => Reach O tb (initState O.toPayload d first second) s log ∧
      ∀ x ∈ log, stop (s.store.heap.evStart x.1) = false)
    (fun s => potential ε Pt s.store) ?_ (sweepFuel (first.length + second.length))
    (initState O.toPayload d first second) [] ⟨.init, by simp⟩ pot
  · obtain ⟨s, log, h1, ⟨h2, h3⟩, h4⟩ := key
    exact ⟨s, log, h1, h2, h3, h4⟩
  · rintro s log e q ⟨r, hl⟩ hpop hstop
    obtain ⟨F, p, S, l, -⟩ := h s log r
    obtain ⟨A, rr, I⟩ := S.inv
    have pr : ∀ i < s.store.heap.count, (absSeg ε s.store.heap i).a < (absSeg ε s.store.heap i).b :=
      fun i hi => by rw [← rr i hi]; exact I.proper i hi
    obtain ⟨he, -⟩ := (pop_spec (tb := tb) S.ok S.pts pr S.queue.evOk).2 e q hpop
    obtain ⟨s', F', e1, S', l', -, st, pot', -⟩ := S.step O l hpop
    refine ⟨s', e1, ⟨r.step hpop e1, ?_⟩, pot'⟩
    intro x hx
    rcases List.mem_cons.1 hx with rfl | hx
    · simp only
      rw [st e (S.queue.evOk e he)]
      exact hstop
    · rw [st _ (l.evOk S x hx)]
      exact hl x hx

/-- What is known at the end of the sweep. -/
structure Final (h : Heap α) (F : List ℕ) (stop : Point → Bool) (l : List (Segment × Bool)) : Prop where
  nodup : F.Nodup
  bound : ∀ i ∈ F, i < h.count
  lt : ∀ i < h.count, h.start i < h.stop i
  done : ∀ i < h.count, i ∈ F ↔ stop (h.stop i) = false
  pts : ∀ b, opPts h b = inputPts l b
  pair : ∀ i ∈ F, ∀ j < h.count, (h.segment i = h.segment j ∧ j ∈ F) ∨
    ∀ q, q ∈ (h.segment i).pts → q ∈ (h.segment j).pts → (h.segment i).IsEnd q ∧ (h.segment j).IsEnd q
  op : ∀ i < h.count, ∀ j < h.count, i ≠ j → h.segment i = h.segment j → h.first i ≠ h.first j
  run : ∀ l₁ l₂ l₃ i j, F = l₁ ++ i :: l₂ ++ j :: l₃ → h.segment i = h.segment j → l₂ = []
  length : l.length ≤ h.count
  orig : ∀ k x, l[k]? = some x → h.first k = x.2
  vert : ∀ i < h.count, Vertex (l.map Prod.fst) (h.start i) ∧ Vertex (l.map Prod.fst) (h.stop i)
  par : ∀ i < h.count, ∃ x ∈ l, h.first i = x.2 ∧ (h.segment i).pts ⊆ x.1.pts
  cov : ∀ x ∈ l, ∀ q ∈ x.1.pts, ∃ i < h.count, h.first i = x.2 ∧ (h.segment i).pts ⊆ x.1.pts ∧
    q ∈ (h.segment i).pts
  noOv : ∀ i < h.count, ∀ j < h.count, i ≠ j → SameLine (h.segment i) (h.segment j) → h.first i = h.first j →
    h.stop i ≤ h.start j ∨ h.stop j ≤ h.start i

/-- The end of the sweep. -/
theorem sweep_final (O : Ops α) (d : α) (tb : TieBreak) (stop : Point → Bool) {first second : List Segment}
    (ok : OperandsOk (marked first second)) (mono : ∀ p q, p ≤ q → stop p = true → stop q = true) :
    ∃ s log, sweep O d tb stop first second = .ok (s, log.reverse) ∧
      Reach O tb (initState O.toPayload d first second) s log ∧
      Final s.store.heap (log.filterMap fun (e, i) => if Heap.isLeft e then none else some i).reverse stop
        (marked first second) ∧
      (log.map Prod.fst).Nodup ∧ (∀ x ∈ log, x.2 = s.store.heap.primary x.1) ∧
      HeapOk s.store.heap ∧
      ∀ e, e ∈ log.map Prod.fst ↔ EvOk s.store.heap e ∧ stop (s.store.heap.evStart e) = false := by
  obtain ⟨s, log, h1, r, h3, h4⟩ := sweep_reach O d tb stop ok
  obtain ⟨ε, Pt, Y, h, hv, -⟩ := reach_ok O d tb ok
  obtain ⟨F, p, S, l, hpts, -, hcount, horig, hsub, hcov⟩ := h s log r
  obtain ⟨A, rr, I⟩ := S.inv
  have pr : ∀ i < s.store.heap.count, (absSeg ε s.store.heap i).a < (absSeg ε s.store.heap i).b :=
    fun i hi => by rw [← rr i hi]; exact I.proper i hi
  have ps := pop_spec (tb := tb) S.ok S.pts pr S.queue.evOk
  have lt : ∀ i < s.store.heap.count, s.store.heap.start i < s.store.heap.stop i := fun i hi =>
    (S.pts.ord.lt_iff (S.pts.mem i hi).1 (S.pts.mem i hi).2).2 (pr i hi)
  have hFb : ∀ i ∈ F, i < s.store.heap.count := fun i hi => I.bound i (by simp [hi])
  have dis : ∀ i ∈ s.line, i ∉ F := fun i hi hF => (List.disjoint_of_nodup_append I.nodup) hi hF
  -- a right event has been logged exactly if its segment is finished
  have logF : ∀ i < s.store.heap.count, Ev.right (s.store.heap.lefts i).right ∈ log.map Prod.fst ↔ i ∈ F := by
    intro i hi
    rw [l.right]
    constructor
    · rintro ⟨j, hj, e⟩
      have := S.ok.lr j (hFb j hj)
      rw [e, S.ok.lr i hi] at this
      rwa [this]
    · intro hi; exact ⟨i, hi, rfl⟩
  -- events which are still in the queue are behind the exit
  have hq : ∀ e ∈ s.store.queue, stop (s.store.heap.evStart e) = true := by
    rcases h4 with h4 | ⟨e, q, h4, h5⟩
    · rw [ps.1.1 h4]; simp
    · obtain ⟨he, -, hmin⟩ := ps.2 e q h4
      intro f hf
      have hx : evX ε s.store.heap e ≤ evX ε s.store.heap f := by
        by_contra hc; push Not at hc
        have := (precedes_iff S.ok S.pts pr (S.queue.evOk e he) (S.queue.evOk f hf)).2 (Or.inl hc)
        rw [hmin f hf] at this; cases this
      refine mono _ _ ?_ h5
      rw [S.pts.ord.le_iff (evStart_mem S.ok S.pts (S.queue.evOk e he))
        (evStart_mem S.ok S.pts (S.queue.evOk f hf))]
      exact hx
  have qlog : ∀ e, EvOk s.store.heap e → e ∉ log.map Prod.fst → e ∈ s.store.queue := by
    intro e he hn
    cases e with
    | left i =>
      rw [l.left] at hn
      rw [S.queue.left]
      exact ⟨he, fun h => hn (Or.inl h), fun h => hn (Or.inr h)⟩
    | right j =>
      rw [S.queue.right]
      refine ⟨he, fun h => hn ?_⟩
      rw [← S.ok.rl j he, logF _ (S.ok.llt j he)]
      exact h
  have logmem : ∀ e, e ∈ log.map Prod.fst ↔ EvOk s.store.heap e ∧ stop (s.store.heap.evStart e) = false := by
    intro e
    constructor
    · intro he
      obtain ⟨x, hx, rfl⟩ := List.mem_map.1 he
      exact ⟨l.evOk S x hx, h3 x hx⟩
    · rintro ⟨h1, h2⟩
      by_contra hn
      rw [hq e (qlog e h1 hn)] at h2
      cases h2
  have done : ∀ i < s.store.heap.count, i ∈ F ↔ stop (s.store.heap.stop i) = false := by
    intro i hi
    rw [← logF i hi, logmem]
    constructor
    · rintro ⟨-, h⟩; exact h
    · intro h; exact ⟨S.ok.rlt i hi, h⟩
  -- advance behind all finished segments
  have adv : ∃ p', (∀ i ∈ F, (A i).b < p') ∧ Inv Y A s.store.heap.count s.line F p' NoEx := by
    rcases h4 with h4 | ⟨e, q, h4, h5⟩
    · have hq0 : s.store.queue = [] := ps.1.1 h4
      have hF : ∀ i < s.store.heap.count, i ∈ F := by
        intro i hi
        by_contra hn
        have := (S.queue.right (s.store.heap.lefts i).right).2 ⟨S.ok.rlt i hi, by rwa [S.ok.lr i hi]⟩
        rw [hq0] at this; cases this
      have hL : ∀ i ∈ s.line, False := fun i hi => dis i hi (hF i (I.ltn hi))
      refine ⟨p + 1, fun i hi => by linarith [I.fin i hi], ?_⟩
      refine I.advance' (by linarith) ?_ ?_
      · intro i hi _ h; exact absurd (hF i hi) h
      · intro i hi; exact absurd (hL i hi) id
    · obtain ⟨he, -, hmin⟩ := ps.2 e q h4
      obtain ⟨n1, n2, n3, -⟩ := S.next he hmin rr I
      refine ⟨evX ε s.store.heap e, ?_, I.advance' n1 n2 n3⟩
      intro i hi
      have hin := hFb i hi
      by_contra hc
      push Not at hc
      have hs : stop (s.store.heap.stop i) = true := by
        refine mono _ _ ?_ h5
        rw [S.pts.ord.le_iff (evStart_mem S.ok S.pts (S.queue.evOk e he)) (S.pts.mem i hin).2]
        rw [rr i hin] at hc
        exact hc
      rw [(done i hin).1 hi] at hs
      cases hs
  obtain ⟨p', hp', I'⟩ := adv
  have segEq : ∀ i < s.store.heap.count, ∀ j < s.store.heap.count,
      (A i).a = (A j).a → (A i).b = (A j).b → s.store.heap.segment i = s.store.heap.segment j := by
    intro i hi j hj ha hb
    rw [rr i hi, rr j hj, abs_a, abs_a] at ha
    rw [rr i hi, rr j hj, abs_b, abs_b] at hb
    rw [← S.pts.ord.eq_iff (S.pts.mem i hi).1 (S.pts.mem j hj).1] at ha
    rw [← S.pts.ord.eq_iff (S.pts.mem i hi).2 (S.pts.mem j hj).2] at hb
    unfold Heap.segment
    rw [ha, hb]
  have colEq : ∀ i < s.store.heap.count, ∀ j < s.store.heap.count,
      s.store.heap.segment i = s.store.heap.segment j →
      (A i).a = (A j).a ∧ (A i).b = (A j).b ∧ Col (A i) (A j) := by
    intro i hi j hj e
    have e1 : s.store.heap.start i = s.store.heap.start j := congrArg Segment.start e
    have e2 : s.store.heap.stop i = s.store.heap.stop j := congrArg Segment.stop e
    rw [rr i hi, rr j hj, abs_a, abs_a, abs_b, abs_b, e1, e2]
    refine ⟨rfl, rfl, ?_⟩
    unfold absSeg
    rw [e1, e2]
    exact ⟨rfl, rfl⟩
  have endIff : ∀ i < s.store.heap.count, ∀ q, q ∈ (s.store.heap.segment i).pts →
      IsEnd (A i) (sx ε q) → (s.store.heap.segment i).IsEnd q := by
    intro i hi q hq he
    rw [mem_segment (pr i hi)] at hq
    rw [rr i hi] at he
    rcases he with he | he
    · left
      refine pt_eq (ε := ε) he ?_
      rw [← hq.2.2, he, abs_a]
      exact abs_ya i
    · right
      refine pt_eq (ε := ε) he ?_
      rw [← hq.2.2, he, abs_b]
      exact abs_yb (pr i hi)
  have hFeq : (log.filterMap fun (e, i) => if Heap.isLeft e then none else some i).reverse = F := l.fin.symm
  refine ⟨s, log, h1, r, ?_, l.nodup, l.prim, S.ok, logmem⟩
  rw [hFeq]
  refine ⟨(List.nodup_append.1 I.nodup).2.1, hFb, lt, done, hpts, ?_, ?_, ?_, hcount, horig,
    fun i hi => ⟨hv _ (S.pts.mem i hi).1, hv _ (S.pts.mem i hi).2⟩, ?_, ?_, ?_⟩
  · intro i hi j hj
    rcases I'.final_pair hi (hp' i hi) hj with ⟨a, b, -, c⟩ | hh
    · exact Or.inl ⟨segEq i (hFb i hi) j hj a b, c⟩
    · right
      intro q h1 h2
      have hc : Com (A i) (A j) (sx ε q) := by
        rw [rr i (hFb i hi), rr j hj]
        exact (com_seg (pr i (hFb i hi)) (pr j hj)).2 ⟨q, h1, h2, rfl⟩
      exact ⟨endIff i (hFb i hi) q h1 (hh _ hc).1, endIff j hj q h2 (hh _ hc).2⟩
  · intro i hi j hj hij e hff
    obtain ⟨a, b, c⟩ := colEq i hi j hj e
    have hff' : (A i).ff = (A j).ff := by rw [rr i hi, rr j hj]; exact hff
    have := I.proper i hi
    have := I.proper j hj
    rcases I.noOv i hi j hj hij c hff' with h | h <;> linarith
  · intro l₁ l₂ l₃ i j hF e
    have hi : i ∈ F := by rw [hF]; simp
    have hj : j ∈ F := by rw [hF]; simp
    obtain ⟨a, b, c⟩ := colEq i (hFb i hi) j (hFb j hj) e
    exact I'.final_adj hF b c
  · intro i hi
    obtain ⟨k, hk, a⟩ := hsub i hi
    have fr := fresh_init O.toPayload d first second
    rw [fr.count] at hk
    have hx := List.getElem?_eq_getElem hk
    refine ⟨_, List.getElem_mem hk, ?_, ?_⟩
    · rw [a.first, (fr.get k _ hx).2.2.2.2]
    · have := a.pts
      rwa [fr.segment hx, pts_lo_hi] at this
  · intro x hx q hq
    have fr := fresh_init O.toPayload d first second
    obtain ⟨k, hk, rfl⟩ := List.mem_iff_getElem.1 hx
    have hx' := List.getElem?_eq_getElem hk
    obtain ⟨i, hi, a, hq'⟩ := hcov k (by rw [fr.count]; exact hk) q (by rw [fr.segment hx', pts_lo_hi]; exact hq)
    refine ⟨i, hi, ?_, ?_, hq'⟩
    · rw [a.first, (fr.get k _ hx').2.2.2.2]
    · have := a.pts
      rwa [fr.segment hx', pts_lo_hi] at this
  · intro i hi j hj hij hl hff
    have hc := (sameLine_iff (pr i hi) (pr j hj) (lt i hi) (lt j hj)).1 hl
    rw [← rr i hi, ← rr j hj] at hc
    have hff' : (A i).ff = (A j).ff := by rw [rr i hi, rr j hj]; exact hff
    have := I.noOv i hi j hj hij hc hff'
    rw [rr i hi, rr j hj, abs_a, abs_a, abs_b, abs_b] at this
    rwa [S.pts.ord.le_iff (S.pts.mem i hi).2 (S.pts.mem j hj).1, S.pts.ord.le_iff (S.pts.mem j hj).2 (S.pts.mem i hi).1]

end Clipping.Sweep

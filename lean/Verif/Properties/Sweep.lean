import Verif.Lemmas.LinearSweep
import Verif.Model.Tree
import Verif.Properties.Linear

/-!
# C14, C22–C24: what holds at every moment of every sweep

`Reach O tb (initState …) s log` says that `s` is the state after the iterations of the loop listed in
`log` (last one first).  `O` stands for any operation, linear or not, with any fields in its events; all
that is needed is that no two segments of the same operand overlap.
-/

namespace Clipping

open Sweep

variable {α : Type} (O : Ops α) (d : α) (tb : TieBreak) {a b : List Segment}

theorem sweepLoop_more {O : Ops α} {tb : TieBreak} {stop : Point → Bool} {fuel : ℕ} {s : SweepState α}
    {log : List (Ev × ℕ)} {r : SweepState α × List (Ev × ℕ)} (h : sweepLoop O tb stop fuel s log = .ok r) :
    ∀ fuel' ≥ fuel, sweepLoop O tb stop fuel' s log = .ok r := by
  induction fuel generalizing s log with
  | zero => cases h
  | succ n ih =>
    intro m hm
    obtain ⟨m, rfl⟩ : ∃ k, m = k + 1 := ⟨m - 1, by omega⟩
    unfold sweepLoop at h ⊢
    cases hp : pop tb s.store with
    | none => rw [hp] at h; exact h
    | some x =>
      obtain ⟨e, q⟩ := x
      rw [hp] at h
      dsimp only at h ⊢
      split
      · rename_i hs
        rw [if_pos hs] at h
        exact h
      · rename_i hs
        rw [if_neg hs] at h
        cases hpr : processEvent O { s with store := { s.store with queue := q } } e with
        | error err => rw [hpr] at h; cases h
        | ok s' =>
          rw [hpr] at h
          exact ih h m (by omega)

/-- **C14** Every sweep ends: with `n` segments no run of the loop makes more than `2(n + n(2n + n²))`
iterations, no iteration fails, and the bound of the model has no influence on the result. -/
theorem sweep_terminates (na : NoOverlap a) (nb : NoOverlap b) (n : ℕ) (hn : n = a.length + b.length) :
    (∀ s log, Reach O tb (initState O.toPayload d a b) s log →
      log.length ≤ 2 * (n + n * (2 * n + n * n)) ∧
      ∀ e q, pop tb s.store = some (e, q) →
        ∃ s', processEvent O { s with store := { s.store with queue := q } } e = .ok s') ∧
    ∀ stop, ∃ r, sweep O d tb stop a b = .ok r ∧
      ∀ fuel > 2 * (n + n * (2 * n + n * n)),
        sweepLoop O tb stop fuel (initState O.toPayload d a b) [] = .ok r := by
  have ok := operandsOk_marked na nb
  refine ⟨fun s log r => ⟨?_, fun e q h => reach_step ok r h⟩, fun stop => ?_⟩
  · have := reach_length ok r
    unfold sweepFuel at this
    rw [← hn] at this
    omega
  · obtain ⟨s, log, h, -⟩ := sweep_reach O d tb stop ok
    refine ⟨_, h, fun fuel hf => ?_⟩
    unfold sweep at h
    refine sweepLoop_more h fuel ?_
    unfold sweepFuel
    rw [← hn]
    omega

example : NoOverlap exA ∧ NoOverlap exB ∧
    (∃ r, sweep linearOps () .id (fun _ => false) exA exB = .ok r) :=
  ⟨exA_valid.noOverlap, exB_valid.noOverlap, by
    obtain ⟨r, h, -⟩ := (sweep_terminates linearOps () .id exA_valid.noOverlap exB_valid.noOverlap _ rfl).2
      (fun _ => false)
    exact ⟨r, h⟩⟩

/-- **C22** At every moment of every sweep the status comparison is a strict total order of the events in
the sweep line: the events come in ascending order, each is less than those after it and not less than
those before it, and two events with the same key are the same event. -/
theorem sweepLine_ordered (na : NoOverlap a) (nb : NoOverlap b) {s : SweepState α} {log : List (Ev × ℕ)}
    (r : Reach O tb (initState O.toPayload d a b) s log) :
    s.line.Nodup ∧
    s.line.Pairwise (fun i j => lineLt s.store.heap i j = true ∧ lineLt s.store.heap j i = false) ∧
    (∀ i ∈ s.line, ∀ j ∈ s.line, lineEq s.store.heap i j = true ↔ i = j) ∧
    (∀ i ∈ s.line, ∀ j ∈ s.line, ∀ k ∈ s.line, lineLt s.store.heap i j = true →
      lineLt s.store.heap j k = true → lineLt s.store.heap i k = true) := by
  obtain ⟨ε, Pt, Y, h, -⟩ := reach_ok O d tb (operandsOk_marked na nb)
  obtain ⟨F, p, S, -, -⟩ := h s log r
  obtain ⟨A, rr, I⟩ := S.inv
  have pw : s.line.Pairwise (fun i j => lineLt s.store.heap i j = true ∧ lineLt s.store.heap j i = false) := by
    refine (List.Pairwise.and_mem.1 (I.ord.and I.nodupL)).imp ?_
    rintro i j ⟨hi, hj, hlt, hne⟩
    exact line_lt rr I hi hj hne hlt
  have self := fun i => lineLt_self (h := s.store.heap) i
  have tri : ∀ i ∈ s.line, ∀ j ∈ s.line, i = j ∨ (lineLt s.store.heap i j = true ∧ lineLt s.store.heap j i = false)
      ∨ (lineLt s.store.heap j i = true ∧ lineLt s.store.heap i j = false) := by
    intro i hi j hj
    by_cases hij : i = j
    · exact Or.inl hij
    · obtain ⟨l₁, l₂, e⟩ := List.append_of_mem hi
      rw [e] at hj pw
      rcases List.mem_append.1 hj with hj | hj
      · right; right
        exact (List.pairwise_append.1 pw).2.2 j hj i (by simp)
      · rcases List.mem_cons.1 hj with hj | hj
        · exact absurd hj.symm hij
        · right; left
          exact (List.pairwise_cons.1 (List.pairwise_append.1 pw).2.1).1 j hj
  refine ⟨I.nodupL, pw, ?_, ?_⟩
  · intro i hi j hj
    unfold lineEq
    constructor
    · intro he
      rcases tri i hi j hj with h | h | h
      · exact h
      · rw [h.1] at he; simp at he
      · rw [h.1] at he; simp at he
    · rintro rfl; simp [self]
  · -- places in the line
    have idx : ∀ i ∈ s.line, ∀ j ∈ s.line, lineLt s.store.heap i j = true ↔ s.line.idxOf i < s.line.idxOf j := by
      have lt_of : ∀ i ∈ s.line, ∀ j ∈ s.line, s.line.idxOf i < s.line.idxOf j →
          lineLt s.store.heap i j = true ∧ lineLt s.store.heap j i = false := by
        intro i hi j hj hlt
        have := List.pairwise_iff_getElem.1 pw (s.line.idxOf i) (s.line.idxOf j)
          (List.idxOf_lt_length_of_mem hi) (List.idxOf_lt_length_of_mem hj) hlt
        simpa using this
      intro i hi j hj
      refine ⟨fun h => ?_, fun h => (lt_of i hi j hj h).1⟩
      rcases Nat.lt_trichotomy (s.line.idxOf i) (s.line.idxOf j) with g | g | g
      · exact g
      · have e : i = j := (List.idxOf_inj hi).1 g
        rw [e, self] at h; cases h
      · rw [(lt_of j hj i hi g).2] at h; cases h
    intro i hi j hj k hk h1 h2
    rw [idx i hi j hj] at h1
    rw [idx j hj k hk] at h2
    rw [idx i hi k hk]
    omega

/-- Witness for the theorems on reachable states: the state after seven iterations has three events in
the sweep line. -/
def stepN (O : Ops α) (tb : TieBreak) : ℕ → SweepState α → Option (SweepState α)
  | 0, s => some s
  | n + 1, s =>
    match pop tb s.store with
    | none => none
    | some (e, q) =>
      match processEvent O { s with store := { s.store with queue := q } } e with
      | .error _ => none
      | .ok s' => stepN O tb n s'

theorem stepN_reach {O : Ops α} {tb : TieBreak} {s₀ : SweepState α} : ∀ {n : ℕ} {s s' : SweepState α}
    {log : List (Ev × ℕ)}, Reach O tb s₀ s log → stepN O tb n s = some s' →
      ∃ log', Reach O tb s₀ s' log' ∧ log'.length = log.length + n := by
  intro n
  induction n with
  | zero => intro s s' log r h; cases h; exact ⟨log, r, rfl⟩
  | succ n ih =>
    intro s s' log r h
    unfold stepN at h
    cases hp : pop tb s.store with
    | none => rw [hp] at h; cases h
    | some x =>
      obtain ⟨e, q⟩ := x
      rw [hp] at h
      dsimp only at h
      cases hpr : processEvent O { s with store := { s.store with queue := q } } e with
      | error err => rw [hpr] at h; cases h
      | ok s'' =>
        rw [hpr] at h
        obtain ⟨log', r', hl⟩ := ih (r.step hp hpr) h
        exact ⟨log', r', by rw [hl, List.length_cons]; omega⟩

theorem exA_exB_reach : ∃ s log, Reach linearOps .id (initState linearOps.toPayload () exA exB) s log ∧
    log.length = 7 ∧ s.line.length = 3 := by
  have h : ((stepN linearOps .id 7 (initState linearOps.toPayload () exA exB)).map fun s => s.line.length) =
    some 3 := by decide +kernel
  cases hs : stepN linearOps .id 7 (initState linearOps.toPayload () exA exB) with
  | none => rw [hs] at h; cases h
  | some s =>
    rw [hs] at h
    obtain ⟨log, r, hl⟩ := stepN_reach (Reach.init) hs
    exact ⟨s, log, r, by simpa using hl, by simpa using h⟩

example : NoOverlap exA ∧ NoOverlap exB ∧ ∃ s log,
    Reach linearOps .id (initState linearOps.toPayload () exA exB) s log ∧ log.length = 7 ∧ s.line.length = 3 :=
  ⟨exA_valid.noOverlap, exB_valid.noOverlap, exA_exB_reach⟩

/-- **C22** Consequently any search tree which holds the events of the sweep line in order, however it is
balanced, finds exactly the events which are there: an event of the sweep line is found, an event which
is about to be added is not, and is put into its place between those below and those above it. -/
theorem sweepLine_tree (na : NoOverlap a) (nb : NoOverlap b) {s : SweepState α} {log : List (Ev × ℕ)}
    (r : Reach O tb (initState O.toPayload d a b) s log) {t : Tree} (ht : t.inorder = s.line) :
    (∀ i ∈ s.line, t.find (lineLt s.store.heap) i = some i) ∧
    ∀ i q, pop tb s.store = some (.left i, q) →
      i ∉ s.line ∧ t.find (lineLt s.store.heap) i = none ∧
      (t.insert (lineLt s.store.heap) i).inorder = lineAdd s.store.heap s.line i ∧
      ∃ l₁ l₂, s.line = l₁ ++ l₂ ∧ lineAdd s.store.heap s.line i = l₁ ++ i :: l₂ ∧
        (∀ x ∈ l₁, lineLt s.store.heap x i = true ∧ lineLt s.store.heap i x = false) ∧
        (∀ x ∈ l₂, lineLt s.store.heap i x = true ∧ lineLt s.store.heap x i = false) := by
  have pw := (sweepLine_ordered O d tb na nb r).2.1
  refine ⟨fun i hi => Tree.find_of_pairwise (by rw [ht]; exact pw) (lineLt_self i) (by rw [ht]; exact hi), ?_⟩
  intro i q hp
  obtain ⟨ε, Pt, Y, h, -⟩ := reach_ok O d tb (operandsOk_marked na nb)
  obtain ⟨F, p, S, l, -⟩ := h s log r
  have ⟨A, rr, I⟩ := S.inv
  have pr : ∀ i < s.store.heap.count, (absSeg ε s.store.heap i).a < (absSeg ε s.store.heap i).b :=
    fun i hi => by rw [← rr i hi]; exact I.proper i hi
  obtain ⟨he, -, hmin⟩ := (pop_spec (tb := tb) S.ok S.pts pr S.queue.evOk).2 _ q hp
  obtain ⟨hcon, l₁, l₂, hL, hadd, heq, hn, S'⟩ := S.pushed he hmin
  obtain ⟨A', r', I'⟩ := S'.inv
  have pw' : (l₁ ++ i :: l₂).Pairwise
      (fun i j => lineLt s.store.heap i j = true ∧ lineLt s.store.heap j i = false) := by
    refine (List.Pairwise.and_mem.1 (I'.ord.and I'.nodupL)).imp ?_
    rintro i j ⟨hi, hj, hlt, hne⟩
    exact line_lt r' I' hi hj hne hlt
  have h1 : ∀ x ∈ l₁, lineLt s.store.heap x i = true ∧ lineLt s.store.heap i x = false :=
    fun x hx => (List.pairwise_append.1 pw').2.2 x hx i (by simp)
  have h2 : ∀ x ∈ l₂, lineLt s.store.heap i x = true ∧ lineLt s.store.heap x i = false :=
    (List.pairwise_cons.1 (List.pairwise_append.1 pw').2.1).1
  refine ⟨hn, ?_, ?_, l₁, l₂, hL, hadd, h1, h2⟩
  · refine Tree.find_none ?_
    rw [ht, hL]
    intro x hx
    rcases List.mem_append.1 hx with hx | hx
    · exact Or.inr (h1 x hx).1
    · exact Or.inl (h2 x hx).1
  · rw [hadd]
    exact Tree.insert_inorder (ht.trans hL) (fun x hx => (h1 x hx).symm) fun x hx => (h2 x hx).1

example : ∃ s log, Reach linearOps .id (initState linearOps.toPayload () exA exB) s log ∧
    ∃ t : Tree, t.inorder = s.line ∧ s.line.length = 3 := by
  obtain ⟨s, log, r, -, h⟩ := exA_exB_reach
  match hs : s.line, h with
  | [x, y, z], _ => exact ⟨s, log, r, .node (.node .nil x .nil) y (.node .nil z .nil), by rw [hs]; rfl, by rw [hs]; rfl⟩

/-- **C23** Events leave the queue in lexicographic order of their points, although events are divided
and pushed while the sweep is running; and if events at the same point are queued, right end points
are taken before left ones. -/
theorem events_ordered (na : NoOverlap a) (nb : NoOverlap b) {s : SweepState α} {log : List (Ev × ℕ)}
    (r : Reach O tb (initState O.toPayload d a b) s log) :
    log.Pairwise (fun later earlier =>
      s.store.heap.evStart earlier.1 ≤ s.store.heap.evStart later.1) ∧
    ∀ e q, pop tb s.store = some (e, q) →
      (∀ x ∈ log, s.store.heap.evStart x.1 ≤ s.store.heap.evStart e) ∧
      ∀ f ∈ s.store.queue, s.store.heap.evStart e ≤ s.store.heap.evStart f ∧
        (s.store.heap.evStart f = s.store.heap.evStart e → Heap.isLeft e = true → Heap.isLeft f = true) := by
  obtain ⟨ε, Pt, Y, h, -⟩ := reach_ok O d tb (operandsOk_marked na nb)
  obtain ⟨F, p, S, l, -⟩ := h s log r
  obtain ⟨A, rr, I⟩ := S.inv
  have pr : ∀ i < s.store.heap.count, (absSeg ε s.store.heap i).a < (absSeg ε s.store.heap i).b :=
    fun i hi => by rw [← rr i hi]; exact I.proper i hi
  refine ⟨l.sorted, fun e q hp => ?_⟩
  obtain ⟨he, -, hmin⟩ := (pop_spec (tb := tb) S.ok S.pts pr S.queue.evOk).2 e q hp
  obtain ⟨s', F', e1, S', l', -, st, -⟩ := S.step O l hp
  refine ⟨?_, ?_⟩
  · intro x hx
    have := (List.pairwise_cons.1 l'.sorted).1 x hx
    dsimp only at this
    rwa [st e (S.queue.evOk e he), st x.1 (l.evOk S x hx)] at this
  · intro f hf
    have hm := hmin f hf
    unfold precedes queueLt at hm
    refine ⟨?_, ?_⟩
    · by_contra hc
      rw [not_le, Point.lt_def] at hc
      rcases hc with hc | ⟨h1, h2⟩
      · simp [hc.ne, hc.ne', hc, hc.le] at hm
        exact absurd hm (not_lt.2 hc.le)
      · simp [h1, h2.ne, h2.ne', h2, h2.le] at hm
        exact absurd hm (not_lt.2 h2.le)
    · intro h1 h2
      by_contra hc
      simp [h1, h2, hc] at hm

example : NoOverlap exA ∧ NoOverlap exB ∧ ∃ s log,
    Reach linearOps .id (initState linearOps.toPayload () exA exB) s log ∧ log.length = 7 ∧ s.line.length = 3 :=
  ⟨exA_valid.noOverlap, exB_valid.noOverlap, exA_exB_reach⟩

/-- **C24** At each moment of every sweep the current segments of each operand cover exactly the points of
the operand, and each of them runs from a lesser to a greater point. -/
theorem sweep_keeps_points (na : NoOverlap a) (nb : NoOverlap b) {s : SweepState α} {log : List (Ev × ℕ)}
    (r : Reach O tb (initState O.toPayload d a b) s log) :
    {q | ∃ i < s.store.heap.count, s.store.heap.first i = true ∧ q ∈ (s.store.heap.segment i).pts} =
      segsPts a ∧
    {q | ∃ i < s.store.heap.count, s.store.heap.first i = false ∧ q ∈ (s.store.heap.segment i).pts} =
      segsPts b ∧
    ∀ i < s.store.heap.count, s.store.heap.start i < s.store.heap.stop i := by
  obtain ⟨ε, Pt, Y, h, -⟩ := reach_ok O d tb (operandsOk_marked na nb)
  obtain ⟨F, p, S, l, hp, -⟩ := h s log r
  obtain ⟨A, rr, I⟩ := S.inv
  refine ⟨(hp true).trans (inputPts_true a b), (hp false).trans (inputPts_false a b), ?_⟩
  intro i hi
  rw [S.pts.ord.lt_iff (S.pts.mem i hi).1 (S.pts.mem i hi).2]
  have := I.proper i hi
  rw [rr i hi] at this
  exact this

example : NoOverlap exA ∧ NoOverlap exB ∧ ∃ s log,
    Reach linearOps .id (initState linearOps.toPayload () exA exB) s log ∧ log.length = 7 ∧ s.line.length = 3 :=
  ⟨exA_valid.noOverlap, exB_valid.noOverlap, exA_exB_reach⟩

end Clipping

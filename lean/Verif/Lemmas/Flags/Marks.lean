import Verif.Lemmas.Flags.Run

/-!
# Marks of overlapping segments in every state of the sweep
-/

namespace Clipping

open Sweep

variable {α κ : Type} {O : Ops α} (f : Flags O κ) {ε : ℚ} {Pt : List Point} {Y : ℚ → ℚ} {L F : List ℕ} {p : ℚ}

/-- Overlapping segments with different starts keep their marks; marks do not depend on the order. -/
structure Flags.Steady : Prop where
  keep : ∀ l r, f.mark (O.overlap false l r).1 = f.mark l.data ∧ f.mark (O.overlap false l r).2 = f.mark r.data
  symm : ∀ a b, f.kind a b = f.kind b a

/-- Pairs of overlapping segments of `W` which start at the same place are marked, apart from `P`; all others are
not marked. -/
structure MarkInv (ε : ℚ) (s : Store α) (W : ℕ → Prop) (P : ℕ → ℕ → Prop) : Prop where
  bound : ∀ i, W i → i < s.heap.count
  hit : ∀ i k, W i → W k → i ≠ k → Hot ε s.heap i k → ¬ P i k → f.K s.heap i = f.kind (f.I s.heap i) (f.I s.heap k)
  miss : ∀ i < s.heap.count, (W i → ∀ k, W k → k ≠ i → ¬ Hot ε s.heap i k) → f.K s.heap i = f.none

variable {f}

namespace Flags

/-- `detect_intersection` marks nothing unless it reports an overlap. -/
theorem Steady.detect (st : f.Steady) {s s' : Store α} {u v : ℕ} (ok : HeapOk s.heap) (hu : u < s.heap.count)
    (hv : v < s.heap.count) (huv : u ≠ v) (h : detectIntersection O.toPayload s u v = .ok (s', false)) :
    ∀ i < s.heap.count, f.mark (s'.heap.lefts i).data = f.mark (s.heap.lefts i).data := by
  have pt : ∀ {s₂ : Store α}, (if s.heap.start v ≠ s.heap.start u ∧ s.heap.stop v ≠ s.heap.stop u then
      let point := segmentsIntersection (s.heap.segment u) (s.heap.segment v)
      let s₁ := if point ≠ s.heap.start u ∧ point ≠ s.heap.stop u then divideSegment O.toPayload s u point else s
      let s₂ := if point ≠ s₁.heap.start v ∧ point ≠ s₁.heap.stop v
        then divideSegment O.toPayload s₁ v point else s₁
      (Except.ok (s₂, false) : Except Err (Store α × Bool))
    else Except.ok (s, false)) = Except.ok (s₂, false) → f.Keep' s s₂ := by
    intro s₂ h
    split_ifs at h with h1
    · dsimp only at h
      have k1 : f.Keep' s (if segmentsIntersection (s.heap.segment u) (s.heap.segment v) ≠ s.heap.start u ∧
          segmentsIntersection (s.heap.segment u) (s.heap.segment v) ≠ s.heap.stop u then
          divideSegment O.toPayload s u (segmentsIntersection (s.heap.segment u) (s.heap.segment v)) else s) := by
        split_ifs
        · exact keep_divide hu
        · exact Keep'.refl s
      generalize (if segmentsIntersection (s.heap.segment u) (s.heap.segment v) ≠ s.heap.start u ∧
          segmentsIntersection (s.heap.segment u) (s.heap.segment v) ≠ s.heap.stop u then
          divideSegment O.toPayload s u (segmentsIntersection (s.heap.segment u) (s.heap.segment v)) else s) = s₁ at h k1
      split_ifs at h
      · cases h
        exact k1.trans (keep_divide (hv.trans_le k1.1.count))
      · cases h
        exact k1
    · cases h
      exact Keep'.refl s
  have ovl : (if s.heap.first u = s.heap.first v then Except.error Err.sameOperandOverlap
      else
        let startsEqual := decide (s.heap.start u = s.heap.start v)
        let d := O.overlap startsEqual (s.heap.lefts u) (s.heap.lefts v)
        let s' := { s with heap := (s.heap.setData u d.1).setData v d.2 }
        Except.ok (divideOverlapping O.toPayload s' u v, startsEqual)) = Except.ok (s', false) →
      ∀ i < s.heap.count, f.mark (s'.heap.lefts i).data = f.mark (s.heap.lefts i).data := by
    intro h
    split_ifs at h with h1
    dsimp only at h
    simp only [Except.ok.injEq, Prod.mk.injEq] at h
    obtain ⟨hs, hb⟩ := h
    set d := O.overlap (decide (s.heap.start u = s.heap.start v)) (s.heap.lefts u) (s.heap.lefts v) with hd
    set t : Store α := { s with heap := (s.heap.setData u d.1).setData v d.2 } with ht
    have g : SameGeo s.heap t.heap := (SameGeo.setData _ _ _).trans (SameGeo.setData _ _ _)
    have k := keep_overlapping (f := f) (s := t) (g.ok ok) (by rw [g.count]; exact hu) (by rw [g.count]; exact hv)
    rw [hs] at k
    intro i hi
    rw [k.2 i (by rw [g.count]; exact hi)]
    have hk := st.keep (s.heap.lefts u) (s.heap.lefts v)
    rw [← hb, ← hd] at hk
    by_cases e' : i = v
    · subst e'
      have dv : (t.heap.lefts i).data = d.2 := by simp [ht, Heap.setData]
      rw [dv]; exact hk.2
    · by_cases e : i = u
      · subst e
        have du : (t.heap.lefts i).data = d.1 := by simp [ht, Heap.setData, huv]
        rw [du]; exact hk.1
      · have dn : (t.heap.lefts i).data = (s.heap.lefts i).data := by simp [ht, Heap.setData, e, e']
        rw [dn]
  unfold detectIntersection at h
  dsimp only at h
  cases hr : segmentsRelation (s.heap.segment u) (s.heap.segment v) <;> rw [hr] at h <;> dsimp only at h
  · cases h; exact fun _ _ => rfl
  all_goals first
    | exact ovl h
    | exact (pt h).2

end Flags

namespace MarkInv

theorem mono {s : Store α} {W : ℕ → Prop} {P P' : ℕ → ℕ → Prop} (m : MarkInv f ε s W P)
    (h : ∀ i k, W i → W k → i ≠ k → Hot ε s.heap i k → ¬ P' i k → ¬ P i k) : MarkInv f ε s W P' :=
  ⟨m.bound, fun i k hi hk hne hh hp => m.hit i k hi hk hne hh (h i k hi hk hne hh hp), m.miss⟩

theorem congr {s : Store α} {W W' : ℕ → Prop} {P : ℕ → ℕ → Prop} (m : MarkInv f ε s W P) (h : ∀ i, W' i ↔ W i) :
    MarkInv f ε s W' P := by
  have : W' = W := funext fun i => propext (h i)
  rw [this]; exact m

theorem queue {s : Store α} {W : ℕ → Prop} {P : ℕ → ℕ → Prop} (m : MarkInv f ε s W P) (q : List Ev) :
    MarkInv f ε { s with queue := q } W P := ⟨m.bound, m.hit, m.miss⟩

/-- a new segment -/
theorem insert {s : Store α} {W : ℕ → Prop} (m : MarkInv f ε s W fun _ _ => False) {t : ℕ}
    (ht : t < s.heap.count) (htW : ¬ W t) :
    MarkInv f ε s (fun i => i = t ∨ W i) fun i k => i = t ∨ k = t := by
  refine ⟨?_, ?_, ?_⟩
  · rintro i (rfl | h)
    · exact ht
    · exact m.bound i h
  · rintro i k hi hk hne hh hp
    push Not at hp
    exact m.hit i k (hi.resolve_left hp.1) (hk.resolve_left hp.2) hne hh id
  · intro i hi h
    by_cases hit : i = t
    · subst hit
      exact m.miss i hi fun h => absurd h htW
    · exact m.miss i hi fun hw k hk => h (Or.inr hw) k (Or.inr hk)

theorem compute {s : Store α} {W : ℕ → Prop} {P : ℕ → ℕ → Prop} (m : MarkInv f ε s W P) (t : ℕ) (b : Option ℕ) :
    MarkInv f ε (computeFields O s t b) W P := by
  obtain ⟨u, -⟩ := f.compute_upd s t b
  obtain ⟨g, -⟩ := computeFields_geo O s t b
  have hot : ∀ i k, Hot ε (computeFields O s t b).heap i k ↔ Hot ε s.heap i k := by
    intro i k
    unfold Hot
    rw [g.absSeg, g.absSeg]
  refine ⟨?_, ?_, ?_⟩
  · intro i hi; rw [g.count]; exact m.bound i hi
  · intro i k hi hk hne hh hp
    rw [u.mark i (m.bound i hi) (by simp), u.itl i (m.bound i hi), u.itl k (m.bound k hk)]
    exact m.hit i k hi hk hne ((hot i k).1 hh) hp
  · intro i hi h
    rw [g.count] at hi
    rw [u.mark i hi (by simp)]
    exact m.miss i hi fun hw k hk hne hh => h hw k hk hne ((hot i k).2 hh)

theorem detect (st : f.Steady) {s s' : Store α} {W : ℕ → Prop} {P : ℕ → ℕ → Prop} {Ex : ℕ → ℕ → Prop} {b : Bool}
    (m : MarkInv f ε s W P) (S : St ε Pt Y s L F p Ex) {u v : ℕ} (hu : u ∈ L) (hv : v ∈ L) (huv : u ≠ v) (hWu : W u)
    (hWv : W v) (e : detectIntersection O.toPayload s u v = .ok (s', b)) :
    MarkInv f ε s' W fun i k => P i k ∧ ¬ (i = u ∧ k = v) ∧ ¬ (i = v ∧ k = u) := by
  obtain ⟨s₁, b₁, e₁, S', ev, hb⟩ := S.detect (O := O) hu hv huv
  rw [e] at e₁
  cases e₁
  have hun := m.bound u hWu
  have hvn := m.bound v hWv
  obtain ⟨U, k⟩ := f.detect_upd S.ok hun hvn huv e
  have hb' : b = true ↔ Hot ε s.heap u v := by
    rw [hb, S.start_iff hun hvn]; rfl
  have hot : ∀ i, W i → ∀ k, W k → (Hot ε s'.heap i k ↔ Hot ε s.heap i k) := fun i hi k hk =>
    ev.hot S S' (m.bound i hi) (m.bound k hk)
  have same : ∀ i < s.heap.count, (Hot ε s.heap u v → i ≠ u ∧ i ≠ v) → f.K s'.heap i = f.K s.heap i := by
    intro i hi h
    cases hbb : b with
    | true =>
      obtain ⟨h1, h2⟩ := h (hb'.1 hbb)
      exact U.mark i hi (by simp [h1, h2])
    | false =>
      subst hbb
      exact st.detect S.ok hun hvn huv e i hi
  refine ⟨fun i hi => (m.bound i hi).trans_le U.count, ?_, ?_⟩
  · intro i j hi hj hne hh hp
    have hin := m.bound i hi
    have hjn := m.bound j hj
    rw [hot i hi j hj] at hh
    rw [U.itl i hin, U.itl j hjn]
    have uniq : ∀ {a c d : ℕ}, W a → W c → W d → a ≠ c → a ≠ d → Hot ε s.heap a c → Hot ε s.heap a d → c = d := by
      intro a c d ha hc hd hac had h1 h2
      by_contra hcd
      have f1 := S.hot_first (m.bound a ha) (m.bound c hc) hac h1
      have f2 := S.hot_first (m.bound a ha) (m.bound d hd) had h2
      have f3 := S.hot_first (m.bound c hc) (m.bound d hd) hcd ⟨h1.1.symm.trans h2.1, h1.2.symm.trans h2.2⟩
      revert f1 f2 f3
      cases s.heap.first a <;> cases s.heap.first c <;> cases s.heap.first d <;> simp
    by_cases hiu : i = u ∧ Hot ε s.heap u v
    · obtain ⟨rfl, huv'⟩ := hiu
      have := uniq hi hj hWv hne huv hh huv'
      subst this
      exact (k (hb'.2 huv')).1
    by_cases hiv : i = v ∧ Hot ε s.heap u v
    · obtain ⟨rfl, huv'⟩ := hiv
      have := uniq hi hj hWu hne huv.symm hh huv'.symm
      subst this
      rw [(k (hb'.2 huv')).2, st.symm]
    rw [same i hin fun h => ⟨fun e => hiu ⟨e, h⟩, fun e => hiv ⟨e, h⟩⟩]
    refine m.hit i j hi hj hne hh fun hP => hp ⟨hP, ?_, ?_⟩
    · rintro ⟨rfl, rfl⟩
      exact hiu ⟨rfl, hh⟩
    · rintro ⟨rfl, rfl⟩
      exact hiv ⟨rfl, hh.symm⟩
  · intro i hi h
    by_cases hin : i < s.heap.count
    · rw [same i hin]
      · exact m.miss i hin fun hw k hk hne hh => h hw k hk hne ((hot i hw k hk).2 hh)
      · intro huv'
        constructor
        · rintro rfl
          exact h hWu v hWv huv.symm ((hot i hWu v hWv).2 huv')
        · rintro rfl
          exact h hWv u hWu huv ((hot i hWv u hWu).2 huv'.symm)
    · exact (U.fresh i hi (not_lt.1 hin)).2

theorem checkAbove (st : f.Steady) {s s' : Store α} {W : ℕ → Prop} {P : ℕ → ℕ → Prop} {Ex : ℕ → ℕ → Prop}
    (m : MarkInv f ε s W P) (S : St ε Pt Y s L F p Ex) {t : ℕ} (ht : t ∈ L) (hWt : W t) {above below : Option ℕ}
    (ha : ∀ a, above = some a → a ∈ L ∧ t ≠ a ∧ W a) (h : Clipping.checkAbove O s t above below = .ok s') :
    MarkInv f ε s' W fun i k => P i k ∧ ¬ (i = t ∧ above = some k) ∧ ¬ (above = some i ∧ k = t) := by
  cases above with
  | none =>
    unfold Clipping.checkAbove at h
    cases Except.ok.inj h
    exact m.mono fun i k _ _ _ _ hp hP => hp ⟨hP, by simp, by simp⟩
  | some a =>
    obtain ⟨haL, hta, hWa⟩ := ha a rfl
    obtain ⟨s₁, b, e, -⟩ := S.detect (O := O) ht haL hta
    have m1 := m.detect st S ht haL hta hWt hWa e
    unfold Clipping.checkAbove at h
    dsimp only at h
    rw [e] at h
    have fin : ∀ {s₂}, MarkInv f ε s₂ W (fun i k => P i k ∧ ¬ (i = t ∧ k = a) ∧ ¬ (i = a ∧ k = t)) →
        MarkInv f ε s₂ W fun i k => P i k ∧ ¬ (i = t ∧ some a = some k) ∧ ¬ (some a = some i ∧ k = t) := by
      intro s₂ m2
      refine m2.mono fun i k _ _ _ _ hp hP => hp ⟨hP.1, fun h => hP.2.1 ⟨h.1, (Option.some.inj h.2).symm⟩,
        fun h => hP.2.2 ⟨(Option.some.inj h.1).symm, h.2⟩⟩
    cases b with
    | false =>
      cases h
      exact fin m1
    | true =>
      dsimp only at h
      cases h
      exact fin ((m1.compute t below).compute a (some t))

theorem checkBelow (st : f.Steady) {s s' : Store α} {W : ℕ → Prop} {P : ℕ → ℕ → Prop} {Ex : ℕ → ℕ → Prop}
    (m : MarkInv f ε s W P) (S : St ε Pt Y s L F p Ex) {t : ℕ} (ht : t ∈ L) (hWt : W t) {below : Option ℕ}
    (ha : ∀ a, below = some a → a ∈ L ∧ a ≠ t ∧ W a) {line : List ℕ}
    (h : Clipping.checkBelow O line s t below = .ok s') :
    MarkInv f ε s' W fun i k => P i k ∧ ¬ (below = some i ∧ k = t) ∧ ¬ (i = t ∧ below = some k) := by
  cases below with
  | none =>
    unfold Clipping.checkBelow at h
    cases Except.ok.inj h
    exact m.mono fun i k _ _ _ _ hp hP => hp ⟨hP, by simp, by simp⟩
  | some a =>
    obtain ⟨haL, hta, hWa⟩ := ha a rfl
    obtain ⟨s₁, b, e, -⟩ := S.detect (O := O) haL ht hta
    have m1 := m.detect st S haL ht hta hWa hWt e
    unfold Clipping.checkBelow at h
    dsimp only at h
    rw [e] at h
    have fin : ∀ {s₂}, MarkInv f ε s₂ W (fun i k => P i k ∧ ¬ (i = a ∧ k = t) ∧ ¬ (i = t ∧ k = a)) →
        MarkInv f ε s₂ W fun i k => P i k ∧ ¬ (some a = some i ∧ k = t) ∧ ¬ (i = t ∧ some a = some k) := by
      intro s₂ m2
      refine m2.mono fun i k _ _ _ _ hp hP => hp ⟨hP.1, fun h => hP.2.1 ⟨(Option.some.inj h.1).symm, h.2⟩,
        fun h => hP.2.2 ⟨h.1, (Option.some.inj h.2).symm⟩⟩
    cases b with
    | false =>
      cases h
      exact fin m1
    | true =>
      dsimp only at h
      cases h
      exact fin ((m1.compute a _).compute t (some a))

/-- marks after a left event -/
theorem left (st : f.Steady) {s : Store α} (m : MarkInv f ε s (· ∈ L ++ F) fun _ _ => False)
    (S : St ε Pt Y s L F p NoEx) {t : ℕ} (he : Ev.left t ∈ s.queue)
    (hmin : ∀ f ∈ s.queue, precedes s.heap f (.left t) = false) {s' : SweepState α}
    (e : processLeft O ⟨{ s with queue := s.queue.erase (.left t) }, L⟩ t = .ok s') :
    MarkInv f ε s'.store (· ∈ s'.line ++ F) fun _ _ => False := by
  obtain ⟨l₁, l₂, hadd, hcon, heq, G, S1⟩ := S.leftGeo he hmin
  have htW : t ∉ L ++ F := by
    simp only [List.mem_append, not_or]; exact ⟨G.tL, G.tF⟩
  -- overlapping segments which start at the same place are neighbours
  have adj : ∀ i ∈ L ++ F, Hot ε s.heap t i → l₂.head? = some i ∨ l₁.getLast? = some i := by
    intro i hi hh
    have hne : i ≠ t := by rintro rfl; exact htW hi
    have nf := S.hot_first G.tn (G.inv.bound i hi) hne.symm hh
    have ia : (absSeg ε s.heap i).a = evX ε s.heap (.left t) := hh.2.symm.trans G.ta
    cases ht : s.heap.first t with
    | true =>
      have fi : s.heap.first i = false := by rw [ht] at nf; simpa using nf.symm
      exact Or.inl (G.above_adj hi hh.1 ia ht fi)
    | false =>
      have fi : s.heap.first i = true := by rw [ht] at nf; simpa using nf.symm
      exact Or.inr (G.below_adj hi hh.1.symm ia ht fi)
  have mem : ∀ i, i ∈ l₁ ++ t :: l₂ ++ F ↔ i = t ∨ i ∈ L ++ F := by
    intro i
    rw [G.hL]
    simp only [List.mem_append, List.mem_cons]
    tauto
  have nd := S1.inv'.nodupL
  have ne : ∀ i ∈ l₁ ++ l₂, i ≠ t := by
    rintro i hi rfl
    exact (List.nodup_cons.1 (List.nodup_middle.1 nd)).1 hi
  unfold processLeft at e
  dsimp only at e
  rw [hcon, Bool.and_false, if_neg (by simp), hadd, lineAbove_append heq, lineBelow_append heq] at e
  set s0 : Store α := { s with queue := s.queue.erase (.left t) } with hs0
  have m0 := ((m.queue (s.queue.erase (.left t))).insert (t := t) G.tn htW).compute t l₁.getLast?
  obtain ⟨g1, q1⟩ := computeFields_geo O s0 t l₁.getLast?
  have S1' := g1.st q1 S1
  have htL : t ∈ l₁ ++ t :: l₂ := by simp
  have ha : ∀ a, l₂.head? = some a → a ∈ l₁ ++ t :: l₂ ∧ t ≠ a ∧ (a = t ∨ a ∈ L ++ F) := by
    intro a ha
    have h' : a ∈ l₂ := List.mem_of_mem_head? ha
    exact ⟨by simp [h'], (ne a (by simp [h'])).symm, Or.inr (by rw [G.hL]; simp [h'])⟩
  have hb : ∀ a, l₁.getLast? = some a → a ∈ l₁ ++ t :: l₂ ∧ a ≠ t ∧ (a = t ∨ a ∈ L ++ F) := by
    intro a ha
    have h' : a ∈ l₁ := List.mem_of_getLast? ha
    exact ⟨by simp [h'], ne a (by simp [h']), Or.inr (by rw [G.hL]; simp [h'])⟩
  obtain ⟨s₂, e2, S2, ev2⟩ := checkAbove_spec O S1' htL (above := l₂.head?) (below := l₁.getLast?)
    (fun a h => ⟨(ha a h).1, (ha a h).2.1⟩)
  rw [e2] at e
  dsimp only at e
  have m2 := m0.checkAbove st S1' htL (Or.inl rfl) ha e2
  obtain ⟨s₃, e3, S3, ev3⟩ := checkBelow_spec O S2 htL (below := l₁.getLast?)
    (fun a h => ⟨(hb a h).1, (hb a h).2.1⟩) (l₁ ++ t :: l₂)
  rw [e3] at e
  have m3 := m2.checkBelow st S2 htL (Or.inl rfl) hb e3
  cases e
  refine MarkInv.congr ?_ mem
  refine m3.mono ?_
  intro i k hi hk hne hh _ hP
  have c1 : ∀ j, (j = t ∨ j ∈ L ++ F) → j < s.heap.count := by
    rintro j (rfl | h)
    · exact G.tn
    · exact G.inv.bound j h
  have cc : (computeFields O s0 t l₁.getLast?).heap.count = s.heap.count := g1.count
  have k1 : ∀ j, (j = t ∨ j ∈ L ++ F) → j < (computeFields O s0 t l₁.getLast?).heap.count := by
    intro j hj; rw [cc]; exact c1 j hj
  rw [ev3.hot S2 S3 ((k1 i hi).trans_le ev2.count) ((k1 k hk).trans_le ev2.count),
    ev2.hot S1' S2 (k1 i hi) (k1 k hk)] at hh
  have hh' : Hot ε s.heap i k := by
    unfold Hot at hh ⊢
    rw [g1.absSeg, g1.absSeg] at hh
    exact hh
  obtain ⟨⟨h1, h2, h3⟩, h4, h5⟩ := hP
  rcases h1 with rfl | rfl
  · have hkL := hk.resolve_left (fun e => hne e.symm)
    rcases adj k hkL hh' with h | h
    · exact h2 ⟨rfl, h⟩
    · exact h5 ⟨rfl, h⟩
  · have hiL := hi.resolve_left hne
    rcases adj i hiL hh'.symm with h | h
    · exact h3 ⟨h, rfl⟩
    · exact h4 ⟨h, rfl⟩

/-- marks after a right event -/
theorem right (st : f.Steady) {s : Store α} (m : MarkInv f ε s (· ∈ L ++ F) fun _ _ => False)
    (S : St ε Pt Y s L F p NoEx) {j : ℕ} (he : Ev.right j ∈ s.queue)
    (hmin : ∀ f ∈ s.queue, precedes s.heap f (.right j) = false) {s' : SweepState α}
    (e : processRight O ⟨{ s with queue := s.queue.erase (.right j) }, L⟩ (s.heap.rights j).left = .ok s') :
    MarkInv f ε s'.store (· ∈ L ++ F) fun _ _ => False := by
  obtain ⟨l₁, l₂, hL, heq, hj, S1⟩ := S.pulled he hmin
  set i := (s.heap.rights j).left with hi
  set s0 : Store α := { s with queue := s.queue.erase (.right j) } with hs0
  have m0 : MarkInv f ε s0 (· ∈ L ++ F) fun _ _ => False := m.queue _
  have hh : s0.heap = s.heap := rfl
  have nd : (l₁ ++ l₂).Nodup := by obtain ⟨A, r, I⟩ := S1.inv; exact I.nodupL
  have red : processRight O ⟨s0, L⟩ i = (match l₁.getLast?, l₂.head? with
      | some b, some a =>
        match detectIntersection O.toPayload s0 b a with
        | .error e => .error e
        | .ok (s', _) => .ok ⟨s', l₁ ++ l₂⟩
      | _, _ => .ok ⟨s0, l₁ ++ l₂⟩) := by
    unfold processRight
    dsimp only
    rw [hh, hL, lineContains_append, if_pos rfl, lineAbove_append heq, lineBelow_append heq,
      lineRemove_append heq]
    cases l₁.getLast? <;> cases l₂.head? <;> rfl
  rw [red] at e
  rcases hb : l₁.getLast? with _ | b
  · rw [hb] at e
    cases e
    exact m0
  rcases ha : l₂.head? with _ | a
  · rw [hb, ha] at e
    cases e
    exact m0
  rw [hb, ha] at e
  dsimp only at e
  have hbm : b ∈ l₁ := List.mem_of_getLast? hb
  have ham : a ∈ l₂ := List.mem_of_mem_head? ha
  cases hd : detectIntersection O.toPayload s0 b a with
  | error x => rw [hd] at e; cases e
  | ok x =>
    obtain ⟨s1, c⟩ := x
    rw [hd] at e
    cases e
    have m1 := m0.detect st S1 (u := b) (v := a) (by simp [hbm]) (by simp [ham])
      ((List.nodup_append.1 nd).2.2 b hbm a ham) (by rw [hL]; simp [hbm]) (by rw [hL]; simp [ham]) hd
    exact m1.mono fun i k _ _ _ _ _ h => h.1

end MarkInv

/-- Marks in every state of the loop. -/
theorem marks_reach (st : f.Steady) {tb : TieBreak} {init : SweepState α}
    (S : St ε Pt Y init.store init.line [] p NoEx) (hl : init.line = [])
    (hD : ∀ k < init.store.heap.count, f.X init.store.heap k = false ∧ f.K init.store.heap k = f.none)
    {s : SweepState α} {log : List (Ev × ℕ)} (r : Reach O tb init s log) :
    ∃ F p', St ε Pt Y s.store s.line F p' NoEx ∧ LogOk ε s.store s.line F p' log ∧
      MarkInv f ε s.store (· ∈ s.line ++ F) fun _ _ => False := by
  induction r with
  | init =>
    refine ⟨[], p, S, ⟨?_, ?_, ?_, ?_, ?_, ?_, ?_⟩, ?_⟩
    any_goals simp [hl]
    exact ⟨by simp, by simp, fun i hi _ => (hD i hi).2⟩
  | @step s s' log e q r h1 h2 ih =>
    obtain ⟨F, p', S, l, m⟩ := ih
    obtain ⟨s'', F', e1, S', l', -⟩ := S.step O l h1
    rw [h2] at e1
    cases e1
    have pr : ∀ i < s.store.heap.count, (absSeg ε s.store.heap i).a < (absSeg ε s.store.heap i).b :=
      S.inv'.proper
    obtain ⟨he, rfl, hmin⟩ := (pop_spec (tb := tb) S.ok S.pts pr S.queue.evOk).2 e q h1
    refine ⟨F', _, S', l', ?_⟩
    cases e with
    | left t =>
      have hF : F' = F := by
        rw [l'.fin, l.fin]
        simp [Heap.isLeft]
      subst hF
      exact m.left st S he hmin h2
    | right j =>
      have mem : ∀ i, i ∈ s'.line ++ F' ↔ i ∈ s.line ++ F := by
        intro i
        rw [List.mem_append, List.mem_append, ← l'.left, ← l.left]
        simp
      exact (m.right st S he hmin h2).congr mem

end Clipping

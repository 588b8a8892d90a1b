import Verif.Lemmas.Flags.Update
import Verif.Lemmas.Flags.Core

/-!
# Fields of events after a left event
-/

namespace Clipping

namespace Sweep

variable {α : Type} {ε : ℚ} {Pt : List Point} {Y : ℚ → ℚ} {L F : List ℕ} {p : ℚ}

theorem St.inv' {s : Store α} {Ex : ℕ → ℕ → Prop} (S : St ε Pt Y s L F p Ex) :
    Inv Y (absSeg ε s.heap) s.heap.count L F p Ex := by
  obtain ⟨A, r, I⟩ := S.inv
  exact I.ext r

/-- A part of a segment lies on the same line. -/
theorem Part.abs {O : Ops α} {h h' : Heap α} {k i : ℕ} (part : Part O h h' k i)
    (pk : (absSeg ε h k).a < (absSeg ε h k).b) (pi : (absSeg ε h' i).a < (absSeg ε h' i).b) :
    Col (absSeg ε h' i) (absSeg ε h k) ∧ (absSeg ε h' i).ff = (absSeg ε h k).ff ∧
    (absSeg ε h k).a ≤ (absSeg ε h' i).a ∧ (absSeg ε h' i).b ≤ (absSeg ε h k).b := by
  have m1 := (mem_segment pk).1 (part.pts (h'.segment i).start_mem)
  have m2 := (mem_segment pk).1 (part.pts (h'.segment i).stop_mem)
  have n1 := (mem_segment pi).1 (h'.segment i).start_mem
  have n2 := (mem_segment pi).1 (h'.segment i).stop_mem
  have a1 : sx ε (h'.segment i).start = (absSeg ε h' i).a := rfl
  have b1 : sx ε (h'.segment i).stop = (absSeg ε h' i).b := rfl
  rw [a1] at m1 n1
  rw [b1] at m2 n2
  refine ⟨?_, part.first, m1.1, m2.2.1⟩
  have e1 := n1.2.2.trans m1.2.2.symm
  have e2 := n2.2.2.trans m2.2.2.symm
  simp only [Seg.y] at e1 e2
  have hm : (absSeg ε h' i).m = (absSeg ε h k).m := by
    have h0 : ((absSeg ε h' i).m - (absSeg ε h k).m) * ((absSeg ε h' i).b - (absSeg ε h' i).a) = 0 := by
      linear_combination e2 - e1
    rcases mul_eq_zero.1 h0 with h | h
    · linarith
    · exact absurd h (by linarith)
  refine ⟨hm, ?_⟩
  rw [hm] at e1
  linarith

theorem Evolves.abs {O : Ops α} {s s' : Store α} {M L' F' : List ℕ} {p' : ℚ} {Ex Ex' : ℕ → ℕ → Prop}
    (ev : Evolves O ε Pt M s s') (S : St ε Pt Y s L F p Ex) (S' : St ε Pt Y s' L' F' p' Ex') {k : ℕ}
    (hk : k < s.heap.count) : Col (absSeg ε s'.heap k) (absSeg ε s.heap k) ∧
      (absSeg ε s'.heap k).ff = (absSeg ε s.heap k).ff ∧ (absSeg ε s'.heap k).a = (absSeg ε s.heap k).a ∧
      (absSeg ε s'.heap k).b ≤ (absSeg ε s.heap k).b := by
  obtain ⟨h1, h2, -, h4⟩ := (ev.own k hk).abs (S.inv'.proper k hk) (S'.inv'.proper k (hk.trans_le ev.count))
  refine ⟨h1, h2, ?_, h4⟩
  show sx ε (s'.heap.start k) = sx ε (s.heap.start k)
  rw [ev.start k hk]

theorem St.start_iff {s : Store α} {Ex : ℕ → ℕ → Prop} (S : St ε Pt Y s L F p Ex) {u v : ℕ}
    (hu : u < s.heap.count) (hv : v < s.heap.count) :
    s.heap.start u = s.heap.start v ↔ (absSeg ε s.heap u).a = (absSeg ε s.heap v).a := by
  constructor
  · intro h
    show sx ε (s.heap.start u) = sx ε (s.heap.start v)
    rw [h]
  · intro h
    exact (Orders.eq_iff S.pts.ord (S.pts.mem u hu).1 (S.pts.mem v hv).1).2 h

/-- Overlapping segments with the same start. -/
def Hot (ε : ℚ) (h : Heap α) (u v : ℕ) : Prop :=
  Col (absSeg ε h u) (absSeg ε h v) ∧ (absSeg ε h u).a = (absSeg ε h v).a

theorem Hot.symm {h : Heap α} {u v : ℕ} (a : Hot ε h u v) : Hot ε h v u := ⟨a.1.symm, a.2.symm⟩

theorem St.hot_first {s : Store α} {Ex : ℕ → ℕ → Prop} (S : St ε Pt Y s L F p Ex) {u v : ℕ}
    (hu : u < s.heap.count) (hv : v < s.heap.count) (hne : u ≠ v) (h : Hot ε s.heap u v) :
    s.heap.first u ≠ s.heap.first v := by
  intro hf
  have I := S.inv'
  have p1 := I.proper u hu
  have p2 := I.proper v hv
  have := h.2
  rcases I.noOv u hu v hv hne h.1 hf with h' | h' <;> linarith

theorem Evolves.hot {O : Ops α} {s s' : Store α} {M L' F' : List ℕ} {p' : ℚ} {Ex Ex' : ℕ → ℕ → Prop}
    (ev : Evolves O ε Pt M s s') (S : St ε Pt Y s L F p Ex) (S' : St ε Pt Y s' L' F' p' Ex') {u v : ℕ}
    (hu : u < s.heap.count) (hv : v < s.heap.count) : Hot ε s'.heap u v ↔ Hot ε s.heap u v := by
  obtain ⟨⟨a1, a2⟩, -, a3, -⟩ := ev.abs S S' hu
  obtain ⟨⟨b1, b2⟩, -, b3, -⟩ := ev.abs S S' hv
  unfold Hot Col
  rw [a1, a2, a3, b1, b2, b3]

end Sweep

open Sweep

variable {α κ : Type} {O : Ops α} {f : Flags O κ} {ε : ℚ} {Pt : List Point} {Y : ℚ → ℚ} {L F : List ℕ} {p : ℚ}

/-- Fields after a left event. -/
structure LeftData (f : Flags O κ) (ε : ℚ) (s s' : Store α) (t : ℕ) (l₁ l₂ : List ℕ) : Prop where
  count : s.heap.count ≤ s'.heap.count
  itl : ∀ i < s.heap.count, f.I s'.heap i = f.I s.heap i
  rest : ∀ i < s.heap.count, i ≠ t → (∀ a, l₂.head? = some a → Hot ε s.heap t a → i ≠ a) →
    (∀ b, l₁.getLast? = some b → Hot ε s.heap b t → i ≠ b) →
    f.X s'.heap i = f.X s.heap i ∧ f.R s'.heap i = f.R s.heap i
  mark : ∀ i < s.heap.count, i ≠ t → i ∉ l₁ ++ l₂ → f.K s'.heap i = f.K s.heap i
  fresh : ∀ i < s'.heap.count, s.heap.count ≤ i → f.X s'.heap i = false ∧ f.K s'.heap i = f.none
  self : f.X s'.heap t = f.form s.heap t l₁.getLast?
  above : ∀ a, l₂.head? = some a → Hot ε s.heap t a → f.X s'.heap a = f.I s.heap t ∧
    f.R s'.heap t = f.rule (s.heap.first t) (f.X s'.heap t) (f.kind (f.I s.heap t) (f.I s.heap a)) ∧
    f.R s'.heap a = f.rule (s.heap.first a) (f.X s'.heap a) (f.kind (f.I s.heap t) (f.I s.heap a))
  below : ∀ b, l₁.getLast? = some b → Hot ε s.heap b t →
    f.X s'.heap b = f.form s.heap b l₁.dropLast.getLast? ∧
    f.R s'.heap t = f.rule (s.heap.first t) (f.X s'.heap t) (f.kind (f.I s.heap b) (f.I s.heap t)) ∧
    f.R s'.heap b = f.rule (s.heap.first b) (f.X s'.heap b) (f.kind (f.I s.heap b) (f.I s.heap t))
  alone : (∀ a, l₂.head? = some a → ¬ Hot ε s.heap t a) → (∀ b, l₁.getLast? = some b → ¬ Hot ε s.heap b t) →
    f.R s'.heap t = f.rule (s.heap.first t) (f.X s'.heap t) (f.K s.heap t)

/-- The steps of `process_event` for a left event change the fields accordingly. -/
theorem left_data {s s₂ s₃ : Store α} {Ex : ℕ → ℕ → Prop} {l₁ l₂ : List ℕ} {t : ℕ}
    (S : St ε Pt Y s (l₁ ++ t :: l₂) F p Ex)
    (h2 : checkAbove O (computeFields O s t l₁.getLast?) t l₂.head? l₁.getLast? = .ok s₂)
    (h3 : checkBelow O (l₁ ++ t :: l₂) s₂ t l₁.getLast? = .ok s₃) :
    LeftData f ε s s₃ t l₁ l₂ := by
  have I := S.inv'
  have nd := I.nodupL
  have htL : t ∈ l₁ ++ t :: l₂ := by simp
  have htn := I.ltn htL
  have ltn : ∀ i ∈ l₁ ++ l₂, i < s.heap.count ∧ i ≠ t ∧ i ∈ l₁ ++ t :: l₂ := by
    intro i hi
    have hi' : i ∈ l₁ ++ t :: l₂ := by
      rcases List.mem_append.1 hi with h | h <;> simp [h]
    refine ⟨I.ltn hi', ?_, hi'⟩
    rintro rfl
    have := (List.nodup_middle.1 nd)
    exact (List.nodup_cons.1 this).1 hi
  have aL : ∀ a, l₂.head? = some a → a ∈ l₁ ++ l₂ := fun a ha => by
    have : a ∈ l₂ := List.mem_of_mem_head? ha
    simp [this]
  have bL : ∀ b, l₁.getLast? = some b → b ∈ l₁ ++ l₂ := fun b hb => by
    have : b ∈ l₁ := List.mem_of_getLast? hb
    simp [this]
  obtain ⟨u1, x1, r1⟩ := f.compute_upd s t l₁.getLast?
  obtain ⟨g1, q1⟩ := computeFields_geo O s t l₁.getLast?
  have S1 := g1.st q1 S
  set s₁ := computeFields O s t l₁.getLast? with hs1
  have c1 : s₁.heap.count = s.heap.count := g1.count
  obtain ⟨s₂', e2, S2, ev2⟩ := checkAbove_spec O S1 htL (above := l₂.head?) (below := l₁.getLast?)
    (fun a ha => ⟨(ltn a (aL a ha)).2.2, (ltn a (aL a ha)).2.1.symm⟩)
  rw [h2] at e2
  cases e2
  obtain ⟨s₃', e3, S3, ev3⟩ := checkBelow_spec O S2 htL (below := l₁.getLast?)
    (fun b hb => ⟨(ltn b (bL b hb)).2.2, (ltn b (bL b hb)).2.1⟩) (l₁ ++ t :: l₂)
  rw [h3] at e3
  cases e3
  have hot1 : ∀ u v, Hot ε s₁.heap u v ↔ Hot ε s.heap u v := by
    intro u v
    unfold Hot
    rw [g1.absSeg, g1.absSeg]
  have hot2 : ∀ u < s.heap.count, ∀ v < s.heap.count, (Hot ε s₂.heap u v ↔ Hot ε s.heap u v) := by
    intro u hu v hv
    rw [ev2.hot S1 S2 (by rw [c1]; exact hu) (by rw [c1]; exact hv), hot1]
  have ff : ∀ i, s₁.heap.first i = s.heap.first i := g1.first
  have ff2 : ∀ i < s.heap.count, s₂.heap.first i = s.heap.first i := fun i hi => by
    rw [ev2.first i (by rw [c1]; exact hi), ff]
  -- the formula for t does not depend on the fields of t unless there is nothing below
  have formt : f.form s₁.heap t l₁.getLast? = f.form s.heap t l₁.getLast? := by
    cases hb : l₁.getLast? with
    | none =>
      rw [hb] at x1
      show f.X s₁.heap t = f.form s.heap t none
      rw [x1]
    | some b =>
      obtain ⟨b1, b2, -⟩ := ltn b (bL b hb)
      rw [f.form_some, f.form_some, ff, ff, u1.oth b b1 (by simpa using b2), u1.itl b b1]
  -- not both neighbours
  have excl : ∀ a b, l₂.head? = some a → l₁.getLast? = some b → Hot ε s.heap t a → Hot ε s.heap b t → False := by
    intro a b ha hb h1 h2
    obtain ⟨a1, a2, -⟩ := ltn a (aL a ha)
    obtain ⟨b1, b2, -⟩ := ltn b (bL b hb)
    have n1 := S.hot_first htn a1 a2.symm h1
    have n2 := S.hot_first b1 htn b2 h2
    have hab : b ≠ a := by
      have ha' : a ∈ l₂ := List.mem_of_mem_head? ha
      have hb' : b ∈ l₁ := List.mem_of_getLast? hb
      exact (List.nodup_append.1 nd).2.2 b hb' a (by simp [ha'])
    have n3 := S.hot_first b1 a1 hab ⟨h2.1.trans h1.1, h2.2.trans h1.2⟩
    revert n1 n2 n3
    cases s.heap.first t <;> cases s.heap.first a <;> cases s.heap.first b <;> simp
  -- above
  have A2 : (∀ a, l₂.head? = some a → ¬ Hot ε s.heap t a) → f.Upd s₁ s₂ [] (t :: l₂.head?.toList) := by
    intro hn
    cases ha : l₂.head? with
    | none =>
      rw [ha] at h2
      have : s₁ = s₂ := by
        unfold checkAbove at h2
        exact Except.ok.inj h2
      rw [this]
      exact (Flags.Upd.refl _).mono (by simp) (by simp)
    | some a =>
      obtain ⟨a1, a2, a3⟩ := ltn a (aL a ha)
      rw [ha] at h2
      have := (f.checkAbove_upd S1 htL a3 a2.symm (fun j hj => ⟨(ltn j (bL j hj)).2.2, (ltn j (bL j hj)).2.1⟩) h2).1 (by
        rw [S1.start_iff (by rw [c1]; exact htn) (by rw [c1]; exact a1)]
        exact fun h => hn a ha ((hot1 t a).1 h))
      exact this
  have A3 : ∀ a, l₂.head? = some a → Hot ε s.heap t a → f.Upd s₁ s₂ [t, a] [t, a] ∧
      f.X s₂.heap t = f.form s.heap t l₁.getLast? ∧ f.X s₂.heap a = f.I s.heap t ∧
      f.R s₂.heap t = f.rule (s.heap.first t) (f.X s₂.heap t) (f.kind (f.I s.heap t) (f.I s.heap a)) ∧
      f.R s₂.heap a = f.rule (s.heap.first a) (f.X s₂.heap a) (f.kind (f.I s.heap t) (f.I s.heap a)) := by
    intro a ha hh
    obtain ⟨a1, a2, a3⟩ := ltn a (aL a ha)
    rw [ha] at h2
    obtain ⟨d1, d2, d3, d4, d5⟩ := (f.checkAbove_upd S1 htL a3 a2.symm
      (fun j hj => ⟨(ltn j (bL j hj)).2.2, (ltn j (bL j hj)).2.1⟩) h2).2 (by
        rw [S1.start_iff (by rw [c1]; exact htn) (by rw [c1]; exact a1)]
        exact (hot1 t a).2 hh)
    rw [ff, ff, if_neg (S.hot_first htn a1 a2.symm hh), u1.itl t htn] at d3
    rw [ff, u1.itl t htn, u1.itl a a1] at d4 d5
    exact ⟨d1, d2.trans formt, d3, d4, d5⟩
  have U2 : f.Upd s₁ s₂ (t :: l₂.head?.toList) (t :: l₂.head?.toList) := by
    by_cases hn : ∀ a, l₂.head? = some a → ¬ Hot ε s.heap t a
    · exact (A2 hn).mono (by simp) (fun _ h => h)
    · push Not at hn
      obtain ⟨a, ha, hh⟩ := hn
      exact (A3 a ha hh).1.mono (by simp [ha]) (by simp [ha])
  have X2 : f.X s₂.heap t = f.form s.heap t l₁.getLast? := by
    by_cases hn : ∀ a, l₂.head? = some a → ¬ Hot ε s.heap t a
    · rw [(A2 hn).oth t (by rw [c1]; exact htn) (by simp), x1]
    · push Not at hn
      obtain ⟨a, ha, hh⟩ := hn
      exact (A3 a ha hh).2.1
  have hdl : ∀ b, l₁.getLast? = some b → l₁ ++ t :: l₂ = l₁.dropLast ++ b :: (t :: l₂) := by
    intro b hb
    obtain ⟨l', rfl⟩ := List.getLast?_eq_some_iff.1 hb
    simp
  -- below
  have B2 : (∀ b, l₁.getLast? = some b → ¬ Hot ε s.heap b t) → f.Upd s₂ s₃ [] (t :: l₁.getLast?.toList) := by
    intro hn
    cases hb : l₁.getLast? with
    | none =>
      rw [hb] at h3
      have : s₂ = s₃ := by
        unfold checkBelow at h3
        exact Except.ok.inj h3
      rw [this]
      exact (Flags.Upd.refl _).mono (by simp) (by simp)
    | some b =>
      obtain ⟨b1, b2, b3⟩ := ltn b (bL b hb)
      rw [hb, hdl b hb] at h3
      have S2' := S2
      rw [hdl b hb] at S2'
      have := (f.checkBelow_upd S2' (by rw [← hdl b hb]; exact htL) b2 h3).1 (by
        rw [S2.start_iff (lt_of_lt_of_le (by rw [c1]; exact b1) ev2.count) (lt_of_lt_of_le (by rw [c1]; exact htn) ev2.count)]
        exact fun h => hn b hb ((hot2 b b1 t htn).1 h))
      exact this.mono (by simp) (by simp)
  have B3 : ∀ b, l₁.getLast? = some b → Hot ε s.heap b t → f.Upd s₂ s₃ [t, b] [t, b] ∧
      f.X s₃.heap b = f.form s.heap b l₁.dropLast.getLast? ∧ f.X s₃.heap t = f.form s.heap t l₁.getLast? ∧
      f.R s₃.heap t = f.rule (s.heap.first t) (f.X s₃.heap t) (f.kind (f.I s.heap b) (f.I s.heap t)) ∧
      f.R s₃.heap b = f.rule (s.heap.first b) (f.X s₃.heap b) (f.kind (f.I s.heap b) (f.I s.heap t)) := by
    intro b hb hh
    obtain ⟨b1, b2, b3⟩ := ltn b (bL b hb)
    have k2 : ∀ i < s.heap.count, i < s₂.heap.count := fun i hi => lt_of_lt_of_le (by rw [c1]; exact hi) ev2.count
    have i2 : ∀ i < s.heap.count, f.I s₂.heap i = f.I s.heap i := fun i hi => by
      rw [U2.itl i (by rw [c1]; exact hi), u1.itl i hi]
    have nh : ∀ a, l₂.head? = some a → ¬ Hot ε s.heap t a := fun a ha h => excl a b ha hb h hh
    have o2 : ∀ i < s.heap.count, i ≠ t → f.X s₂.heap i = f.X s.heap i := fun i hi hne => by
      rw [(A2 nh).oth i (by rw [c1]; exact hi) (by simp), u1.oth i hi (by simpa using hne)]
    rw [hb, hdl b hb] at h3
    have S2' := S2
    rw [hdl b hb] at S2'
    obtain ⟨d1, d2, d3, d4, d5⟩ := (f.checkBelow_upd S2' (by rw [← hdl b hb]; exact htL) b2 h3).2 (by
        rw [S2.start_iff (k2 b b1) (k2 t htn)]
        exact (hot2 b b1 t htn).2 hh)
    have jm : ∀ j, l₁.dropLast.getLast? = some j → j < s.heap.count ∧ j ≠ t := by
      intro j hj
      have h1 : j ∈ l₁ := (List.dropLast_sublist l₁).subset (List.mem_of_getLast? hj)
      obtain ⟨j1, j2, -⟩ := ltn j (by simp [h1])
      exact ⟨j1, j2⟩
    have fm : f.form s₂.heap b l₁.dropLast.getLast? = f.form s.heap b l₁.dropLast.getLast? :=
      f.form_congr (fun j hj => ff2 j (jm j hj).1) (ff2 b b1) (fun j hj => i2 j (jm j hj).1)
        (fun j hj => o2 j (jm j hj).1 (jm j hj).2) (fun _ => o2 b b1 b2)
    have nf := S.hot_first b1 htn b2 hh
    rw [ff2 b b1, ff2 t htn, if_neg nf, i2 b b1] at d3
    rw [ff2 b b1, i2 b b1, i2 t htn] at d4
    rw [ff2 t htn, i2 b b1, i2 t htn] at d5
    refine ⟨d1.mono (by simp) (by simp), d2.trans fm, ?_, d5, d4⟩
    rw [d3, hb, f.form_some, if_neg nf]
  have U3 : f.Upd s₂ s₃ (t :: l₁.getLast?.toList) (t :: l₁.getLast?.toList) := by
    by_cases hn : ∀ b, l₁.getLast? = some b → ¬ Hot ε s.heap b t
    · exact (B2 hn).mono (by simp) (fun _ h => h)
    · push Not at hn
      obtain ⟨b, hb, hh⟩ := hn
      exact (B3 b hb hh).1.mono (by simp [hb]) (by simp [hb])
  have k1 : ∀ i < s.heap.count, i < s₁.heap.count := fun i hi => by rw [c1]; exact hi
  have k2 : ∀ i < s.heap.count, i < s₂.heap.count := fun i hi => lt_of_lt_of_le (k1 i hi) ev2.count
  have tm2 : ∀ i ∈ t :: l₂.head?.toList, i < s.heap.count := by
    intro i hi
    simp only [List.mem_cons, Option.mem_toList] at hi
    rcases hi with rfl | hi
    · exact htn
    · exact (ltn i (aL i hi)).1
  have tm3 : ∀ i ∈ t :: l₁.getLast?.toList, i < s.heap.count := by
    intro i hi
    simp only [List.mem_cons, Option.mem_toList] at hi
    rcases hi with rfl | hi
    · exact htn
    · exact (ltn i (bL i hi)).1
  have U := (u1.trans U2 tm2 tm2).trans U3 tm3 tm3
  have X3 : f.X s₃.heap t = f.form s.heap t l₁.getLast? := by
    by_cases hn : ∀ b, l₁.getLast? = some b → ¬ Hot ε s.heap b t
    · rw [(B2 hn).oth t (k2 t htn) (by simp), X2]
    · push Not at hn
      obtain ⟨b, hb, hh⟩ := hn
      exact (B3 b hb hh).2.2.1
  refine ⟨U.count, U.itl, ?_, ?_, U.fresh, X3, ?_, ?_, ?_⟩
  · intro i hi hit ha hb
    have e1 : f.X s₂.heap i = f.X s.heap i ∧ f.R s₂.heap i = f.R s.heap i := by
      have w : i ∉ [t] := by simpa using hit
      rw [← u1.oth i hi w, ← u1.res i hi w]
      by_cases hn : ∀ a, l₂.head? = some a → ¬ Hot ε s.heap t a
      · exact ⟨(A2 hn).oth i (k1 i hi) (by simp), (A2 hn).res i (k1 i hi) (by simp)⟩
      · push Not at hn
        obtain ⟨a, ha', hh⟩ := hn
        have := ha a ha' hh
        exact ⟨(A3 a ha' hh).1.oth i (k1 i hi) (by simp [hit, this]), (A3 a ha' hh).1.res i (k1 i hi) (by simp [hit, this])⟩
    rw [← e1.1, ← e1.2]
    by_cases hn : ∀ b, l₁.getLast? = some b → ¬ Hot ε s.heap b t
    · exact ⟨(B2 hn).oth i (k2 i hi) (by simp), (B2 hn).res i (k2 i hi) (by simp)⟩
    · push Not at hn
      obtain ⟨b, hb', hh⟩ := hn
      have := hb b hb' hh
      exact ⟨(B3 b hb' hh).1.oth i (k2 i hi) (by simp [hit, this]), (B3 b hb' hh).1.res i (k2 i hi) (by simp [hit, this])⟩
  · intro i hi hit hm
    refine U.mark i hi ?_
    simp only [List.nil_append, List.mem_append, List.mem_cons, Option.mem_toList]
    rintro ((h | h) | (h | h))
    · exact hit h
    · exact hm (aL i h)
    · exact hit h
    · exact hm (bL i h)
  · intro a ha hh
    obtain ⟨a1, a2, a3⟩ := ltn a (aL a ha)
    obtain ⟨-, -, d3, d4, d5⟩ := A3 a ha hh
    have nb : ∀ b, l₁.getLast? = some b → ¬ Hot ε s.heap b t := fun b hb h => excl a b ha hb hh h
    rw [(B2 nb).oth a (k2 a a1) (by simp), (B2 nb).res a (k2 a a1) (by simp), (B2 nb).res t (k2 t htn) (by simp),
      (B2 nb).oth t (k2 t htn) (by simp)]
    exact ⟨d3, d4, d5⟩
  · intro b hb hh
    obtain ⟨-, d2, d3, d4, d5⟩ := B3 b hb hh
    exact ⟨d2, d4, d5⟩
  · intro na nb
    rw [(B2 nb).res t (k2 t htn) (by simp), (A2 na).res t (k1 t htn) (by simp), r1, X3]

end Clipping

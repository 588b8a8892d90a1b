import Verif.Lemmas.Below.Data

/-!
# Events below after a left event
-/

namespace Clipping

open Sweep

variable {rule : ShapedRule} {ε : ℚ} {Pt : List Point} {Y : ℚ → ℚ} {L F : List ℕ} {p : ℚ}

theorem bwBelow_congr {h h' : Heap ShapedData} {i : ℕ} {b : Option ℕ} (hi : b = none → Bw h' i = Bw h i)
    (h1 : ∀ j, b = some j → h'.first j = h.first j)
    (h2 : ∀ j, b = some j → h'.isVertical j = h.isVertical j)
    (h3 : ∀ j, b = some j → (h'.lefts j).data = (h.lefts j).data) : bwBelow rule h' i b = bwBelow rule h i b := by
  cases b with
  | none => exact hi rfl
  | some b => exact bwFrom_congr (h1 b rfl) (h2 b rfl) (h3 b rfl)

theorem Decided.congr {h h' : Heap ShapedData} {i : ℕ} (D : Decided rule h i) (h1 : h'.first i = h.first i)
    (h2 : (h'.lefts i).data = (h.lefts i).data) : Decided rule h' i := by
  unfold Decided
  rw [h1, h2]
  exact D

/-- Two events are computed, the second one from the first one. -/
theorem compute_two (hr : RuleOk rule) (s : Store ShapedData) {u v : ℕ} (huv : u ≠ v) {b : Option ℕ} :
    let s' := computeFields (holeyOps rule) (computeFields (holeyOps rule) s u b) v (some u)
    (∀ i, i ≠ u → i ≠ v → (s'.heap.lefts i).data = (s.heap.lefts i).data) ∧
    SameGeo s.heap s'.heap ∧
    Bw s'.heap u = bwBelow rule s.heap u b ∧ Bw s'.heap v = bwFrom rule s'.heap u ∧
    Decided rule s'.heap u ∧ Decided rule s'.heap v := by
  obtain ⟨a1, a2, a3⟩ := compute_bw hr s u b
  obtain ⟨g1, -⟩ := computeFields_geo (holeyOps rule) s u b
  set s₁ := computeFields (holeyOps rule) s u b with hs1
  obtain ⟨b1, b2, b3⟩ := compute_bw hr s₁ v (some u)
  obtain ⟨g2, -⟩ := computeFields_geo (holeyOps rule) s₁ v (some u)
  intro s'
  refine ⟨fun i h1 h2 => (b2 i h2).trans (a2 i h1), g1.trans g2, ?_, ?_, ?_, b3⟩
  · unfold Bw
    rw [b2 u huv]
    exact a1
  · rw [b1]
    exact (bwFrom_congr (g2.first u) (SameGeo.isVertical g2 u) (b2 u huv)).symm
  · exact a3.congr (g2.first u) (b2 u huv)

/-- What the check with the event above does. -/
theorem checkAbove_bw (hr : RuleOk rule) {s s' : Store ShapedData} {Ex : ℕ → ℕ → Prop} (S : St ε Pt Y s L F p Ex) {t a : ℕ}
    (ht : t ∈ L) (ha : a ∈ L) (hta : t ≠ a) {below : Option ℕ}
    (hb : ∀ j, below = some j → j ∈ L ∧ j ≠ t ∧ j ≠ a)
    (h : checkAbove (holeyOps rule) s t (some a) below = .ok s') :
    (∀ i < s'.heap.count, s.heap.count ≤ i → Bw s'.heap i = none) ∧
    (¬ (Col (absSeg ε s.heap t) (absSeg ε s.heap a) ∧ s.heap.start t = s.heap.start a) →
      ∀ i < s.heap.count, (s'.heap.lefts i).data = (s.heap.lefts i).data) ∧
    (Col (absSeg ε s.heap t) (absSeg ε s.heap a) ∧ s.heap.start t = s.heap.start a →
      (∀ i < s.heap.count, i ≠ t → i ≠ a → (s'.heap.lefts i).data = (s.heap.lefts i).data) ∧
      Bw s'.heap t = bwBelow rule s.heap t below ∧ Bw s'.heap a = bwFrom rule s'.heap t ∧
      Decided rule s'.heap t ∧ Decided rule s'.heap a) := by
  have J := S.inv'
  have htn := J.ltn ht
  have han := J.ltn ha
  obtain ⟨s₁, b, e, S', ev, hbt⟩ := S.detect (O := holeyOps rule) ht ha hta
  have kb := holey_detect (rule := rule) S.ok htn han hta e
  have hnew : ∀ i < s₁.heap.count, s.heap.count ≤ i → Bw s₁.heap i = none := by
    intro i hi hge
    obtain ⟨d, hd⟩ := kb.new i hi hge
    unfold Bw; rw [hd]; rfl
  unfold checkAbove at h
  dsimp only at h
  rw [e] at h
  cases b with
  | false =>
    cases h
    refine ⟨hnew, fun _ => ?_, fun hh => absurd (hbt.2 hh) (by simp)⟩
    exact (holey_detect_false S.ok htn han hta e).old
  | true =>
    dsimp only at h
    cases h
    obtain ⟨c1, c2, c3, c4, c5, c6⟩ := compute_two hr s₁ hta (b := below)
    refine ⟨?_, fun hh => absurd (hbt.1 rfl) hh, fun _ => ⟨?_, ?_, c4, c5, c6⟩⟩
    · intro i hi hge
      unfold Bw
      rw [c1 i (by omega) (by omega)]
      exact hnew i (by rw [c2.count] at hi; exact hi) hge
    · intro i hi h1 h2
      rw [c1 i h1 h2]
      exact detect_other S.ok htn han hta e hi h1 h2
    · rw [c3]
      refine bwBelow_congr (fun _ => kb.old t htn) ?_ ?_ ?_
      · intro j hj; exact ev.first j (J.ltn (hb j hj).1)
      · intro j hj; exact ev.isVertical S' (J.ltn (hb j hj).1)
      · intro j hj; exact detect_other S.ok htn han hta e (J.ltn (hb j hj).1) (hb j hj).2.1 (hb j hj).2.2

/-- What the check with the event below does. -/
theorem checkBelow_bw (hr : RuleOk rule) {s s' : Store ShapedData} {Ex : ℕ → ℕ → Prop} {l₁ l₂ : List ℕ} {t b : ℕ}
    (S : St ε Pt Y s (l₁ ++ b :: l₂) F p Ex) (ht : t ∈ l₂)
    (h : checkBelow (holeyOps rule) (l₁ ++ b :: l₂) s t (some b) = .ok s') :
    (∀ i < s'.heap.count, s.heap.count ≤ i → Bw s'.heap i = none) ∧
    (¬ (Col (absSeg ε s.heap b) (absSeg ε s.heap t) ∧ s.heap.start b = s.heap.start t) →
      ∀ i < s.heap.count, (s'.heap.lefts i).data = (s.heap.lefts i).data) ∧
    (Col (absSeg ε s.heap b) (absSeg ε s.heap t) ∧ s.heap.start b = s.heap.start t →
      (∀ i < s.heap.count, i ≠ t → i ≠ b → (s'.heap.lefts i).data = (s.heap.lefts i).data) ∧
      Bw s'.heap b = bwBelow rule s.heap b l₁.getLast? ∧ Bw s'.heap t = bwFrom rule s'.heap b ∧
      Decided rule s'.heap t ∧ Decided rule s'.heap b) := by
  have J := S.inv'
  have hbL : b ∈ l₁ ++ b :: l₂ := by simp
  have htL : t ∈ l₁ ++ b :: l₂ := by simp [ht]
  have hbn := J.ltn hbL
  have htn := J.ltn htL
  have nd := J.nodupL
  have hbt : b ≠ t := by
    rintro rfl
    exact (List.nodup_cons.1 (List.nodup_append.1 nd).2.1).1 ht
  have jm : ∀ j, l₁.getLast? = some j → j ∈ l₁ ++ b :: l₂ ∧ j ≠ b ∧ j ≠ t := by
    intro j hj
    have h1 : j ∈ l₁ := List.mem_of_getLast? hj
    have := (List.nodup_append.1 nd).2.2 j h1
    exact ⟨by simp [h1], this b (by simp), this t (by simp [ht])⟩
  obtain ⟨s₁, c, e, S', ev, hct⟩ := S.detect (O := holeyOps rule) hbL htL hbt
  have kb := holey_detect (rule := rule) S.ok hbn htn hbt e
  have hnew : ∀ i < s₁.heap.count, s.heap.count ≤ i → Bw s₁.heap i = none := by
    intro i hi hge
    obtain ⟨d, hd⟩ := kb.new i hi hge
    unfold Bw; rw [hd]; rfl
  unfold checkBelow at h
  dsimp only at h
  rw [e] at h
  cases c with
  | false =>
    cases h
    refine ⟨hnew, fun _ => ?_, fun hh => absurd (hct.2 hh) (by simp)⟩
    exact (holey_detect_false S.ok hbn htn hbt e).old
  | true =>
    obtain ⟨A', r', J'⟩ := S'.inv
    dsimp only at h
    rw [lineBelow_append (line_eq_false r' J')] at h
    cases h
    obtain ⟨c1, c2, c3, c4, c5, c6⟩ := compute_two hr s₁ hbt (b := l₁.getLast?)
    refine ⟨?_, fun hh => absurd (hct.1 rfl) hh, fun _ => ⟨?_, ?_, c4, c6, c5⟩⟩
    · intro i hi hge
      unfold Bw
      rw [c1 i (by omega) (by omega)]
      exact hnew i (by rw [c2.count] at hi; exact hi) hge
    · intro i hi h1 h2
      rw [c1 i h2 h1]
      exact detect_other S.ok hbn htn hbt e hi h2 h1
    · rw [c3]
      refine bwBelow_congr (fun _ => kb.old b hbn) ?_ ?_ ?_
      · intro j hj; exact ev.first j (J.ltn (jm j hj).1)
      · intro j hj; exact ev.isVertical S' (J.ltn (jm j hj).1)
      · intro j hj; exact detect_other S.ok hbn htn hbt e (J.ltn (jm j hj).1) (jm j hj).2.1 (jm j hj).2.2

/-- Events below after a left event. -/
structure LeftBelow (rule : ShapedRule) (ε : ℚ) (s s' : Store ShapedData) (t : ℕ) (l₁ l₂ : List ℕ) : Prop where
  new : ∀ i < s'.heap.count, s.heap.count ≤ i → Bw s'.heap i = none
  old : ∀ i < s.heap.count, i ≠ t → (∀ a, l₂.head? = some a → Hot ε s.heap t a → i ≠ a) →
    (∀ b, l₁.getLast? = some b → Hot ε s.heap b t → i ≠ b) → (s'.heap.lefts i).data = (s.heap.lefts i).data
  self : Bw s'.heap t = match l₁.getLast? with | none => Bw s.heap t | some b => bwFrom rule s'.heap b
  decided : Decided rule s'.heap t
  above : ∀ a, l₂.head? = some a → Hot ε s.heap t a → Bw s'.heap a = bwFrom rule s'.heap t ∧ Decided rule s'.heap a
  below : ∀ b, l₁.getLast? = some b → Hot ε s.heap b t → Decided rule s'.heap b ∧
    Bw s'.heap b = match l₁.dropLast.getLast? with | none => Bw s.heap b | some c => bwFrom rule s'.heap c

theorem left_below (hr : RuleOk rule) {s s₂ s₃ : Store ShapedData} {Ex : ℕ → ℕ → Prop} {l₁ l₂ : List ℕ} {t : ℕ}
    (S : St ε Pt Y s (l₁ ++ t :: l₂) F p Ex)
    (h2 : checkAbove (holeyOps rule) (computeFields (holeyOps rule) s t l₁.getLast?) t l₂.head? l₁.getLast? = .ok s₂)
    (h3 : checkBelow (holeyOps rule) (l₁ ++ t :: l₂) s₂ t l₁.getLast? = .ok s₃) :
    LeftBelow rule ε s s₃ t l₁ l₂ := by
  have I := S.inv'
  have nd := I.nodupL
  have htL : t ∈ l₁ ++ t :: l₂ := by simp
  have htn := I.ltn htL
  have ltn : ∀ i ∈ l₁ ++ l₂, i < s.heap.count ∧ i ≠ t ∧ i ∈ l₁ ++ t :: l₂ := by
    intro i hi
    have hi' : i ∈ l₁ ++ t :: l₂ := by
      rcases List.mem_append.1 hi with h | h <;> simp [h]
    refine ⟨I.ltn hi', ?_, hi'⟩
    rintro rfl
    have := (List.nodup_middle.1 nd)
    exact (List.nodup_cons.1 this).1 hi
  have aL : ∀ a, l₂.head? = some a → a ∈ l₁ ++ l₂ := fun a ha => by
    have : a ∈ l₂ := List.mem_of_mem_head? ha
    simp [this]
  have bL : ∀ b, l₁.getLast? = some b → b ∈ l₁ ++ l₂ := fun b hb => by
    have : b ∈ l₁ := List.mem_of_getLast? hb
    simp [this]
  have hab : ∀ a b, l₂.head? = some a → l₁.getLast? = some b → b ≠ a := by
    intro a b ha hb
    have ha' : a ∈ l₂ := List.mem_of_mem_head? ha
    have hb' : b ∈ l₁ := List.mem_of_getLast? hb
    exact (List.nodup_append.1 nd).2.2 b hb' a (by simp [ha'])
  obtain ⟨w1, w2, w3⟩ := compute_bw hr s t l₁.getLast?
  obtain ⟨g1, q1⟩ := computeFields_geo (holeyOps rule) s t l₁.getLast?
  have S1 := g1.st q1 S
  set s₁ := computeFields (holeyOps rule) s t l₁.getLast? with hs1
  have c1 : s₁.heap.count = s.heap.count := g1.count
  obtain ⟨s₂', e2, S2, ev2⟩ := checkAbove_spec (holeyOps rule) S1 htL (above := l₂.head?) (below := l₁.getLast?)
    (fun a ha => ⟨(ltn a (aL a ha)).2.2, (ltn a (aL a ha)).2.1.symm⟩)
  rw [h2] at e2
  cases e2
  obtain ⟨s₃', e3, S3, ev3⟩ := checkBelow_spec (holeyOps rule) S2 htL (below := l₁.getLast?)
    (fun b hb => ⟨(ltn b (bL b hb)).2.2, (ltn b (bL b hb)).2.1⟩) (l₁ ++ t :: l₂)
  rw [h3] at e3
  cases e3
  have hot1 : ∀ u v, Hot ε s₁.heap u v ↔ Hot ε s.heap u v := by
    intro u v
    unfold Hot
    rw [g1.absSeg, g1.absSeg]
  have hot2 : ∀ u < s.heap.count, ∀ v < s.heap.count, (Hot ε s₂.heap u v ↔ Hot ε s.heap u v) := by
    intro u hu v hv
    rw [ev2.hot S1 S2 (by rw [c1]; exact hu) (by rw [c1]; exact hv), hot1]
  have k1 : ∀ i < s.heap.count, i < s₁.heap.count := fun i hi => by rw [c1]; exact hi
  have k2 : ∀ i < s.heap.count, i < s₂.heap.count := fun i hi => lt_of_lt_of_le (k1 i hi) ev2.count
  have ff1 : ∀ i, s₁.heap.first i = s.heap.first i := g1.first
  have ff2 : ∀ i < s.heap.count, s₂.heap.first i = s.heap.first i := fun i hi => by rw [ev2.first i (k1 i hi), ff1]
  have ff3 : ∀ i < s.heap.count, s₃.heap.first i = s.heap.first i := fun i hi => by rw [ev3.first i (k2 i hi), ff2 i hi]
  have v1 : ∀ i, s₁.heap.isVertical i = s.heap.isVertical i := fun i => SameGeo.isVertical g1 i
  have v2 : ∀ i < s.heap.count, s₂.heap.isVertical i = s.heap.isVertical i := fun i hi => by
    rw [ev2.isVertical S2 (k1 i hi), v1]
  have v3 : ∀ i < s.heap.count, s₃.heap.isVertical i = s.heap.isVertical i := fun i hi => by
    rw [ev3.isVertical S3 (k2 i hi), v2 i hi]
  -- not both neighbours
  have excl : ∀ a b, l₂.head? = some a → l₁.getLast? = some b → Hot ε s.heap t a → Hot ε s.heap b t → False := by
    intro a b ha hb h1 h2
    obtain ⟨a1, a2, -⟩ := ltn a (aL a ha)
    obtain ⟨b1, b2, -⟩ := ltn b (bL b hb)
    have n1 := S.hot_first htn a1 a2.symm h1
    have n2 := S.hot_first b1 htn b2 h2
    have n3 := S.hot_first b1 a1 (hab a b ha hb) ⟨h2.1.trans h1.1, h2.2.trans h1.2⟩
    revert n1 n2 n3
    cases s.heap.first t <;> cases s.heap.first a <;> cases s.heap.first b <;> simp
  have hdl : ∀ b, l₁.getLast? = some b → l₁ ++ t :: l₂ = l₁.dropLast ++ b :: (t :: l₂) := by
    intro b hb
    obtain ⟨l', rfl⟩ := List.getLast?_eq_some_iff.1 hb
    simp
  -- above
  have A0 : (∀ i < s₂.heap.count, s₁.heap.count ≤ i → Bw s₂.heap i = none) ∧
      ((∀ a, l₂.head? = some a → ¬ Hot ε s.heap t a) → ∀ i < s₁.heap.count, (s₂.heap.lefts i).data = (s₁.heap.lefts i).data) ∧
      ∀ a, l₂.head? = some a → Hot ε s.heap t a →
        (∀ i < s₁.heap.count, i ≠ t → i ≠ a → (s₂.heap.lefts i).data = (s₁.heap.lefts i).data) ∧
        Bw s₂.heap t = bwBelow rule s₁.heap t l₁.getLast? ∧ Bw s₂.heap a = bwFrom rule s₂.heap t ∧
        Decided rule s₂.heap t ∧ Decided rule s₂.heap a := by
    cases ha : l₂.head? with
    | none =>
      rw [ha] at h2
      have : s₁ = s₂ := by
        unfold checkAbove at h2
        exact Except.ok.inj h2
      rw [← this]
      refine ⟨fun i hi hge => absurd hi (not_lt.2 hge), fun _ _ _ => rfl, ?_⟩
      rintro a ⟨⟩
    | some a =>
      obtain ⟨a1, a2, a3⟩ := ltn a (aL a ha)
      rw [ha] at h2
      obtain ⟨d0, d1, d2⟩ := checkAbove_bw hr S1 htL a3 a2.symm (fun j hj => ⟨(ltn j (bL j hj)).2.2,
        (ltn j (bL j hj)).2.1, hab a j ha hj⟩) h2
      rw [S1.start_iff (k1 t htn) (k1 a a1)] at d1 d2
      refine ⟨d0, fun hn => d1 fun h => hn a rfl ((hot1 t a).1 h), ?_⟩
      intro a' ha' hh
      cases ha'
      exact d2 ((hot1 t a).2 hh)
  -- below
  have B0 : (∀ i < s₃.heap.count, s₂.heap.count ≤ i → Bw s₃.heap i = none) ∧
      ((∀ b, l₁.getLast? = some b → ¬ Hot ε s.heap b t) → ∀ i < s₂.heap.count,
        (s₃.heap.lefts i).data = (s₂.heap.lefts i).data) ∧
      ∀ b, l₁.getLast? = some b → Hot ε s.heap b t →
        (∀ i < s₂.heap.count, i ≠ t → i ≠ b → (s₃.heap.lefts i).data = (s₂.heap.lefts i).data) ∧
        Bw s₃.heap b = bwBelow rule s₂.heap b l₁.dropLast.getLast? ∧ Bw s₃.heap t = bwFrom rule s₃.heap b ∧
        Decided rule s₃.heap t ∧ Decided rule s₃.heap b := by
    cases hb : l₁.getLast? with
    | none =>
      rw [hb] at h3
      have : s₂ = s₃ := by
        unfold checkBelow at h3
        exact Except.ok.inj h3
      rw [← this]
      refine ⟨fun i hi hge => absurd hi (not_lt.2 hge), fun _ _ _ => rfl, ?_⟩
      rintro a ⟨⟩
    | some b =>
      obtain ⟨b1, b2, b3⟩ := ltn b (bL b hb)
      rw [hb, hdl b hb] at h3
      have S2' := S2
      rw [hdl b hb] at S2'
      obtain ⟨d0, d1, d2⟩ := checkBelow_bw hr S2' (by simp) h3
      rw [S2.start_iff (k2 b b1) (k2 t htn)] at d1 d2
      refine ⟨d0, fun hn => d1 fun h => hn b rfl ((hot2 b b1 t htn).1 h), ?_⟩
      intro b' hb' hh
      cases hb'
      exact d2 ((hot2 b b1 t htn).2 hh)
  obtain ⟨A1, A2, A3⟩ := A0
  obtain ⟨B1, B2, B3⟩ := B0
  have o2 : ∀ i < s.heap.count, i ≠ t → (∀ a, l₂.head? = some a → Hot ε s.heap t a → i ≠ a) →
      (s₂.heap.lefts i).data = (s.heap.lefts i).data := by
    intro i hi hit ha
    rw [← w2 i hit]
    by_cases hn : ∀ a, l₂.head? = some a → ¬ Hot ε s.heap t a
    · exact A2 hn i (k1 i hi)
    · push Not at hn
      obtain ⟨a, h1, h2⟩ := hn
      exact (A3 a h1 h2).1 i (k1 i hi) hit (ha a h1 h2)
  have o3 : ∀ i < s.heap.count, i ≠ t → (∀ a, l₂.head? = some a → Hot ε s.heap t a → i ≠ a) →
      (∀ b, l₁.getLast? = some b → Hot ε s.heap b t → i ≠ b) → (s₃.heap.lefts i).data = (s.heap.lefts i).data := by
    intro i hi hit ha hb
    rw [← o2 i hi hit ha]
    by_cases hn : ∀ b, l₁.getLast? = some b → ¬ Hot ε s.heap b t
    · exact B2 hn i (k2 i hi)
    · push Not at hn
      obtain ⟨b, h1, h2⟩ := hn
      exact (B3 b h1 h2).1 i (k2 i hi) hit (hb b h1 h2)
  -- neighbours below have kept their fields
  have keepb : ∀ j ∈ l₁, (∀ b, l₁.getLast? = some b → Hot ε s.heap b t → j ≠ b) →
      (s₃.heap.lefts j).data = (s.heap.lefts j).data := by
    intro j hj hb
    obtain ⟨j1, j2, -⟩ := ltn j (by simp [hj])
    refine o3 j j1 j2 ?_ hb
    intro a ha _
    have ha' : a ∈ l₂ := List.mem_of_mem_head? ha
    exact (List.nodup_append.1 nd).2.2 j hj a (by simp [ha'])
  have fr : ∀ j ∈ l₁, (∀ b, l₁.getLast? = some b → Hot ε s.heap b t → j ≠ b) →
      bwFrom rule s.heap j = bwFrom rule s₃.heap j := by
    intro j hj hb
    have j1 := (ltn j (by simp [hj])).1
    exact (bwFrom_congr (ff3 j j1) (v3 j j1) (keepb j hj hb)).symm
  have bt1 : bwBelow rule s₁.heap t l₁.getLast? = bwBelow rule s.heap t l₁.getLast? := by
    refine bwBelow_congr (fun hn => ?_) (fun j _ => ff1 j) (fun j _ => v1 j) fun j hj => w2 j (ltn j (bL j hj)).2.1
    rw [w1, hn]
    rfl
  have self2 : Bw s₂.heap t = bwBelow rule s.heap t l₁.getLast? ∧ Decided rule s₂.heap t := by
    by_cases hn : ∀ a, l₂.head? = some a → ¬ Hot ε s.heap t a
    · have e := A2 hn t (k1 t htn)
      refine ⟨?_, w3.congr (by rw [ff2 t htn, ff1]) e⟩
      unfold Bw
      rw [e]; exact w1
    · push Not at hn
      obtain ⟨a, h1, h2⟩ := hn
      obtain ⟨-, d1, -, d2, -⟩ := A3 a h1 h2
      exact ⟨d1.trans bt1, d2⟩
  refine ⟨?_, o3, ?_, ?_, ?_, ?_⟩
  · intro i hi hge
    by_cases h : i < s₂.heap.count
    · have e : Bw s₃.heap i = Bw s₂.heap i := by
        by_cases hn : ∀ b, l₁.getLast? = some b → ¬ Hot ε s.heap b t
        · unfold Bw; rw [B2 hn i h]
        · push Not at hn
          obtain ⟨b, h1, h2⟩ := hn
          have hb1 := (ltn b (bL b h1)).1
          unfold Bw
          rw [(B3 b h1 h2).1 i h (by omega) (by omega)]
      rw [e]
      exact A1 i h (by rw [c1]; exact hge)
    · exact B1 i hi (not_lt.1 h)
  · by_cases hn : ∀ b, l₁.getLast? = some b → ¬ Hot ε s.heap b t
    · have e : Bw s₃.heap t = Bw s₂.heap t := by unfold Bw; rw [B2 hn t (k2 t htn)]
      rw [e, self2.1]
      cases hb : l₁.getLast? with
      | none => rfl
      | some b => exact fr b (List.mem_of_getLast? hb) fun b' hb' h' => absurd h' (hn b' hb')
    · push Not at hn
      obtain ⟨b, h1, h2⟩ := hn
      rw [(B3 b h1 h2).2.2.1, h1]
  · by_cases hn : ∀ b, l₁.getLast? = some b → ¬ Hot ε s.heap b t
    · exact self2.2.congr (by rw [ff3 t htn, ff2 t htn]) (B2 hn t (k2 t htn))
    · push Not at hn
      obtain ⟨b, h1, h2⟩ := hn
      exact (B3 b h1 h2).2.2.2.1
  · intro a ha hh
    have a1 := (ltn a (aL a ha)).1
    obtain ⟨-, -, d1, -, d2⟩ := A3 a ha hh
    have hn : ∀ b, l₁.getLast? = some b → ¬ Hot ε s.heap b t := fun b hb h => excl a b ha hb hh h
    have ea := B2 hn a (k2 a a1)
    have et := B2 hn t (k2 t htn)
    refine ⟨?_, d2.congr (by rw [ff3 a a1, ff2 a a1]) ea⟩
    have e : Bw s₃.heap a = Bw s₂.heap a := by unfold Bw; rw [ea]
    rw [e, d1]
    exact (bwFrom_congr (by rw [ff3 t htn, ff2 t htn]) (by rw [v3 t htn, v2 t htn]) et).symm
  · intro b hb hh
    obtain ⟨-, d1, -, -, d2⟩ := B3 b hb hh
    refine ⟨d2, ?_⟩
    obtain ⟨b1, b2, -⟩ := ltn b (bL b hb)
    have hna : ∀ a, l₂.head? = some a → ¬ Hot ε s.heap t a := fun a ha h => excl a b ha hb h hh
    have eb := o2 b b1 b2 fun a ha h => absurd h (hna a ha)
    rw [d1]
    cases hc : l₁.dropLast.getLast? with
    | none =>
      show Bw s₂.heap b = Bw s.heap b
      unfold Bw; rw [eb]
    | some c =>
      have hcl : c ∈ l₁.dropLast := List.mem_of_getLast? hc
      have hc1 : c ∈ l₁ := (List.dropLast_sublist l₁).subset hcl
      have hcb : c ≠ b := by
        have nd' := nd
        rw [hdl b hb] at nd'
        exact (List.nodup_append.1 nd').2.2 c hcl b (by simp)
      obtain ⟨n1, n2, -⟩ := ltn c (by simp [hc1])
      have ec : (s₂.heap.lefts c).data = (s.heap.lefts c).data := o2 c n1 n2 fun a ha h => absurd h (hna a ha)
      show bwFrom rule s₂.heap c = bwFrom rule s₃.heap c
      rw [← fr c hc1 (fun b' hb' _ => by rw [hb] at hb'; cases hb'; exact hcb)]
      exact bwFrom_congr (ff2 c n1) (v2 c n1) ec

end Clipping

import Verif.Lemmas.Below.Fresh
import Verif.Lemmas.Below.Passing

/-!
# Which events below are out of date

Events below are up to date, except for the ones of touched segments, which refer to what comes from the left to their
starts.
-/

namespace Clipping

open Sweep

variable {rule : ShapedRule} {ε : ℚ} {Pt : List Point} {Y : ℚ → ℚ} {L F L' F' M : List ℕ} {p p' : ℚ}
  {s s' : Store ShapedData} {Es : List Seg}

/-- The event below refers to the upper one of the segments which come from the left to the start. -/
def IsStale (ε : ℚ) (s : Store ShapedData) (L F : List ℕ) (i : ℕ) : Prop :=
  ∃ c ∈ L ++ F, (absSeg ε s.heap c).a < (absSeg ε s.heap i).a ∧ (absSeg ε s.heap i).a ≤ (absSeg ε s.heap c).b ∧
    (absSeg ε s.heap c).y (absSeg ε s.heap i).a = (absSeg ε s.heap i).y (absSeg ε s.heap i).a ∧
    (∀ k < s.heap.count, k ≠ c → Hot ε s.heap k c → (absSeg ε s.heap c).ff = false) ∧
    (∀ k < s.heap.count, k ∉ L → k ∉ F → ¬ Hot ε s.heap k c) ∧ Bw s.heap i = freshBw s.heap c

/-- What is known of the event below of an event. -/
def Sound (ε : ℚ) (Es : List Seg) (s : Store ShapedData) (L F : List ℕ) (i : ℕ) : Prop :=
  (Clear (absSeg ε s.heap) s.heap.count i ∧ (Lowest (absSeg ε s.heap) s.heap.count i → Bw s.heap i = none) ∧
    IsFresh ε s L F i ∧ ¬ Touched Es (absSeg ε s.heap i)) ∨
  ((∃ k < s.heap.count, k ∉ L ∧ k ∉ F ∧ Hot ε s.heap k i) ∧ ¬ Lowest (absSeg ε s.heap) s.heap.count i) ∨
  (Touched Es (absSeg ε s.heap i) ∧ IsStale ε s L F i)

/-- Events which are not computed again. -/
theorem IsFresh.keep {O : Ops ShapedData} (B : BelowInv rule ε s L F p)
    (S : St ε Pt Y s L F p NoEx) (S' : St ε Pt Y s' L' F' p' NoEx) (ev : Evolves O ε Pt M s s') (hp : p ≤ p')
    (new : ∀ k ∈ L' ++ F', k < s.heap.count) (sub : ∀ k ∈ L ++ F, k ∈ L' ++ F') {i : ℕ} (hi : i ∈ L ++ F)
    (cl : Clear (absSeg ε s.heap) s.heap.count i) (fr : IsFresh ε s L F i)
    (pend : ∀ k < s.heap.count, k ∉ L → k ∉ F → Hot ε s.heap k i → k ∉ L' ∧ k ∉ F')
    (hBw : Bw s'.heap i = Bw s.heap i)
    (upd : ∀ b ∈ L ++ F, (∀ k < s.heap.count, k ∉ L → k ∉ F → ¬ Hot ε s.heap k b) → freshBw s'.heap b = freshBw s.heap b) :
    IsFresh ε s' L' F' i := by
  have I := S.inv'
  have hin := I.bound i hi
  obtain ⟨d1, d2, d3, -⟩ := ev.abs S S' hin
  rcases fr with ⟨k, hk, k1, k2, k3, k4, k5, k6⟩ | h | ⟨b, hb, U, hno, hv, e⟩
  · left
    obtain ⟨q1, q2⟩ := pend k hk k1 k2 ⟨k5, k6⟩
    obtain ⟨c1, c2, c3, -⟩ := ev.abs S S' hk
    exact ⟨k, hk.trans_le ev.count, q1, q2, c2.trans k3, d2.trans k4, c1.trans (k5.trans d1.symm),
      c3.trans (k6.trans d3.symm)⟩
  · right; left
    exact (ev.lowest S S' hin).2 h
  · have hbn := I.bound b hb
    rcases ev.under S S' new hin hbn ((I.le_p hi).trans hp) cl U with U' | h
    · right; right
      refine ⟨b, sub b hb, U', ?_, ?_, ?_⟩
      · intro k hk k1 k2 hh
        by_cases hkn : k < s.heap.count
        · exact hno k hkn (fun h => by have := sub k (by simp [h]); simp [k1, k2] at this)
            (fun h => by have := sub k (by simp [h]); simp [k1, k2] at this) ((ev.hot S S' hkn hbn).1 hh)
        · exact B.no_new S S' ev hp hb hk (not_lt.1 hkn) k1 k2 hh
      · rw [ev.isVertical S' hbn, ev.hot S S' hbn hin]
        exact hv
      · rw [hBw, upd b hb hno, e]
    · exact Or.inl h

/-- A segment which comes to a place from the left still does. -/
theorem Sweep.Evolves.reaches {α : Type} {O : Ops α} {s s' : Store α} {Ex Ex' : ℕ → ℕ → Prop} (S : St ε Pt Y s L F p Ex)
    (S' : St ε Pt Y s' L' F' p' Ex') (ev : Evolves O ε Pt M s s') (new : ∀ k ∈ L' ++ F', k < s.heap.count) {c : ℕ}
    (hc : c < s.heap.count) {v : ℚ} (hv : v ≤ p') (h1 : (absSeg ε s.heap c).a < v) (h2 : v ≤ (absSeg ε s.heap c).b) :
    v ≤ (absSeg ε s'.heap c).b := by
  have I := S.inv'
  have I' := S'.inv'
  obtain ⟨w, hw, part, w1, w2⟩ := ev.covers.before I.proper I'.proper hc h1 h2
  obtain ⟨g1, g2, g3, g4⟩ := part.abs (I.proper c hc) (I'.proper w hw)
  obtain ⟨c1, c2, c3, c4⟩ := ev.abs S S' hc
  by_cases e : w = c
  · rw [← e]; exact w2
  exfalso
  have hwn : w < s.heap.count := by
    by_contra hge
    have hL : w ∉ L' := fun h => hge (new w (by simp [h]))
    have hF : w ∉ F' := fun h => hge (new w (by simp [h]))
    have := I'.wait w hw hL hF
    linarith
  obtain ⟨e1, e2, e3, e4⟩ := ev.abs S S' hwn
  have p1 := I'.proper w hw
  rcases I.noOv w hwn c hc e (e1.symm.trans g1) (e2.symm.trans g2) with h | h <;> linarith

theorem IsStale.keep {O : Ops ShapedData} (B : BelowInv rule ε s L F p)
    (S : St ε Pt Y s L F p NoEx) (S' : St ε Pt Y s' L' F' p' NoEx) (ev : Evolves O ε Pt M s s') (hp : p ≤ p')
    (new : ∀ k ∈ L' ++ F', k < s.heap.count) (sub : ∀ k ∈ L ++ F, k ∈ L' ++ F') {i : ℕ} (hi : i ∈ L ++ F)
    (st : IsStale ε s L F i) (hBw : Bw s'.heap i = Bw s.heap i)
    (upd : ∀ b ∈ L ++ F, (∀ k < s.heap.count, k ∉ L → k ∉ F → ¬ Hot ε s.heap k b) → freshBw s'.heap b = freshBw s.heap b) :
    IsStale ε s' L' F' i := by
  have I := S.inv'
  have hin := I.bound i hi
  obtain ⟨d1, d2, d3, -⟩ := ev.abs S S' hin
  obtain ⟨c, hc, h1, h2, h3, h4, h5, h6⟩ := st
  have hcn := I.bound c hc
  obtain ⟨c1, c2, c3, -⟩ := ev.abs S S' hcn
  have nonew : ∀ k < s'.heap.count, s.heap.count ≤ k → ¬ Hot ε s'.heap k c := by
    intro k hk hge
    exact B.no_new S S' ev hp hc hk hge (fun h => absurd (new k (by simp [h])) (not_lt.2 hge))
      (fun h => absurd (new k (by simp [h])) (not_lt.2 hge))
  refine ⟨c, sub c hc, by rw [c3, d3]; exact h1, ?_, by rw [d3, c1.y, d1.y]; exact h3, ?_, ?_, ?_⟩
  · rw [d3]
    exact ev.reaches S S' new hcn ((I.le_p hi).trans hp) h1 h2
  · intro k hk hne hh
    rw [c2]
    by_cases hkn : k < s.heap.count
    · exact h4 k hkn hne ((ev.hot S S' hkn hcn).1 hh)
    · exact absurd hh (nonew k hk (not_lt.1 hkn))
  · intro k hk k1 k2 hh
    by_cases hkn : k < s.heap.count
    · exact h5 k hkn (fun h => by have := sub k (by simp [h]); simp [k1, k2] at this)
        (fun h => by have := sub k (by simp [h]); simp [k1, k2] at this) ((ev.hot S S' hkn hcn).1 hh)
    · exact absurd hh (nonew k hk (not_lt.1 hkn))
  · rw [hBw, upd c hc h5, h6]

theorem Sound.keep {O : Ops ShapedData} (B : BelowInv rule ε s L F p)
    (S : St ε Pt Y s L F p NoEx) (S' : St ε Pt Y s' L' F' p' NoEx) (ev : Evolves O ε Pt M s s') (hp : p ≤ p')
    (new : ∀ k ∈ L' ++ F', k < s.heap.count) (sub : ∀ k ∈ L ++ F, k ∈ L' ++ F') {i : ℕ} (hi : i ∈ L ++ F)
    (so : Sound ε Es s L F i)
    (pend : ∀ k < s.heap.count, k ∉ L → k ∉ F → Hot ε s.heap k i → k ∉ L' ∧ k ∉ F')
    (hBw : Bw s'.heap i = Bw s.heap i)
    (upd : ∀ b ∈ L ++ F, (∀ k < s.heap.count, k ∉ L → k ∉ F → ¬ Hot ε s.heap k b) → freshBw s'.heap b = freshBw s.heap b) :
    Sound ε Es s' L' F' i := by
  have hin := S.inv'.bound i hi
  obtain ⟨d1, d2, d3, -⟩ := ev.abs S S' hin
  rcases so with ⟨h1, h2, h3, h4⟩ | ⟨⟨k, hk, k1, k2, k3⟩, h2⟩ | ⟨h1, h2⟩
  · left
    refine ⟨ev.clear S S' hin h1, fun h => ?_, h3.keep B S S' ev hp new sub hi h1 pend hBw upd, fun h => ?_⟩
    · rw [hBw]; exact h2 ((ev.lowest S S' hin).1 h)
    · exact h4 (h.congr d1.symm d3.symm)
  · right; left
    obtain ⟨q1, q2⟩ := pend k hk k1 k2 k3
    exact ⟨⟨k, hk.trans_le ev.count, q1, q2, (ev.hot S S' hk hin).2 k3⟩, fun h => h2 ((ev.lowest S S' hin).1 h)⟩
  · right; right
    exact ⟨h1.congr d1 d3, h2.keep B S S' ev hp new sub hi hBw upd⟩

theorem Sound.right {hr : RuleOk rule} {O : Ops ShapedData} (S : St ε Pt Y s L F p NoEx)
    (S' : St ε Pt Y s' L' F' p' NoEx) (ev : Evolves O ε Pt M s s') (hp : p ≤ p')
    (mem : ∀ i, i ∈ L' ++ F' ↔ i ∈ L ++ F) (rb : RightBelow rule hr ε L s s') (B : BelowInv rule ε s L F p)
    (J : ∀ i ∈ L ++ F, Sound ε Es s L F i) : ∀ i ∈ L' ++ F', Sound ε Es s' L' F' i := by
  have bd := S.inv'.bound
  obtain ⟨m, u, hm⟩ := rb.upd
  intro i hi
  rw [mem] at hi
  refine (J i hi).keep B S S' ev hp (fun k hk => bd k ((mem k).1 hk)) (fun k hk => (mem k).2 hk) hi ?_ (rb.old i (bd i hi)) ?_
  · intro k _ k1 k2 _
    have : k ∉ L' ++ F' := by rw [mem]; simp [k1, k2]
    simpa using this
  · intro b hb _
    exact freshBw_congr (u.res b (bd b hb) (by simp)) (ev.isVertical S' (bd b hb)) (rb.old b (bd b hb))

/-- A new segment with another one passing through its start is touched, or waits for an overlapping one. -/
theorem pass_touched {O : Ops ShapedData} {s₀ : Store ShapedData} {L₀ F₀ : List ℕ} {p₀ : ℚ} {Ex₀ : ℕ → ℕ → Prop}
    (S₀ : St ε Pt Y s₀ L₀ F₀ p₀ Ex₀) (R : Orig O ε s₀.heap s.heap) {t : ℕ} {l₁ l₂ : List ℕ}
    (S : St ε Pt Y s L F p NoEx) (G : LeftGeo Y (absSeg ε s.heap) s.heap.count L F p' t l₁ l₂) {u : ℕ} (hu : u ∈ L)
    (ha : (absSeg ε s.heap u).a < p') (hy : (absSeg ε s.heap u).y p' = Y p')
    (hm : (absSeg ε s.heap u).m < (absSeg ε s.heap t).m) :
    (∀ w < s.heap.count, (absSeg ε s.heap w).b ≠ p') ∧
    (Touched (origs ε s₀.heap) (absSeg ε s.heap t) ∨ ∃ k < s.heap.count, k ∉ L ∧ k ∉ F ∧ k ≠ t ∧ Hot ε s.heap k t) := by
  have I := G.inv
  have ta := G.ta
  have yt : (absSeg ε s.heap t).y p' = Y p' := by have := (I.endsY t G.tn).1; rwa [G.ta] at this
  have hb := I.lt_b G.hne hu
  have hun := I.ltn hu
  have noL : ∀ k ∈ L, (absSeg ε s.heap k).a ≠ p' := fun k hk h => ha.ne (I.starts G.hne hu hk hy h)
  have noE : ∀ w < s.heap.count, (absSeg ε s.heap w).b ≠ p' := by
    intro w hw wb
    have wa := I.proper w hw
    have hwL : w ∉ L := fun h => G.hne w h wb
    have hwF : w ∈ F := by
      by_contra h
      have := I.wait w hw hwL h
      linarith
    obtain ⟨k, hk, ka, kc⟩ := I.en u hu ha hy hb w hwF wb
    have hkL : k ∉ L := fun h => noL k h ka
    have hkF : k ∉ F := fun h => G.notF h ka
    have hc := (G.q k hk hkL hkF ka (Or.inr ⟨by rw [kc.y, hy, yt], Or.inl (by rw [kc.1]; exact hm)⟩)).2.1
    have := kc.1
    have := hc.1
    linarith
  refine ⟨noE, ?_⟩
  by_cases hw : ∃ k < s.heap.count, k ∉ L ∧ k ∉ F ∧ k ≠ t ∧ Hot ε s.heap k t
  · exact Or.inr hw
  left
  push Not at hw
  -- what starts here waits
  have st : ∀ k < s₀.heap.count, (absSeg ε s₀.heap k).a = p' → k < s.heap.count ∧ k ∉ L ∧ k ∉ F ∧
      (absSeg ε s.heap k).a = p' ∧ (absSeg ε s.heap k).y p' = Y p' ∧ (absSeg ε s.heap k).m = (absSeg ε s₀.heap k).m := by
    intro k hk hka
    obtain ⟨k1, -, k3⟩ := R.abs k hk
    have hkn := hk.trans_le R.count
    have hka' := k3.trans hka
    refine ⟨hkn, fun h => noL k h hka', fun h => G.notF h hka', hka', ?_, k1.1⟩
    have := (I.endsY k hkn).1
    rwa [hka'] at this
  have eq : ∀ k < s₀.heap.count, (absSeg ε s₀.heap k).a = p' → (absSeg ε s₀.heap k).m = (absSeg ε s.heap t).m → k = t := by
    intro k hk hka hkm
    obtain ⟨k1, k2, k3, k4, k5, k6⟩ := st k hk hka
    by_contra hne
    exact hw k k1 k2 k3 hne ⟨col_of_slope (k6.trans hkm) (k5.trans yt.symm), k4.trans ta.symm⟩
  obtain ⟨j, hj, j1, j2, j3, j4⟩ := R.parent S₀ S hun
  refine ⟨⟨_, ⟨mem_origs hj, ?_, ?_, ?_, ?_⟩, ?_⟩, ?_, ?_⟩
  · rw [ta]; dsimp only; linarith
  · rw [ta]; dsimp only; linarith
  · rw [ta, yt]; exact (j1.y _).symm.trans hy
  · intro k hk0 h1 h2 h3
    obtain ⟨k, hk, rfl⟩ := of_mem_origs hk0
    rw [ta] at h1 h2 h3 ⊢
    rw [yt] at h3
    dsimp only at h1 h2
    obtain ⟨w, hw', w1, -, w3, w4⟩ := R.before S₀ S hk h1 h2
    have hwb := lt_of_le_of_ne w4 (noE w hw').symm
    have hwL : w ∈ L := by
      rcases I.active hw' ⟨w3.le, hwb⟩ with h | ⟨-, -, h⟩
      · exact h
      · exact absurd h w3.ne
    have wy : (absSeg ε s.heap w).y p' = Y p' := (w1.y _).trans h3
    have hcol : Col (absSeg ε s₀.heap k) (absSeg ε s₀.heap j) := w1.symm.trans ((I.passing G.hne hwL hu wy hy w3).trans j1)
    refine ⟨lt_of_le_of_ne h2 fun hkb => ?_, hcol⟩
    -- the end of an original is an end of a part of it
    obtain ⟨z, hz, part, z1, z2⟩ := R.covers.before S₀.inv'.proper I.proper hk h1 h2
    obtain ⟨-, -, -, z4⟩ := part.abs (S₀.inv'.proper k hk) (I.proper z hz)
    exact noE z hz (le_antisymm (z4.trans hkb.ge) z2)
  · change (absSeg ε s₀.heap j).m < _
    rw [← j1.1]; exact hm
  · intro k hk0 hka
    obtain ⟨k, hk, rfl⟩ := of_mem_origs hk0
    rw [ta] at hka
    obtain ⟨k1, k2, k3, k4, k5, k6⟩ := st k hk hka
    change _ ≤ (absSeg ε s₀.heap k).m
    by_contra hlt
    rw [not_le, ← k6] at hlt
    have := (G.q k k1 k2 k3 k4 (Or.inr ⟨by rw [k5, yt], Or.inl hlt⟩)).2.1.1
    linarith
  · unfold origs
    rw [List.pairwise_map]
    refine List.nodup_range.imp_of_mem ?_
    rintro a b ha hb hne ⟨h1, h2, h3, h4⟩
    rw [ta] at h1 h3
    exact hne ((eq a (List.mem_range.1 ha) h1 h2).trans (eq b (List.mem_range.1 hb) h3 h4).symm)

/-- A left event. -/
theorem Sound.left {s₀ : Store ShapedData} {L₀ F₀ : List ℕ} {p₀ : ℚ} {Ex₀ : ℕ → ℕ → Prop}
    (S₀ : St ε Pt Y s₀ L₀ F₀ p₀ Ex₀) (R : Orig (holeyOps rule) ε s₀.heap s.heap) {t : ℕ} {l₁ l₂ : List ℕ}
    (S : St ε Pt Y s L F p NoEx) (S' : St ε Pt Y s' (l₁ ++ t :: l₂) F p' NoEx)
    (G : LeftGeo Y (absSeg ε s.heap) s.heap.count L F p' t l₁ l₂) (ev : Evolves (holeyOps rule) ε Pt M s s')
    (lb : LeftBelow rule ε s s' t l₁ l₂) (B : BelowInv rule ε s L F p) (B' : BelowInv rule ε s' (l₁ ++ t :: l₂) F p')
    (J : ∀ i ∈ L ++ F, Sound ε (origs ε s₀.heap) s L F i)
    (nt : Clear (absSeg ε s.heap) s.heap.count t → ¬ Touched (origs ε s₀.heap) (absSeg ε s.heap t)) :
    ∀ i ∈ l₁ ++ t :: l₂ ++ F, Sound ε (origs ε s₀.heap) s' (l₁ ++ t :: l₂) F i := by
  set A := absSeg ε s.heap with hA
  set n := s.heap.count with hn
  have I := G.inv
  have hp : p ≤ p' := by rw [← G.ta]; exact S.inv'.wait t G.tn G.tL G.tF
  have mem : ∀ i, i ∈ l₁ ++ t :: l₂ ++ F ↔ i = t ∨ i ∈ L ++ F := by
    intro i
    rw [G.hL]
    simp only [List.mem_append, List.mem_cons]
    tauto
  have bd : ∀ i, i = t ∨ i ∈ L ++ F → i < n := by
    rintro i (rfl | h)
    · exact G.tn
    · exact I.bound i h
  have net : ∀ i ∈ L ++ F, i ≠ t := by
    rintro i hi rfl
    rcases List.mem_append.1 hi with h | h
    exacts [G.tL h, G.tF h]
  have nd : (l₁ ++ l₂).Nodup := by rw [← G.hL]; exact I.nodupL
  have hot : ∀ u v, u < n → v < n → (Hot ε s'.heap u v ↔ Hot ε s.heap u v) := fun u v hu hv => ev.hot S S' hu hv
  have l1L : ∀ j ∈ l₁, j ∈ L := fun j hj => by rw [G.hL]; simp [hj]
  have l2L : ∀ j ∈ l₂, j ∈ L := fun j hj => by rw [G.hL]; simp [hj]
  have LF : ∀ j ∈ L, j ∈ L ++ F := fun j hj => by simp [hj]
  have hd1 : ∀ j, l₁.getLast? = some j → j ∈ l₁ := fun j hj => List.mem_of_getLast? hj
  have hd2 : ∀ j, l₂.head? = some j → j ∈ l₂ := fun j hj => List.mem_of_mem_head? hj
  have ne12 : ∀ i ∈ l₁, ∀ j ∈ l₂, i ≠ j := fun i hi j hj => (List.nodup_append.1 nd).2.2 i hi j hj
  have nw : ∀ k, k ∉ l₁ ++ t :: l₂ → k ≠ t ∧ k ∉ L := by
    intro k hk
    simp only [List.mem_append, List.mem_cons, not_or] at hk
    exact ⟨hk.2.1, by rw [G.hL]; simp [hk.1, hk.2.2]⟩
  have wn : ∀ k, k ∉ L → k ∉ F → k ≠ t → k ∉ l₁ ++ t :: l₂ := by
    intro k k1 k2 k3
    have := mem k
    simp only [List.mem_append] at this
    rw [← List.mem_append] at this
    simp only [List.mem_append, k1, k2, k3, or_false] at this ⊢
    tauto
  have new : ∀ k ∈ l₁ ++ t :: l₂ ++ F, k < n := fun k hk => bd k ((mem k).1 hk)
  have nonew : ∀ b ∈ L ++ F, ∀ k < s'.heap.count, n ≤ k → k ∉ l₁ ++ t :: l₂ → k ∉ F → ¬ Hot ε s'.heap k b :=
    fun b hb k hk hge k1 k2 => B.no_new S S' ev hp hb hk hge k1 k2
  have yt : (A t).y p' = Y p' := by have := (I.endsY t G.tn).1; rwa [G.ta] at this
  have pw := I.belPair G.hne
  -- overlapping segments are neighbours
  have adjt : ∀ i ∈ L ++ F, Hot ε s.heap t i → i ∈ L ∧ (l₂.head? = some i ∨ l₁.getLast? = some i) := by
    intro i hi hh
    have hiL : i ∈ L := by
      rcases List.mem_append.1 hi with h | h
      · exact h
      · exact absurd (hh.2.symm.trans G.ta) (G.notF h)
    refine ⟨hiL, G.col_adj hiL hh.1 ?_⟩
    exact S.hot_first (bd i (Or.inr hi)) G.tn (net i hi) hh.symm
  -- nothing else overlaps the neighbours
  have nohot : ∀ d ∈ l₁, ∀ k < s'.heap.count, k ∉ l₁ ++ t :: l₂ → k ∉ F → ¬ Hot ε s'.heap k d := by
    intro d hd k hk k1 k2 hh
    have hdL := LF d (l1L d hd)
    have hdn := I.bound d hdL
    by_cases hkn : k < n
    · rw [hot k d hkn hdn] at hh
      have w := I.wait k hkn (nw k k1).2 k2
      have hba := (I.act d (l1L d hd)).1
      have hbp : (A d).a = p' := le_antisymm hba (by rw [← hh.2]; exact w)
      rcases slope_of_bel (I.endsY d hdn).1 (I.endsY t G.tn).1 hbp G.ta (G.lo d hd) with h' | h'
      · have hkt : (A k).m < (A t).m := by rw [hh.1.1]; exact h'
        have hka : (A k).a = p' := hh.2.trans hbp
        have yk : (A k).y p' = (A t).y p' := by
          have e1 := (I.endsY k hkn).1
          rw [hka] at e1
          rw [e1, yt]
        have := (G.q k hkn (nw k k1).2 k2 hka (Or.inr ⟨yk, Or.inl hkt⟩)).2.1.1
        linarith
      · exact S.hot_three hkn hdn G.tn (fun e => (nw k k1).2 (e ▸ l1L d hd)) (net d hdL) (nw k k1).1 hh h'
    · exact nonew d hdL k hk (not_lt.1 hkn) k1 k2 hh
  -- nothing passes through the start of a segment of the sweep line which starts here
  have clr : ∀ i ∈ L, (A i).a = p' → Clear A n i := by
    intro i hi hia u hu ha hua _ hy
    exfalso
    rw [hia] at ha hua hy
    have huL : u ∈ L := by
      rcases I.active hu ha with h | ⟨-, -, h⟩
      · exact h
      · exact absurd h hua.ne
    have yi := (I.endsY i (I.ltn hi)).1
    rw [hia] at yi
    exact hua.ne (I.starts G.hne huL hi (hy.trans yi) hia)
  -- segments below the start of a segment which starts here
  have act : ∀ k < n, Act p' (A k) → k ∈ L ∨ (k ∉ L ∧ k ∉ F ∧ (A k).a = p') := fun k hk h => I.active hk h
  have actL : ∀ d ∈ L, Act p' (A d) := fun d hd => ⟨(I.act d hd).1, I.lt_b G.hne hd⟩
  have inl1 : ∀ k ∈ L, Bel p' (A k) (A t) → k ∈ l₁ := by
    intro k hk hb
    rw [G.hL] at hk
    rcases List.mem_append.1 hk with h | h
    · exact h
    · exact absurd (G.hi k h) hb.asymm
  -- the vertical one below
  have vert : ∀ i < n, (A i).a = p' → ∀ d ∈ l₁, Bel p' (A d) (A i) → i ∈ L ∨ (i = t ∧ Clear A n t) →
      Under (absSeg ε s'.heap) s'.heap.count i d → s.heap.isVertical d = true → Hot ε s.heap d i := by
    intro i hin hia d hd hb hit U hv
    have hdn := I.bound d (LF d (l1L d hd))
    have hda := actL d (l1L d hd)
    obtain ⟨v1, v2⟩ := S.vertical hdn hin hv (by rw [← hA, hia]; exact hda) (by rw [← hA, hia]; exact hb)
    rw [← hA, hia] at v1
    rcases v2 with v2 | v2
    · exfalso
      rw [← hA, hia] at v2
      have hyd : (A d).y p' = Y p' := by
        have := (I.endsY i hin).1
        rw [hia] at this
        rw [v1, this]
      rcases hit with hit | ⟨rfl, clt⟩
      · exact v2.ne (I.starts G.hne (l1L d hd) hit hyd hia)
      · have hcol : Col (A d) (A i) := clt d hdn (by rw [hia]; exact hda) (by rw [hia]; exact v2) (by rw [hia]; exact hb)
          (by rw [hia]; exact v1)
        have hua := U.act
        obtain ⟨a1, a2, a3, -⟩ := ev.abs S S' hdn
        obtain ⟨t1, t2, t3, -⟩ := ev.abs S S' G.tn
        have e : (absSeg ε s'.heap i).a = p' := t3.trans G.ta
        rw [e] at hua
        refine B'.thru i (by simp) e d (by simp [hd]) ?_ hua.2 (a1.trans (hcol.trans t1.symm))
        rw [a3]; exact v2
    · exact v2
  have isv : ∀ d < n, s'.heap.isVertical d = s.heap.isVertical d := fun d hd => ev.isVertical S' hd
  have bwf : ∀ i, i = t ∨ i ∈ L ++ F → bwFrom rule s'.heap i = freshBw s'.heap i := fun i hi =>
    bwFrom_fresh (B'.decided i ((mem i).2 hi))
  -- waiting segments below
  have wbel : ∀ k < n, k ∉ L → k ∉ F → (A k).a = p' → Bel p' (A k) (A t) →
      Pend (absSeg ε s'.heap) s'.heap.count (l₁ ++ t :: l₂) F t := by
    intro k hk k1 k2 hka hb
    obtain ⟨q1, q2, q3, q4⟩ := G.q k hk k1 k2 hka hb
    obtain ⟨c1, c2, c3, -⟩ := ev.abs S S' hk
    obtain ⟨t1, t2, t3, -⟩ := ev.abs S S' G.tn
    refine ⟨k, hk.trans_le ev.count, wn k k1 k2 q1, k2, c2.trans q3, t2.trans q4, c1.trans (q2.trans t1.symm), ?_⟩
    rw [c3, t3]
    exact hka.trans G.ta.symm
  -- the new one
  have self : Clear A n t → IsFresh ε s' (l₁ ++ t :: l₂) F t := by
    intro clt
    by_cases hw : ∃ k < n, k ∉ L ∧ k ∉ F ∧ (A k).a = p' ∧ Bel p' (A k) (A t)
    · obtain ⟨k, hk, k1, k2, k3, k4⟩ := hw
      exact Or.inl (wbel k hk k1 k2 k3 k4)
    · push Not at hw
      have low : ∀ k < n, Act p' (A k) → Bel p' (A k) (A t) → k ∈ l₁ := by
        intro k hk ha hb
        rcases act k hk ha with h | ⟨k1, k2, k3⟩
        · exact inl1 k h hb
        · exact absurd hb (hw k hk k1 k2 k3)
      cases hc : l₁.getLast? with
      | none =>
        right; left
        rw [ev.lowest S S' G.tn]
        intro k hk ha hb
        rw [← hA, G.ta] at ha hb
        have := low k hk ha hb
        rw [List.getLast?_eq_none_iff.1 hc] at this
        cases this
      | some c =>
        have hcl := hd1 c hc
        have hcL := LF c (l1L c hcl)
        have hcn := I.bound c hcL
        have U : Under A n t c := by
          refine ⟨by rw [G.ta]; exact actL c (l1L c hcl), by rw [G.ta]; exact G.lo c hcl, ?_⟩
          intro k hk ha hb
          rw [G.ta] at ha hb ⊢
          have := low k hk ha hb
          obtain ⟨l, hl⟩ := List.getLast?_eq_some_iff.1 hc
          rw [hl] at this
          rcases List.mem_append.1 this with h | h
          · right
            rw [G.hL, hl] at pw
            exact (List.pairwise_append.1 (List.pairwise_append.1 pw).1).2.2 k h c (by simp)
          · left; simpa using h
        rcases ev.under S S' new G.tn hcn (by rw [← hA, G.ta]) clt U with U' | h
        · right; right
          refine ⟨c, (mem c).2 (Or.inr hcL), U', nohot c hcl, ?_, ?_⟩
          · rw [isv c hcn, hot c t hcn G.tn]
            exact vert t G.tn G.ta c hcl (G.lo c hcl) (Or.inr ⟨rfl, clt⟩) U'
          · rw [lb.self, hc]
            exact bwf c (Or.inr hcL)
        · exact Or.inl h
  have nonet : Lowest (absSeg ε s'.heap) s'.heap.count t → Bw s'.heap t = none := by
    intro h
    rw [ev.lowest S S' G.tn] at h
    rw [lb.self]
    cases hc : l₁.getLast? with
    | none => exact B.wait t G.tn G.tL G.tF
    | some c =>
      have hcl := hd1 c hc
      exfalso
      refine h c (I.ltn (l1L c hcl)) ?_ ?_
      · rw [← hA, G.ta]; exact actL c (l1L c hcl)
      · rw [← hA, G.ta]; exact G.lo c hcl
  -- the one above
  have above : ∀ a, l₂.head? = some a → Hot ε s.heap t a → IsFresh ε s' (l₁ ++ t :: l₂) F a ∧
      ¬ Lowest (absSeg ε s'.heap) s'.heap.count a := by
    intro a ha hh
    have hal := hd2 a ha
    have haL := LF a (l2L a hal)
    have han := I.bound a haL
    have haa : (A a).a = p' := hh.2.symm.trans G.ta
    have bta := G.hi a hal
    have pt := I.proper t G.tn
    have nff := S.hot_first G.tn han (net a haL).symm hh
    have aff : (A t).ff = true ∧ (A a).ff = false := by
      rcases bta with h | ⟨-, h | ⟨-, h⟩⟩
      · rw [hh.1.y] at h; exact absurd h (lt_irrefl _)
      · rw [hh.1.1] at h; exact absurd h (lt_irrefl _)
      · exact h
    have U : Under A n a t := by
      refine ⟨by rw [haa]; exact ⟨G.ta.le, by rw [← G.ta]; exact pt⟩, by rw [haa]; exact bta, ?_⟩
      intro k hk hka hb
      rw [haa] at hka hb ⊢
      rcases act k hk hka with h | ⟨k1, k2, k3⟩
      · rw [G.hL] at h
        rcases List.mem_append.1 h with h | h
        · exact Or.inr (G.lo k h)
        · exfalso
          cases l₂ with
          | nil => cases h
          | cons x l =>
            simp only [List.head?_cons, Option.some.injEq] at ha
            subst ha
            rcases List.mem_cons.1 h with rfl | h
            · exact hb.irrefl
            · rw [G.hL] at pw
              exact hb.asymm ((List.pairwise_cons.1 (List.pairwise_append.1 pw).2.1).1 k h)
      · by_cases hkt : k = t
        · exact Or.inl hkt
        right
        have yk : (A k).y p' = (A t).y p' := by
          have e1 := (I.endsY k hk).1
          rw [k3] at e1
          rw [e1, yt]
        rcases hb with h | ⟨-, h | ⟨h, h1, -⟩⟩
        · rw [yk, hh.1.y] at h; exact absurd h (lt_irrefl _)
        · exact Or.inr ⟨yk, Or.inl (by rw [hh.1.1]; exact h)⟩
        · exfalso
          have pk := I.proper k hk
          have hta := G.ta
          rcases I.noOv k hk t G.tn hkt (col_of_slope (h.trans hh.1.1.symm) yk) (h1.trans aff.1.symm) with h' | h' <;> linarith
    have hnl : ¬ Lowest (absSeg ε s'.heap) s'.heap.count a := by
      rw [ev.lowest S S' han]
      exact fun h => h t G.tn U.act U.bel
    refine ⟨?_, hnl⟩
    rcases ev.under S S' new han G.tn (by rw [← hA, haa]) (clr a (l2L a hal) haa) U with U' | h
    · right; right
      refine ⟨t, (mem t).2 (Or.inl rfl), U', ?_, fun _ => (hot t a G.tn han).2 hh, ?_⟩
      · intro k hk k1 k2 h'
        have e1 := (nw k k1).1
        have e2 : k ≠ a := fun e => (nw k k1).2 (e ▸ l2L a hal)
        exact S'.hot_three hk (G.tn.trans_le ev.count) (han.trans_le ev.count) e1 (net a haL).symm e2 h'
          ((hot t a G.tn han).2 hh)
      · rw [(lb.above a ha hh).1]
        exact bwf t (Or.inl rfl)
    · exact Or.inl h
  -- the one below
  have below : ∀ c, l₁.getLast? = some c → Hot ε s.heap c t → IsFresh ε s' (l₁ ++ t :: l₂) F c ∧
      (Lowest (absSeg ε s'.heap) s'.heap.count c → Bw s'.heap c = none) := by
    intro c hc hh
    have hcl := hd1 c hc
    have hcL := LF c (l1L c hcl)
    have hcn := I.bound c hcL
    have hca : (A c).a = p' := hh.2.trans G.ta
    have bct := G.lo c hcl
    have cff : (A c).ff = true ∧ (A t).ff = false := by
      rcases bct with h | ⟨-, h | ⟨-, h⟩⟩
      · rw [hh.1.y] at h; exact absurd h (lt_irrefl _)
      · rw [hh.1.1] at h; exact absurd h (lt_irrefl _)
      · exact h
    obtain ⟨l, hl⟩ := List.getLast?_eq_some_iff.1 hc
    have hll : l₁.dropLast = l := by rw [hl]; simp
    have pw1 : ∀ k ∈ l, Bel p' (A k) (A c) := by
      rw [G.hL, hl] at pw
      exact fun k hk => (List.pairwise_append.1 (List.pairwise_append.1 pw).1).2.2 k hk c (by simp)
    have low : ∀ k < n, Act p' (A k) → Bel p' (A k) (A c) → k ∈ l := by
      intro k hk ha hb
      rcases act k hk ha with h | ⟨k1, k2, k3⟩
      · have h1 := inl1 k h (hb.trans bct)
        rw [hl] at h1
        rcases List.mem_append.1 h1 with h1 | h1
        · exact h1
        · simp only [List.mem_singleton] at h1
          subst h1
          exact absurd hb hb.irrefl.elim
      · exfalso
        obtain ⟨q1, q2, q3, q4⟩ := G.q k hk k1 k2 k3 (hb.trans bct)
        have pk := I.proper k hk
        have pc := I.proper c hcn
        rcases I.noOv k hk c hcn (fun e => k1 (e ▸ l1L c hcl)) (q2.trans hh.1.symm) (q3.trans cff.1.symm) with h' | h' <;>
          linarith
    have ebw := (lb.below c hc hh).2
    rw [hll] at ebw
    cases hd : l.getLast? with
    | none =>
      rw [hd] at ebw
      have hlow : Lowest A n c := by
        intro k hk ha hb
        rw [hca] at ha hb
        have := low k hk ha hb
        rw [List.getLast?_eq_none_iff.1 hd] at this
        cases this
      refine ⟨Or.inr (Or.inl ((ev.lowest S S' hcn).2 hlow)), fun _ => ?_⟩
      rw [ebw]
      rcases J c hcL with ⟨-, h, -⟩ | ⟨-, h⟩ | ⟨h, -⟩
      · exact h hlow
      · exact absurd hlow h
      · exact absurd hlow (h.not_lowest S₀ S R hcn)
    | some d =>
      rw [hd] at ebw
      have hdl : d ∈ l := List.mem_of_getLast? hd
      have hd1' : d ∈ l₁ := by rw [hl]; simp [hdl]
      have hdL := LF d (l1L d hd1')
      have hdn := I.bound d hdL
      have U : Under A n c d := by
        refine ⟨by rw [hca]; exact actL d (l1L d hd1'), by rw [hca]; exact pw1 d hdl, ?_⟩
        intro k hk ha hb
        rw [hca] at ha hb ⊢
        have := low k hk ha hb
        obtain ⟨l', hl'⟩ := List.getLast?_eq_some_iff.1 hd
        rw [hl'] at this
        rcases List.mem_append.1 this with h | h
        · right
          rw [G.hL, hl, hl'] at pw
          exact (List.pairwise_append.1 (List.pairwise_append.1 (List.pairwise_append.1 pw).1).1).2.2 k h d (by simp)
        · left; simpa using h
      refine ⟨?_, fun h => ?_⟩
      · rcases ev.under S S' new hcn hdn (by rw [← hA, hca]) (clr c (l1L c hcl) hca) U with U' | h
        · right; right
          refine ⟨d, (mem d).2 (Or.inr hdL), U', nohot d hd1', ?_, ?_⟩
          · rw [isv d hdn, hot d c hdn hcn]
            exact vert c hcn hca d hd1' (pw1 d hdl) (Or.inl (l1L c hcl)) U'
          · rw [ebw]
            exact bwf d (Or.inr hdL)
        · exact Or.inl h
      · rw [ev.lowest S S' hcn] at h
        exact absurd U.bel (h d hdn U.act)
  have rest : ∀ i ∈ L ++ F, ¬ (l₂.head? = some i ∧ Hot ε s.heap t i) → ¬ (l₁.getLast? = some i ∧ Hot ε s.heap i t) →
      Bw s'.heap i = Bw s.heap i ∧ ¬ Hot ε s.heap t i := by
    intro i hi ha hc
    refine ⟨?_, fun hh => ?_⟩
    · unfold Bw
      rw [lb.old i (I.bound i hi) (net i hi) (fun a h1 h2 e => ha ⟨e ▸ h1, e ▸ h2⟩) (fun b h1 h2 e => hc ⟨e ▸ h1, e ▸ h2⟩)]
    · rcases (adjt i hi hh).2 with h | h
      · exact ha ⟨h, hh⟩
      · exact hc ⟨h, hh.symm⟩
  have keep : ∀ i ∈ L ++ F, ¬ (l₂.head? = some i ∧ Hot ε s.heap t i) → ¬ (l₁.getLast? = some i ∧ Hot ε s.heap i t) →
      Sound ε (origs ε s₀.heap) s' (l₁ ++ t :: l₂) F i := by
    intro i hi ha hc
    obtain ⟨r1, r2⟩ := rest i hi ha hc
    refine (J i hi).keep B S S' ev hp new (fun k hk => (mem k).2 (Or.inr hk)) hi ?_ r1 ?_
    · intro k hk k1 k2 hh
      exact ⟨wn k k1 k2 (fun e => r2 (e ▸ hh)), k2⟩
    · intro b hb hno
      have hbn := I.bound b hb
      have ht := hno t G.tn G.tL G.tF
      have e := lb.old b hbn (net b hb) (fun a _ hh e => ht (e ▸ hh)) (fun a _ hh e => ht (by rw [e]; exact hh.symm))
      exact freshBw_congr (by rw [e]) (isv b hbn) (by unfold Bw; rw [e])
  have untouched : ∀ i ∈ L ++ F, Hot ε s.heap t i → ¬ Touched (origs ε s₀.heap) (absSeg ε s'.heap i) := by
    intro i hi hh h
    obtain ⟨d1, -, d3, -⟩ := ev.abs S S' (I.bound i hi)
    exact (h.congr d1.symm d3.symm).no_hot S₀ S R (I.bound i hi) G.tn (net i hi).symm hh
  intro i hi
  rw [mem] at hi
  rcases hi with rfl | hi
  · by_cases clt : Clear A n i
    · left
      obtain ⟨d1, -, d3, -⟩ := ev.abs S S' G.tn
      exact ⟨ev.clear S S' G.tn clt, nonet, self clt, fun h => nt clt (h.congr d1.symm d3.symm)⟩
    · -- something passes
      unfold Clear at clt
      push Not at clt
      obtain ⟨u, hun, ua, ua', ub, uy, uc⟩ := clt
      rw [G.ta] at ua ua' ub uy
      have huL : u ∈ L := by
        rcases I.active hun ua with h | ⟨-, -, h⟩
        · exact h
        · exact absurd h ua'.ne
      have uY := uy.trans yt
      have um : (A u).m < (A i).m := by
        rcases ub with h | ⟨-, h | ⟨h, -⟩⟩
        · rw [uy] at h; exact absurd h (lt_irrefl _)
        · exact h
        · exact absurd (col_of_slope h uy) uc
      obtain ⟨noE, hT⟩ := pass_touched S₀ R S G huL ua' uY um
      have noL : ∀ k ∈ L, (A k).a ≠ p' := fun k hk h => ua'.ne (I.starts G.hne huL hk uY h)
      obtain ⟨d1, -, d3, -⟩ := ev.abs S S' G.tn
      rcases hT with hT | ⟨k, hk, k1, k2, k3, k4⟩
      · right; right
        refine ⟨hT.congr d1 d3, ?_⟩
        have hul := inl1 u huL ub
        cases hc : l₁.getLast? with
        | none =>
          rw [List.getLast?_eq_none_iff.1 hc] at hul
          cases hul
        | some c =>
          have hcl := hd1 c hc
          have hcL := LF c (l1L c hcl)
          have hcn := I.bound c hcL
          obtain ⟨l, hl⟩ := List.getLast?_eq_some_iff.1 hc
          have topc : ∀ k ∈ l₁, k = c ∨ Bel p' (A k) (A c) := by
            intro k hk
            rw [hl] at hk
            rcases List.mem_append.1 hk with h | h
            · right
              rw [G.hL, hl] at pw
              exact (List.pairwise_append.1 (List.pairwise_append.1 pw).1).2.2 k h c (by simp)
            · left; simpa using h
          have cY : (A c).y p' = Y p' := by
            rcases topc u hul with h | h
            · rw [← h]; exact uY
            · refine le_antisymm ?_ ?_
              · rw [← yt]
                rcases G.lo c hcl with h' | ⟨h', -⟩
                exacts [h'.le, h'.le]
              · rw [← uY]
                rcases h with h' | ⟨h', -⟩
                exacts [h'.le, h'.le]
          have ca : (A c).a < p' := lt_of_le_of_ne (I.act c (l1L c hcl)).1 (noL c (l1L c hcl))
          have cb := I.lt_b G.hne (l1L c hcl)
          have ccol : Col (A u) (A c) := I.passing G.hne huL (l1L c hcl) uY cY ua'
          obtain ⟨c1, c2, c3, -⟩ := ev.abs S S' hcn
          refine ⟨c, (mem c).2 (Or.inr hcL), ?_, ?_, ?_, ?_, nohot c hcl, ?_⟩
          · rw [c3, d3, ← hA, G.ta]; exact ca
          · rw [d3, ← hA, G.ta]
            exact ev.reaches S S' new hcn le_rfl ca cb.le
          · rw [d3, c1.y, d1.y, ← hA, G.ta, cY, yt]
          · intro k hk hne hh
            have hkn : k < n := by
              by_contra hge
              exact nonew c hcL k hk (not_lt.1 hge) (fun h => hge (new k (by simp only [List.mem_append] at h ⊢; tauto)))
                (fun h => hge (new k (by simp [h]))) hh
            rw [hot k c hkn hcn] at hh
            rw [c2]
            by_contra hff
            have cff : (A c).ff = true := by simpa using hff
            have kff : (A k).ff = false := by
              have : (A k).ff ≠ (A c).ff := S.hot_first hkn hcn hne hh
              rw [cff] at this; simpa using this
            have ka : (A k).a < p' := by rw [hA, hh.2]; exact ca
            have pk := I.proper k hkn
            rcases lt_or_ge p' (A k).b with hkb | hkb
            · have hkL : k ∈ L := by
                rcases I.active hkn ⟨ka.le, hkb⟩ with h | ⟨-, -, h⟩
                · exact h
                · exact absurd h ka.ne
              have kt : Bel p' (A k) (A i) := by
                refine Or.inr ⟨(hh.1.y _).trans (cY.trans yt.symm), Or.inl ?_⟩
                have e1 := hh.1.1
                have e2 := ccol.1
                rw [hA] at um e2 ⊢
                linarith
              rcases topc k (inl1 k hkL kt) with h | h
              · exact hne h
              · rcases h with h | ⟨-, h | ⟨-, h, -⟩⟩
                · have := hh.1.y p'; rw [← hA] at this; linarith
                · have := hh.1.1; rw [← hA] at this; linarith
                · rw [kff] at h; cases h
            · have hkb' := lt_of_le_of_ne hkb (noE k hkn)
              have e1 : (A k).a = (A c).a := hh.2
              rcases I.good k hkn c hcn (A k).b hkb' ⟨pk.le, le_rfl, by linarith, by linarith, hh.1.y _⟩ with
                ⟨-, h | h⟩ | ⟨h, -⟩
              · linarith
              · linarith
              · exact lt_irrefl _ h.2
          · rw [lb.self, hc]
            exact bwf c (Or.inr hcL)
      · right; left
        refine ⟨⟨k, hk.trans_le ev.count, wn k k1 k2 k3, k2, (hot k i hk G.tn).2 k4⟩, fun h => ?_⟩
        rw [ev.lowest S S' G.tn] at h
        refine h u hun ?_ ?_
        · rw [← hA, G.ta]; exact ua
        · rw [← hA, G.ta]; exact ub
  by_cases ha : l₂.head? = some i ∧ Hot ε s.heap t i
  · left
    obtain ⟨a1, a2⟩ := above i ha.1 ha.2
    have hiL := l2L i (hd2 i ha.1)
    exact ⟨ev.clear S S' (I.bound i hi) (clr i hiL (ha.2.2.symm.trans G.ta)), fun h => absurd h a2, a1, untouched i hi ha.2⟩
  by_cases hc : l₁.getLast? = some i ∧ Hot ε s.heap i t
  · left
    obtain ⟨a1, a2⟩ := below i hc.1 hc.2
    have hiL := l1L i (hd1 i hc.1)
    exact ⟨ev.clear S S' (I.bound i hi) (clr i hiL (hc.2.2.trans G.ta)), a2, a1, untouched i hi hc.2.symm⟩
  exact keep i hi ha hc

end Clipping

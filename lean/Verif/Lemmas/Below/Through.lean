import Verif.Lemmas.Below.Ended

/-!
# Parity of sets of selected edges, told by events below which may be out of date

An event below which is out of date belongs to the part of a passing edge which ends at the start of the event above it.
It tells the parity of a set of edges if the set has the part of the passing edge after this place as well.
-/

namespace Clipping

open Sweep

namespace Sweep

variable {Y : ℚ → ℚ} {A : ℕ → Seg} {n : ℕ} {K : ℕ → Prop}

/-- parity of the number of segments of a set which are strictly below the line of `t` just after `c` -/
noncomputable def spar (A : ℕ → Seg) (n : ℕ) (K : ℕ → Prop) (c : ℚ) (t : Seg) : ZMod 2 :=
  ∑ k ∈ Finset.range n, ind (K k ∧ Act c (A k) ∧ SBel c (A k) t)

theorem spar_congr {c d : ℚ} {t t' : Seg} (h : Col t t') (hc : c = d) : spar A n K c t = spar A n K d t' := by
  subst hc
  unfold spar
  exact Finset.sum_congr rfl fun k _ => ind_congr
    ⟨fun g => ⟨g.1, g.2.1, g.2.2.congr (Col.refl _) h⟩, fun g => ⟨g.1, g.2.1, g.2.2.congr (Col.refl _) h.symm⟩⟩

theorem bel_true {c : ℚ} {k t : Seg} (h : t.ff = true) : Bel c k t ↔ SBel c k t := by
  refine ⟨fun g => ?_, SBel.bel⟩
  rcases g.sbel_or with g | ⟨-, -, g⟩
  · exact g
  · rw [h] at g; cases g

theorem sum_one {P : ℕ → Prop} (h : ∀ i < n, ∀ j < n, P i → P j → i = j) :
    ∑ k ∈ Finset.range n, ind (P k) = ind (∃ k < n, P k) := by
  by_cases e : ∃ k < n, P k
  · obtain ⟨k, hk, pk⟩ := e
    rw [ind_pos (P := ∃ k < n, P k) ⟨k, hk, pk⟩, Finset.sum_eq_single k, ind_pos pk]
    · intro j hj hne
      exact ind_neg fun g => hne (h j (Finset.mem_range.1 hj) k hk g pk)
    · intro g
      exact absurd (Finset.mem_range.2 hk) g
  · rw [ind_neg e]
    exact Finset.sum_eq_zero fun k hk => ind_neg fun g => e ⟨k, Finset.mem_range.1 hk, g⟩

/-- Vertical segments are the steepest ones. -/
theorem vertical_steep {ε : ℚ} {h : Heap ShapedData} {c k : ℕ} (pc : (absSeg ε h c).a < (absSeg ε h c).b)
    (pk : (absSeg ε h k).a < (absSeg ε h k).b) (lc : h.start c < h.stop c) (lk : h.start k < h.stop k)
    (hv : h.isVertical c = true) : (absSeg ε h k).m ≤ (absSeg ε h c).m := by
  have hx : (h.start c).x = (h.stop c).x := by simpa [Heap.isVertical] using hv
  have e1 : sx ε (h.start c) < sx ε (h.stop c) := pc
  have e2 : sx ε (h.start k) < sx ε (h.stop k) := pk
  change ((h.stop k).y - (h.start k).y) / (sx ε (h.stop k) - sx ε (h.start k)) ≤
    ((h.stop c).y - (h.start c).y) / (sx ε (h.stop c) - sx ε (h.start c))
  rw [div_le_div_iff₀ (by linarith) (by linarith)]
  rw [Point.lt_def] at lc lk
  have dy : (h.start c).y < (h.stop c).y := by
    rcases lc with g | g
    · linarith
    · exact g.2
  have dx : (h.start k).x ≤ (h.stop k).x := by
    rcases lk with g | g
    · exact g.le
    · exact g.1.le
  unfold sx
  rw [hx]
  nlinarith [mul_nonneg (sub_nonneg.2 dx) (sub_nonneg.2 dy.le)]

end Sweep

variable {ε : ℚ} {Pt : List Point} {Y : ℚ → ℚ} {L F : List ℕ} {p : ℚ} {s : Store ShapedData} {Es : List Seg} {K : ℕ → Prop}

/-- numbers of selected events -/
def Chosen (s : Store ShapedData) (P : List ℕ) (K : ℕ → Prop) : Prop :=
  ∀ k, K k → k ∈ P ∧ (s.heap.lefts k).data.fromShapedResult = true

/-- a set of numbers has one which overlaps the given one -/
def HasHot (ε : ℚ) (h : Heap ShapedData) (K : ℕ → Prop) (i : ℕ) : Prop := ∃ k < h.count, K k ∧ Hot ε h k i

namespace Ended

variable (E : Ended ε Es Pt Y s L F p)
include E

theorem kpar_low {i : ℕ} (hi : i ∈ L ++ F) (hl : Low ε s.heap i) (hp : (absSeg ε s.heap i).a < p) :
    kpar (absSeg ε s.heap) s.heap.count K (absSeg ε s.heap i).a (absSeg ε s.heap i) =
      spar (absSeg ε s.heap) s.heap.count K (absSeg ε s.heap i).a (absSeg ε s.heap i) := by
  unfold kpar spar
  refine Finset.sum_congr rfl fun k hk => ind_congr ?_
  rw [Finset.mem_range] at hk
  exact ⟨fun h => ⟨h.1, h.2.1, E.low_bel hi hl hp hk h.2.1 h.2.2⟩, fun h => ⟨h.1, h.2.1, h.2.2.bel⟩⟩

/-- What is on the line of a segment at its start starts there. -/
theorem hot_of_act {i k : ℕ} (hi : i ∈ L ++ F) (hp : (absSeg ε s.heap i).a < p) (hk : k < s.heap.count)
    (ha : Act (absSeg ε s.heap i).a (absSeg ε s.heap k)) (hc : Col (absSeg ε s.heap k) (absSeg ε s.heap i)) :
    Hot ε s.heap k i := by
  refine ⟨hc, ?_⟩
  rcases ha.1.lt_or_eq with g | g
  · exact (E.pieces.uncut (E.pieces.vst i (E.st.inv'.bound i hi)) hp hk g ha.2 (hc.y _)).elim
  · exact g

theorem kpar_sel (hK : Chosen s (L ++ F) K) {i : ℕ} (hi : i ∈ L ++ F) (hp : (absSeg ε s.heap i).a < p)
    (hR : (s.heap.lefts i).data.fromShapedResult = true) :
    kpar (absSeg ε s.heap) s.heap.count K (absSeg ε s.heap i).a (absSeg ε s.heap i) =
      spar (absSeg ε s.heap) s.heap.count K (absSeg ε s.heap i).a (absSeg ε s.heap i) := by
  unfold kpar spar
  refine Finset.sum_congr rfl fun k hk => ind_congr ?_
  rw [Finset.mem_range] at hk
  refine ⟨fun h => ⟨h.1, h.2.1, ?_⟩, fun h => ⟨h.1, h.2.1, h.2.2.bel⟩⟩
  rcases h.2.2.sbel_or with g | ⟨hc, g1, g2⟩
  · exact g
  · exfalso
    have hh := E.hot_of_act hi hp hk h.2.1 hc
    obtain ⟨k1, k2⟩ := hK k h.1
    have := E.uni k k1 i hi k2 hR hh
    rw [this, g2] at g1
    cases g1

theorem hasHot_sel (hK : Chosen s (L ++ F) K) {i : ℕ} (hi : i ∈ L ++ F)
    (hR : (s.heap.lefts i).data.fromShapedResult = true) : HasHot ε s.heap K i ↔ K i := by
  constructor
  · rintro ⟨k, -, h1, h2⟩
    obtain ⟨k1, k2⟩ := hK k h1
    rwa [← E.uni k k1 i hi k2 hR h2]
  · intro h
    exact ⟨i, E.st.inv'.bound i hi, h, Col.refl _, rfl⟩

theorem sum_hot (hK : Chosen s (L ++ F) K) (i : ℕ) :
    ∑ k ∈ Finset.range s.heap.count, ind (K k ∧ Hot ε s.heap k i) = ind (HasHot ε s.heap K i) := by
  refine sum_one fun k _ k' _ h h' => ?_
  obtain ⟨k1, k2⟩ := hK k h.1
  obtain ⟨k1', k2'⟩ := hK k' h'.1
  exact E.uni k k1 k' k1' k2 k2' (Germ.trans h.2 (Germ.symm h'.2))

/-- Counting the upper one of overlapping segments. -/
theorem kpar_top (hK : Chosen s (L ++ F) K) {u : ℕ} (hu : u ∈ L ++ F) (ht : Top ε s.heap u)
    (hp : (absSeg ε s.heap u).a < p) :
    kpar (absSeg ε s.heap) s.heap.count K (absSeg ε s.heap u).a (absSeg ε s.heap u) + ind (K u) =
      spar (absSeg ε s.heap) s.heap.count K (absSeg ε s.heap u).a (absSeg ε s.heap u) + ind (HasHot ε s.heap K u) := by
  classical
  have I := E.st.inv'
  have hun := I.bound u hu
  rw [← E.sum_hot hK u]
  have e : ind (K u) = ∑ k ∈ Finset.range s.heap.count, ind (k = u ∧ K k) := by
    rw [sum_one fun k _ k' _ h h' => h.1.trans h'.1.symm]
    exact ind_congr ⟨fun h => ⟨u, hun, rfl, h⟩, fun ⟨k, _, h1, h2⟩ => h1 ▸ h2⟩
  rw [e]
  unfold kpar spar
  rw [← Finset.sum_add_distrib, ← Finset.sum_add_distrib]
  refine Finset.sum_congr rfl fun k hk => ?_
  rw [Finset.mem_range] at hk
  rw [← ind_or, ← ind_or]
  · apply ind_congr
    constructor
    · rintro (⟨h1, h2, h3⟩ | ⟨rfl, h⟩)
      · rcases h3.sbel_or with g | ⟨hc, -⟩
        · exact Or.inl ⟨h1, h2, g⟩
        · exact Or.inr ⟨h1, E.hot_of_act hu hp hk h2 hc⟩
      · exact Or.inr ⟨h, Col.refl _, rfl⟩
    · rintro (⟨h1, h2, h3⟩ | ⟨h1, h2⟩)
      · exact Or.inl ⟨h1, h2, h3.bel⟩
      · by_cases hne : k = u
        · exact Or.inr ⟨hne, h1⟩
        · left
          have uf := ht k hk hne h2
          have kf : (absSeg ε s.heap k).ff = true := by
            have : (absSeg ε s.heap k).ff ≠ (absSeg ε s.heap u).ff := E.st.hot_first hk hun hne h2
            rw [uf] at this; simpa using this
          refine ⟨h1, by rw [← h2.2]; exact ⟨le_rfl, I.proper k hk⟩, Or.inr ⟨h2.1.y _, Or.inr ⟨h2.1.1, kf, uf⟩⟩⟩
  · rintro ⟨⟨-, -, h⟩, -, hh⟩
    have := hh.1.y (absSeg ε s.heap u).a
    have := hh.1.1
    rcases h with h | ⟨-, h⟩ <;> linarith
  · rintro ⟨⟨-, -, h⟩, rfl, -⟩
    exact h.irrefl

theorem exists_top {i : ℕ} (hi : i ∈ L ++ F) : ∃ u ∈ L ++ F, Top ε s.heap u ∧ Hot ε s.heap u i := by
  by_cases h : Top ε s.heap i
  · exact ⟨i, hi, h, Col.refl _, rfl⟩
  · unfold Top at h
    push Not at h
    obtain ⟨k, hk, hne, hh, hf⟩ := h
    have hin := E.st.inv'.bound i hi
    have hkP := E.np i hi k hk hh.2
    refine ⟨k, hkP, fun _ _ _ _ => ?_, hh⟩
    have h1 : (absSeg ε s.heap k).ff ≠ (absSeg ε s.heap i).ff := E.st.hot_first hk hin hne hh
    cases h2 : (absSeg ε s.heap k).ff
    · rfl
    · cases h3 : (absSeg ε s.heap i).ff
      · exact absurd h3 hf
      · rw [h2, h3] at h1; exact absurd rfl h1

section touched

variable {l c : ℕ} (hl : l ∈ L ++ F) (hp : (absSeg ε s.heap l).a < p) (T : Touched Es (absSeg ε s.heap l))
include hl hp T

/-- What starts at a touched place is on the passing line or above the touched segment. -/
theorem starts_at {j : Seg} (hj : Thru Es (absSeg ε s.heap l).a ((absSeg ε s.heap l).y (absSeg ε s.heap l).a) j) {k : ℕ}
    (hk : k < s.heap.count) (ha : (absSeg ε s.heap k).a = (absSeg ε s.heap l).a) :
    Col (absSeg ε s.heap k) j ∨ ∃ e ∈ Es, e.a = (absSeg ε s.heap l).a ∧ Col (absSeg ε s.heap k) e ∧
      (absSeg ε s.heap l).m ≤ (absSeg ε s.heap k).m := by
  have I := E.st.inv'
  obtain ⟨e, he, e1, e2, e3⟩ := E.pieces.par k hk
  have pk := I.proper k hk
  rcases e2.lt_or_eq with g | g
  · left
    refine e1.trans (hj.all e he (by linarith) (by linarith) ?_).2
    rw [← e1.y, ← ha, (I.endsY k hk).1, ha, (I.endsY l (I.bound l hl)).1]
  · right
    refine ⟨e, he, g.trans ha, e1, ?_⟩
    rw [e1.1]
    exact T.least e he (g.trans ha)

/-- What ends at a touched place is on the passing line. -/
theorem stops_at {j : Seg} (hj : Thru Es (absSeg ε s.heap l).a ((absSeg ε s.heap l).y (absSeg ε s.heap l).a) j) {k : ℕ}
    (hk : k < s.heap.count) (h1 : (absSeg ε s.heap k).a < (absSeg ε s.heap l).a)
    (h2 : (absSeg ε s.heap l).a ≤ (absSeg ε s.heap k).b)
    (h3 : (absSeg ε s.heap k).y (absSeg ε s.heap l).a = (absSeg ε s.heap l).y (absSeg ε s.heap l).a) :
    Col (absSeg ε s.heap k) j ∧ (absSeg ε s.heap k).b = (absSeg ε s.heap l).a := by
  obtain ⟨e, he, e1, e2, e3⟩ := E.pieces.par k hk
  refine ⟨e1.trans (hj.all e he (by linarith) (by linarith) ((e1.y _).symm.trans h3)).2, ?_⟩
  rcases h2.lt_or_eq with g | g
  · exact (E.pieces.uncut (E.pieces.vst l (E.st.inv'.bound l hl)) hp hk h1 g h3).elim
  · exact g.symm

/-- The part of the passing edge after a touched place is next below. -/
theorem exists_under {j : Seg} (hj : Thru Es (absSeg ε s.heap l).a ((absSeg ε s.heap l).y (absSeg ε s.heap l).a) j)
    (hm : j.m < (absSeg ε s.heap l).m) : ∃ u ∈ L ++ F, Top ε s.heap u ∧ Under (absSeg ε s.heap) s.heap.count l u ∧
      Col (absSeg ε s.heap u) j ∧ (absSeg ε s.heap u).a = (absSeg ε s.heap l).a := by
  have I := E.st.inv'
  have hln := I.bound l hl
  obtain ⟨w, hw, w1, w2, -⟩ := E.pieces.aft j hj.mem _ ⟨hj.lo.le, hj.hi⟩
  have wa : (absSeg ε s.heap w).a = (absSeg ε s.heap l).a := by
    rcases w2.1.lt_or_eq with g | g
    · exact (E.pieces.uncut (E.pieces.vst l hln) hp hw g w2.2 ((w1.y _).trans hj.val)).elim
    · exact g
  obtain ⟨u, hu, ut, uh⟩ := E.exists_top (E.np l hl w hw wa)
  have hun := I.bound u hu
  have ua : (absSeg ε s.heap u).a = (absSeg ε s.heap l).a := uh.2.trans wa
  have uj : Col (absSeg ε s.heap u) j := uh.1.trans w1
  have um : (absSeg ε s.heap u).m = j.m := uj.1
  have uy : (absSeg ε s.heap u).y (absSeg ε s.heap l).a = (absSeg ε s.heap l).y (absSeg ε s.heap l).a :=
    (uj.y _).trans hj.val
  have pu := I.proper u hun
  refine ⟨u, hu, ut, ⟨⟨ua.le, by rw [← ua]; exact pu⟩, Or.inr ⟨uy, Or.inl (by rw [um]; exact hm)⟩, ?_⟩, uj, ua⟩
  intro k hk ka kb
  by_cases hku : k = u
  · exact Or.inl hku
  right
  have col : (absSeg ε s.heap k).y (absSeg ε s.heap l).a = (absSeg ε s.heap l).y (absSeg ε s.heap l).a →
      Col (absSeg ε s.heap k) (absSeg ε s.heap u) → Bel (absSeg ε s.heap l).a (absSeg ε s.heap k) (absSeg ε s.heap u) := by
    intro hy hc
    have hh : Hot ε s.heap k u := E.hot_of_act hu (by rw [ua]; exact hp) hk (by rw [ua]; exact ka) hc
    have uf := ut k hk hku hh
    have kf : (absSeg ε s.heap k).ff = true := by
      have : (absSeg ε s.heap k).ff ≠ (absSeg ε s.heap u).ff := E.st.hot_first hk hun hku hh
      rw [uf] at this; simpa using this
    exact Or.inr ⟨hc.y _, Or.inr ⟨hc.1, kf, uf⟩⟩
  rcases kb with h | ⟨h, h'⟩
  · left; rw [uy]; exact h
  · rcases ka.1.lt_or_eq with g | g
    · have := (E.stops_at hl hp T hj hk g ka.2.le h).1
      exact col h (this.trans uj.symm)
    · rcases E.starts_at hl hp T hj hk g with hc | ⟨e, he, -, -, hle⟩
      · exact col h (hc.trans uj.symm)
      · rcases h' with h' | ⟨h', h2⟩
        · linarith
        · have hne : k ≠ l := by
            rintro rfl
            rw [h2.1] at h2
            cases h2.2
          exact (E.nohot l hln T k hk hne ⟨col_of_slope h' h, g⟩).elim

/-- The parity below a passing edge does not change at a touched place. -/
theorem through (hd : ∀ x, kdeg (absSeg ε s.heap) s.heap.count K x = 0)
    {j : Seg} (hj : Thru Es (absSeg ε s.heap l).a ((absSeg ε s.heap l).y (absSeg ε s.heap l).a) j)
    (hm : j.m < (absSeg ε s.heap l).m) (hc : c < s.heap.count) (c1 : (absSeg ε s.heap c).a < (absSeg ε s.heap l).a)
    (c2 : (absSeg ε s.heap l).a ≤ (absSeg ε s.heap c).b) (cj : Col (absSeg ε s.heap c) j) :
    spar (absSeg ε s.heap) s.heap.count K (absSeg ε s.heap c).a (absSeg ε s.heap c) =
      spar (absSeg ε s.heap) s.heap.count K (absSeg ε s.heap l).a (absSeg ε s.heap c) := by
  have I := E.st.inv'
  set v := (absSeg ε s.heap l).a with hv
  have cy : (absSeg ε s.heap c).y v = (absSeg ε s.heap l).y v := (cj.y _).trans hj.val
  have sum : spar (absSeg ε s.heap) s.heap.count K (absSeg ε s.heap c).a (absSeg ε s.heap c) +
      spar (absSeg ε s.heap) s.heap.count K v (absSeg ε s.heap c) = 0 := by
    have hx := ksum_ends hd (fun x => (absSeg ε s.heap c).a < x ∧ x ≤ v ∧ Y x < (absSeg ε s.heap c).y x)
    unfold spar
    rw [← Finset.sum_add_distrib, ← hx]
    refine Finset.sum_congr rfl fun k hk => ?_
    rw [Finset.mem_range] at hk
    by_cases hf : K k
    swap
    · simp only [hf, false_and]
    simp only [hf, true_and]
    have pk := I.proper k hk
    have ek := I.endsY k hk
    by_cases hcol : Col (absSeg ε s.heap k) (absSeg ε s.heap c)
    · have e : ∀ x, ¬ SBel x (absSeg ε s.heap k) (absSeg ε s.heap c) := by
        intro x h
        have := hcol.y x
        have := hcol.1
        rcases h with h | ⟨-, h⟩ <;> linarith
      rw [ind_neg fun h => e _ h.2, ind_neg fun h => e _ h.2, ind_neg, ind_neg]
      · rintro ⟨-, -, h⟩
        rw [← ek.2, hcol.y] at h
        exact lt_irrefl _ h
      · rintro ⟨-, -, h⟩
        rw [← ek.1, hcol.y] at h
        exact lt_irrefl _ h
    · have key : ∀ c', (absSeg ε s.heap c).a < c' → c' < v → (absSeg ε s.heap k).a ≤ c' → c' ≤ (absSeg ε s.heap k).b →
          (absSeg ε s.heap k).y c' = (absSeg ε s.heap c).y c' → False := by
        intro c' h1 h2 h3 h4 h5
        rcases I.good k hk c hc c' (by linarith) ⟨h3, h4, h1.le, by linarith, h5⟩ with ⟨-, h | h⟩ | ⟨-, -, h'⟩
        · linarith
        · linarith
        · exact hcol h'
      have := edge_parity (j := { absSeg ε s.heap c with ff := true }) (k := absSeg ε s.heap k) c1.le pk
        (fun c' h1 h2 h3 h4 h5 => (key c' h1 h2 h3 h4 h5).elim)
        (fun hlt h1 h2 h3 => (E.pieces.uncut (E.pieces.vst l (I.bound l hl)) hp hk h1 h2 (h3.trans cy)).elim)
        (fun hlt h1 h2 => hcol ((E.stops_at hl hp T hj hk (by rw [← hv, ← h1]; exact pk) h1.ge (h2.trans cy)).1.trans cj.symm))
        (fun hlt h1 h2 hb => by
          rcases E.starts_at hl hp T hj hk h1 with g | ⟨-, -, -, -, g⟩
          · exact hcol (g.trans cj.symm)
          · rcases ((bel_true rfl).1 hb) with h | ⟨-, h⟩
            · have h2' : (absSeg ε s.heap k).y v = (absSeg ε s.heap c).y v := h2
              have h' : (absSeg ε s.heap k).y v < (absSeg ε s.heap c).y v := h
              linarith
            · have h' : (absSeg ε s.heap k).m < (absSeg ε s.heap c).m := h
              have := cj.1
              linarith)
      rw [ek.1, ek.2] at this
      have eq : ∀ x, ind (Act x (absSeg ε s.heap k) ∧ SBel x (absSeg ε s.heap k) (absSeg ε s.heap c)) =
          ind (Act x (absSeg ε s.heap k) ∧ Bel x (absSeg ε s.heap k) { absSeg ε s.heap c with ff := true }) :=
        fun x => ind_congr (and_congr_right fun _ => (bel_true (t := { absSeg ε s.heap c with ff := true }) rfl).symm)
      rw [eq, eq]
      exact this
  have h2 : spar (absSeg ε s.heap) s.heap.count K v (absSeg ε s.heap c) +
    spar (absSeg ε s.heap) s.heap.count K v (absSeg ε s.heap c) = 0 := CharTwo.add_self_eq_zero _
  linear_combination sum - h2

end touched

/-- number of segments of a set which start at the start of the given one and are not below it, modulo two -/
noncomputable def wedge (ε : ℚ) (h : Heap ShapedData) (K : ℕ → Prop) (l : ℕ) : ZMod 2 :=
  ∑ k ∈ Finset.range h.count, ind (K k ∧ (absSeg ε h k).a = (absSeg ε h l).a ∧ (absSeg ε h l).m ≤ (absSeg ε h k).m)

/-- Edges of a set which come to a touched place go on or turn there. -/
theorem bend (hK : Chosen s (L ++ F) K) (hd : ∀ x, kdeg (absSeg ε s.heap) s.heap.count K x = 0) {l c u : ℕ}
    (hl : l ∈ L ++ F) (hp : (absSeg ε s.heap l).a < p) (T : Touched Es (absSeg ε s.heap l))
    {j : Seg} (hj : Thru Es (absSeg ε s.heap l).a ((absSeg ε s.heap l).y (absSeg ε s.heap l).a) j)
    (hm : j.m < (absSeg ε s.heap l).m) (hc : c ∈ L ++ F)
    (c1 : (absSeg ε s.heap c).a < (absSeg ε s.heap l).a) (c2 : (absSeg ε s.heap l).a ≤ (absSeg ε s.heap c).b)
    (c3 : (absSeg ε s.heap c).y (absSeg ε s.heap l).a = (absSeg ε s.heap l).y (absSeg ε s.heap l).a)
    (uj : Col (absSeg ε s.heap u) j) (ua : (absSeg ε s.heap u).a = (absSeg ε s.heap l).a) :
    ind (HasHot ε s.heap K c) = ind (HasHot ε s.heap K u) + wedge ε s.heap K l := by
  have I := E.st.inv'
  have hcn := I.bound c hc
  have cj := E.stops_at hl hp T hj hcn c1 c2 c3
  have key : ∑ k ∈ Finset.range s.heap.count, ind (K k ∧ (absSeg ε s.heap k).a = (absSeg ε s.heap l).a) +
      ∑ k ∈ Finset.range s.heap.count, ind (K k ∧ (absSeg ε s.heap k).b = (absSeg ε s.heap l).a) = 0 := by
    rw [← Finset.sum_add_distrib]
    exact hd _
  have e1 : ∑ k ∈ Finset.range s.heap.count, ind (K k ∧ (absSeg ε s.heap k).b = (absSeg ε s.heap l).a) =
      ind (HasHot ε s.heap K c) := by
    rw [← E.sum_hot hK c]
    refine Finset.sum_congr rfl fun k hk => ind_congr (and_congr_right fun _ => ?_)
    rw [Finset.mem_range] at hk
    have pk := I.proper k hk
    constructor
    · intro h
      have yk : (absSeg ε s.heap k).y (absSeg ε s.heap l).a = (absSeg ε s.heap l).y (absSeg ε s.heap l).a := by
        rw [← h, (I.endsY k hk).2, h, (I.endsY l (I.bound l hl)).1]
      have kj := E.stops_at hl hp T hj hk (by linarith) h.ge yk
      refine ⟨kj.1.trans cj.1.symm, ?_⟩
      by_contra hne
      rcases lt_or_gt_of_ne hne with g | g
      · exact E.pieces.uncut (E.pieces.vst c hcn) (by linarith) hk g (by rw [kj.2]; exact c1)
          ((kj.1.trans cj.1.symm).y _)
      · exact E.pieces.uncut (E.pieces.vst k hk) (by linarith) hcn g (by rw [cj.2]; linarith)
          ((cj.1.trans kj.1.symm).y _)
    · rintro ⟨h1, h2⟩
      by_contra hne
      have lk : (absSeg ε s.heap k).a < (absSeg ε s.heap l).a := by rw [h2]; exact c1
      rcases lt_or_gt_of_ne hne with g | g
      · refine E.pieces.uncut (E.pieces.vsp k hk) (by linarith) hcn (by rw [← h2]; exact pk) (by rw [cj.2]; exact g) (h1.symm.y _)
      · exact E.pieces.uncut (E.pieces.vst l (I.bound l hl)) hp hk lk g ((h1.y _).trans c3)
  have e2 : ∑ k ∈ Finset.range s.heap.count, ind (K k ∧ (absSeg ε s.heap k).a = (absSeg ε s.heap l).a) =
      ind (HasHot ε s.heap K u) + wedge ε s.heap K l := by
    rw [← E.sum_hot hK u]
    unfold wedge
    rw [← Finset.sum_add_distrib]
    refine Finset.sum_congr rfl fun k hk => ?_
    rw [Finset.mem_range] at hk
    rw [← ind_or]
    · apply ind_congr
      constructor
      · rintro ⟨h1, h2⟩
        rcases E.starts_at hl hp T hj hk h2 with g | ⟨-, -, -, -, g⟩
        · exact Or.inl ⟨h1, g.trans uj.symm, h2.trans ua.symm⟩
        · exact Or.inr ⟨h1, h2, g⟩
      · rintro (⟨h1, h2⟩ | ⟨h1, h2, -⟩)
        · exact ⟨h1, h2.2.trans ua⟩
        · exact ⟨h1, h2⟩
    · rintro ⟨⟨-, h, -⟩, -, -, g⟩
      have := h.1
      have := uj.1
      linarith
  rw [e1, e2] at key
  have h2 : ind (HasHot ε s.heap K u) + wedge ε s.heap K l + (ind (HasHot ε s.heap K u) + wedge ε s.heap K l) = 0 :=
    CharTwo.add_self_eq_zero _
  linear_combination key - h2

/-- Sets of edges which do not turn at a touched place pass through it. -/
theorem straight (hK : Chosen s (L ++ F) K) (hd : ∀ x, kdeg (absSeg ε s.heap) s.heap.count K x = 0) {l c u : ℕ}
    (hl : l ∈ L ++ F) (hp : (absSeg ε s.heap l).a < p) (T : Touched Es (absSeg ε s.heap l))
    {j : Seg} (hj : Thru Es (absSeg ε s.heap l).a ((absSeg ε s.heap l).y (absSeg ε s.heap l).a) j)
    (hm : j.m < (absSeg ε s.heap l).m) (hw : wedge ε s.heap K l = 0) (hc : c ∈ L ++ F)
    (c1 : (absSeg ε s.heap c).a < (absSeg ε s.heap l).a) (c2 : (absSeg ε s.heap l).a ≤ (absSeg ε s.heap c).b)
    (c3 : (absSeg ε s.heap c).y (absSeg ε s.heap l).a = (absSeg ε s.heap l).y (absSeg ε s.heap l).a)
    (uj : Col (absSeg ε s.heap u) j) (ua : (absSeg ε s.heap u).a = (absSeg ε s.heap l).a) :
    ind (HasHot ε s.heap K c) = ind (HasHot ε s.heap K u) := by
  rw [E.bend hK hd hl hp T hj hm hc c1 c2 c3 uj ua, hw, add_zero]

/-- The parity told by the upper one of overlapping segments. -/
theorem top_parity (hK : Chosen s (L ++ F) K) {b l : ℕ} (hb : b ∈ L ++ F) (hp : (absSeg ε s.heap b).a < p)
    (ht : Top ε s.heap b) (hl : l ∈ L ++ F) (hlow : Low ε s.heap l) (hh : Hot ε s.heap l b)
    (hv : s.heap.isVertical b = false)
    (ih : (s.heap.lefts l).data.fromShapedResult = false →
      (Bw s.heap l = none → kpar (absSeg ε s.heap) s.heap.count K (absSeg ε s.heap l).a (absSeg ε s.heap l) = 0) ∧
      ∀ k, Bw s.heap l = some k → k ∈ L ++ F ∧
        kpar (absSeg ε s.heap) s.heap.count K (absSeg ε s.heap l).a (absSeg ε s.heap l) =
          kpar (absSeg ε s.heap) s.heap.count K (absSeg ε s.heap k).a (absSeg ε s.heap k) + ind (K k)) {X : ZMod 2}
    (hX : X = spar (absSeg ε s.heap) s.heap.count K (absSeg ε s.heap b).a (absSeg ε s.heap b) + ind (HasHot ε s.heap K b)) :
    (freshBw s.heap b = none → X = 0) ∧ ∀ k, freshBw s.heap b = some k → k ∈ L ++ F ∧
      X = kpar (absSeg ε s.heap) s.heap.count K (absSeg ε s.heap k).a (absSeg ε s.heap k) + ind (K k) := by
  have I := E.st.inv'
  rcases E.top_value hb hp ht hl hlow hh with ⟨k, hk, k1, k2, -, k4⟩ | ⟨h1, h2⟩
  · rw [k4]
    refine ⟨by simp, ?_⟩
    rintro k' ⟨⟩
    refine ⟨hk, ?_⟩
    rw [hX, E.kpar_sel hK hk (by rw [k1.2]; exact hp) k2, spar_congr k1.1.symm k1.2.symm]
    congr 1
    apply ind_congr
    rw [← E.hasHot_sel hK hk k2]
    exact exists_congr fun x => and_congr_right fun _ => and_congr_right fun _ =>
      ⟨fun h => Germ.trans h (Germ.symm k1), fun h => Germ.trans h k1⟩
  · have none : ∀ k ∈ L ++ F, Hot ε s.heap k b → (s.heap.lefts k).data.fromShapedResult = false := by
      intro k hk hkb
      cases hR : (s.heap.lefts k).data.fromShapedResult with
      | false => rfl
      | true =>
        have := E.st.vertical_hot (I.bound k hk) (I.bound b hb) hkb (h1 k hk hkb hR)
        rw [hv] at this; cases this
    have hno : ¬ HasHot ε s.heap K b := by
      rintro ⟨k, -, k1, k2⟩
      obtain ⟨k3, k4⟩ := hK k k1
      rw [none k k3 k2] at k4; cases k4
    rw [h2]
    rw [ind_neg hno, add_zero, spar_congr hh.1.symm hh.2.symm, ← E.kpar_low hl hlow (by rw [hh.2]; exact hp)] at hX
    rw [hX]
    exact ih (none l hl hh)

/-- The parity below an event is the parity above the event below it. -/
theorem chain (hK : Chosen s (L ++ F) K) (hd : ∀ x, kdeg (absSeg ε s.heap) s.heap.count K x = 0) (i₀ : ℕ)
    (hw : ∀ l ∈ L ++ F, (absSeg ε s.heap l).a < p → Touched Es (absSeg ε s.heap l) →
      ((s.heap.lefts l).data.fromShapedResult = false ∨ l = i₀) → wedge ε s.heap K l = 0)
    (l : ℕ) (hl : l ∈ L ++ F) (hlow : Low ε s.heap l) (hp : (absSeg ε s.heap l).a < p)
    (hs : (s.heap.lefts l).data.fromShapedResult = false ∨ l = i₀) :
    (Bw s.heap l = none → kpar (absSeg ε s.heap) s.heap.count K (absSeg ε s.heap l).a (absSeg ε s.heap l) = 0) ∧
    ∀ b, Bw s.heap l = some b → b ∈ L ++ F ∧
      kpar (absSeg ε s.heap) s.heap.count K (absSeg ε s.heap l).a (absSeg ε s.heap l) =
        kpar (absSeg ε s.heap) s.heap.count K (absSeg ε s.heap b).a (absSeg ε s.heap b) + ind (K b) := by
  classical
  have I := E.st.inv'
  induction hc : ((Finset.range s.heap.count).filter fun k => (absSeg ε s.heap k).a < (absSeg ε s.heap l).a ∨
      ((absSeg ε s.heap k).a = (absSeg ε s.heap l).a ∧ (absSeg ε s.heap k).m < (absSeg ε s.heap l).m)).card
      using Nat.strong_induction_on generalizing l with
  | _ N ih =>
    have hln := I.bound l hl
    -- the values of segments before
    have back : ∀ b ∈ L ++ F, ((absSeg ε s.heap b).a < (absSeg ε s.heap l).a ∨
        ((absSeg ε s.heap b).a = (absSeg ε s.heap l).a ∧ (absSeg ε s.heap b).m < (absSeg ε s.heap l).m)) →
        Top ε s.heap b → s.heap.isVertical b = false → ∀ {X : ZMod 2},
        X = spar (absSeg ε s.heap) s.heap.count K (absSeg ε s.heap b).a (absSeg ε s.heap b) + ind (HasHot ε s.heap K b) →
        (freshBw s.heap b = none → X = 0) ∧ ∀ k, freshBw s.heap b = some k → k ∈ L ++ F ∧
          X = kpar (absSeg ε s.heap) s.heap.count K (absSeg ε s.heap k).a (absSeg ε s.heap k) + ind (K k) := by
      intro b hb hlt tb vb X hX
      obtain ⟨r, hr1, hr2, hr3⟩ := E.exists_low hb
      have hbn := I.bound b hb
      have bp : (absSeg ε s.heap b).a < p := by rcases hlt with h | h <;> linarith
      have la : (absSeg ε s.heap r).a = (absSeg ε s.heap b).a := hr3.2
      have lm : (absSeg ε s.heap r).m = (absSeg ε s.heap b).m := hr3.1.1
      refine E.top_parity hK hb bp tb hr1 hr2 hr3 vb (fun hR => ?_) hX
      refine ih _ ?_ r hr1 hr2 (by rw [la]; exact bp) (Or.inl hR) rfl
      rw [← hc]
      apply Finset.card_lt_card
      rw [Finset.ssubset_iff_of_subset]
      · refine ⟨b, ?_, ?_⟩
        · simp only [Finset.mem_filter, Finset.mem_range]
          exact ⟨hbn, hlt⟩
        · simp only [Finset.mem_filter, not_and, la, lm]
          intro _
          push Not
          exact ⟨le_rfl, fun _ => le_rfl⟩
      · intro k hk
        simp only [Finset.mem_filter] at hk ⊢
        refine ⟨hk.1, ?_⟩
        have h2 := hk.2
        rw [la, lm] at h2
        rcases h2 with h2 | ⟨h2, h3⟩ <;> rcases hlt with h | ⟨h, h'⟩
        · exact Or.inl (by linarith)
        · exact Or.inl (by linarith)
        · exact Or.inl (by linarith)
        · exact Or.inr ⟨by linarith, by linarith⟩
    rcases E.sound l hl with ⟨-, h2, h3, -⟩ | ⟨⟨k, hk, k1, k2, k3⟩, -⟩ | ⟨T, c, hc1, c2, c3, c4, c5, -, c6⟩
    · rcases h3 with ⟨k, hk, k1, k2, -, -, -, k3⟩ | hlow' | ⟨b, hb, U, -, vb, e⟩
      · have := E.np l hl k hk k3
        simp [k1, k2] at this
      · rw [h2 hlow']
        refine ⟨fun _ => Finset.sum_eq_zero fun k hk => ind_neg ?_, by simp⟩
        rintro ⟨-, h1, h2⟩
        exact hlow' k (Finset.mem_range.1 hk) h1 h2
      · have hbn := I.bound b hb
        have sb := E.low_bel hl hlow hp hbn U.act U.bel
        have nv : s.heap.isVertical b = false := by
          by_contra hv
          have hh := vb (by simpa using hv)
          have e1 := hh.1.y (absSeg ε s.heap l).a
          have e2 := hh.1.1
          rcases sb with h | ⟨-, h⟩ <;> linarith
        have bp : (absSeg ε s.heap b).a < p := lt_of_le_of_lt U.act.1 hp
        have tb := E.under_top hl hlow hp hbn U
        rw [e]
        refine back b hb ?_ tb nv ?_
        · rcases U.act.1.lt_or_eq with h | h
          · exact Or.inl h
          · refine Or.inr ⟨h, ?_⟩
            have y1 := (I.endsY b hbn).1
            have y2 := (I.endsY l hln).1
            rw [h] at y1
            rcases sb with h' | ⟨-, h'⟩
            · rw [y1, y2] at h'; exact absurd h' (lt_irrefl _)
            · exact h'
        · rw [← E.kpar_top hK hb tb bp, U.kpar hbn, I.kpar_piece hd hbn U.act hp]
    · have := E.np l hl k hk k3.2
      simp [k1, k2] at this
    · obtain ⟨j, hj, hm⟩ := T.thru
      have hcn := I.bound c hc1
      have cj := E.stops_at hl hp T hj hcn c2 c3 c4
      obtain ⟨u, hu, ut, U, uj, ua⟩ := E.exists_under hl hp T hj hm
      have hun := I.bound u hu
      have nv : s.heap.isVertical c = false := by
        by_contra hv
        have lt : ∀ k < s.heap.count, s.heap.start k < s.heap.stop k := fun i hi =>
          (E.st.pts.ord.lt_iff (E.st.pts.mem i hi).1 (E.st.pts.mem i hi).2).2 (I.proper i hi)
        have := vertical_steep (I.proper c hcn) (I.proper l hln) (lt c hcn) (lt l hln) (by simpa using hv)
        have := cj.1.1
        linarith
      rw [c6]
      refine back c hc1 (Or.inl c2) c5 nv ?_
      rw [E.straight hK hd hl hp T hj hm (hw l hl hp T hs) hc1 c2 c3 c4 uj ua, E.through hl hp T hd hj hm hcn c2 c3 cj.1,
        U.kpar hun, spar_congr (cj.1.trans uj.symm) ua.symm, ← E.kpar_top hK hu ut (by rw [ua]; exact hp), ua]

/-- The parity below a selected event is the parity above the event below it. -/
theorem sel_parity (hK : Chosen s (L ++ F) K) (hd : ∀ x, kdeg (absSeg ε s.heap) s.heap.count K x = 0) {i : ℕ}
    (hw : ∀ l ∈ L ++ F, (absSeg ε s.heap l).a < p → Touched Es (absSeg ε s.heap l) →
      ((s.heap.lefts l).data.fromShapedResult = false ∨ l = i) → wedge ε s.heap K l = 0)
    (hi : i ∈ L ++ F) (hp : (absSeg ε s.heap i).a < p) (hR : (s.heap.lefts i).data.fromShapedResult = true) :
    (Bw s.heap i = none → kpar (absSeg ε s.heap) s.heap.count K (absSeg ε s.heap i).a (absSeg ε s.heap i) = 0) ∧
    ∀ b, Bw s.heap i = some b → b ∈ L ++ F ∧
      kpar (absSeg ε s.heap) s.heap.count K (absSeg ε s.heap i).a (absSeg ε s.heap i) =
        kpar (absSeg ε s.heap) s.heap.count K (absSeg ε s.heap b).a (absSeg ε s.heap b) + ind (K b) := by
  obtain ⟨l, hl1, hl2, hl3⟩ := E.exists_low hi
  have lp : (absSeg ε s.heap l).a < p := by rw [hl3.2]; exact hp
  rw [E.selected_value hi hp hR hl1 hl2 hl3, E.kpar_sel hK hi hp hR, spar_congr hl3.1.symm hl3.2.symm,
    ← E.kpar_low hl1 hl2 lp]
  refine E.chain hK hd i hw l hl1 hl2 lp ?_
  by_cases e : l = i
  · exact Or.inr e
  · left
    cases h : (s.heap.lefts l).data.fromShapedResult with
    | false => rfl
    | true => exact absurd (E.uni l hl1 i hi h hR hl3) e

end Ended

end Clipping

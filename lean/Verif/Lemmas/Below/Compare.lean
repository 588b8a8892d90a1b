import Verif.Lemmas.Below.StaleRun
import Verif.Lemmas.Below.Chain

/-!
# Events below of two sweeps over the same edges
-/

namespace Clipping

namespace Sweep

/-- Ends of segments and points where two of them cross. -/
def VertexSeg (Es : List Seg) (v y : ℚ) : Prop :=
  (∃ e ∈ Es, (v = e.a ∨ v = e.b) ∧ e.y v = y) ∨ ∃ e ∈ Es, ∃ f ∈ Es, ¬ Col e f ∧ Com e f v ∧ e.y v = y

theorem VertexSeg.perm {Es Es' : List Seg} (p : Es.Perm Es') {v y : ℚ} (h : VertexSeg Es v y) : VertexSeg Es' v y := by
  rcases h with ⟨e, he, h⟩ | ⟨e, he, f, hf, h⟩
  · exact Or.inl ⟨e, p.mem_iff.1 he, h⟩
  · exact Or.inr ⟨e, p.mem_iff.1 he, f, p.mem_iff.1 hf, h⟩

/-- Segments are parts of the given ones and are cut everywhere before `p`. -/
structure Pieces (Es : List Seg) (Y : ℚ → ℚ) (A : ℕ → Seg) (n : ℕ) (L F : List ℕ) (p : ℚ) : Prop where
  inv : Inv Y A n L F p NoEx
  par : ∀ i < n, ∃ e ∈ Es, Col (A i) e ∧ e.a ≤ (A i).a ∧ (A i).b ≤ e.b
  aft : ∀ e ∈ Es, ∀ c, Act c e → ∃ w < n, Col (A w) e ∧ Act c (A w) ∧ e.a ≤ (A w).a
  bef : ∀ e ∈ Es, ∀ c, e.a < c → c ≤ e.b → ∃ w < n, Col (A w) e ∧ (A w).a < c ∧ c ≤ (A w).b ∧ (A w).b ≤ e.b
  proper : ∀ e ∈ Es, e.a < e.b
  vst : ∀ i < n, VertexSeg Es (A i).a ((A i).y (A i).a)
  vsp : ∀ i < n, VertexSeg Es (A i).b ((A i).y (A i).b)

theorem col_of_y {s t : Seg} {c : ℚ} (hm : s.m = t.m) (hy : s.y c = t.y c) : Col s t := col_of_slope hm hy

/-- Segments of two families start at the same point on the same line. -/
def Germ (s t : Seg) : Prop := Col s t ∧ s.a = t.a

theorem Germ.symm {s t : Seg} (h : Germ s t) : Germ t s := ⟨h.1.symm, h.2.symm⟩

theorem Germ.trans {s t r : Seg} (h : Germ s t) (g : Germ t r) : Germ s r := ⟨h.1.trans g.1, h.2.trans g.2⟩

section pieces
variable {Es Es' : List Seg} {Y Y' : ℚ → ℚ} {A A' : ℕ → Seg} {n n' : ℕ} {L F L' F' : List ℕ} {p p' : ℚ}

/-- No segment passes through a vertex. -/
theorem Pieces.uncut (D : Pieces Es Y A n L F p) {v y : ℚ} (hv : VertexSeg Es v y) (hp : v < p) {i : ℕ} (hi : i < n)
    (h1 : (A i).a < v) (h2 : v < (A i).b) (hy : (A i).y v = y) : False := by
  have I := D.inv
  -- no segment ends here
  have ends : ∀ w < n, (A w).a ≤ v → v ≤ (A w).b → (A w).y v = y → IsEnd (A w) v → False := by
    intro w hw w1 w2 wy we
    rcases I.good i hi w hw v hp ⟨h1.le, h2.le, w1, w2, hy.trans wy.symm⟩ with ⟨h | h, -⟩ | ⟨-, h, -⟩
    · exact h1.ne' h
    · exact h2.ne h
    · rcases we with e | e
      · exact h.1.ne' e
      · exact h.2.ne e
  have inner : ∀ e ∈ Es, e.a ≤ v → v ≤ e.b → e.y v = y → ∃ w < n, Col (A w) e ∧ Inn (A w) v := by
    intro e he e1 e2 ey
    rcases e2.lt_or_eq with h | h
    · obtain ⟨w, hw, w1, w2, w3⟩ := D.aft e he v ⟨e1, h⟩
      refine ⟨w, hw, w1, lt_of_le_of_ne w2.1 fun e => ?_, w2.2⟩
      exact ends w hw w2.1 w2.2.le ((w1.y _).trans ey) (Or.inl e.symm)
    · exfalso
      obtain ⟨w, hw, w1, w2, w3, w4⟩ := D.bef e he v (by rw [h]; exact D.proper e he) e2
      exact ends w hw w2.le w3 ((w1.y _).trans ey) (Or.inr (by linarith))
  rcases hv with ⟨e, he, hev, ey⟩ | ⟨e, he, f, hf, hc, hm, ey⟩
  · have pe := D.proper e he
    have e1 : e.a ≤ v := by rcases hev with h | h <;> linarith
    have e2 : v ≤ e.b := by rcases hev with h | h <;> linarith
    rcases hev with h | h
    · obtain ⟨w, hw, w1, w2, w3⟩ := D.aft e he v ⟨e1, by linarith⟩
      exact ends w hw w2.1 w2.2.le ((w1.y _).trans ey) (Or.inl (by have := w2.1; linarith))
    · obtain ⟨w, hw, w1, w2, w3, w4⟩ := D.bef e he v (by linarith) e2
      exact ends w hw w2.le w3 ((w1.y _).trans ey) (Or.inr (by linarith))
  · obtain ⟨w, hw, w1, w2⟩ := inner e he hm.1 hm.2.1 ey
    obtain ⟨x, hx, x1, x2⟩ := inner f hf hm.2.2.1 hm.2.2.2.1 (hm.2.2.2.2.symm.trans ey)
    rcases I.good w hw x hx v hp ⟨w2.1.le, w2.2.le, x2.1.le, x2.2.le, by rw [w1.y, x1.y]; exact hm.2.2.2.2⟩ with
      ⟨h | h, -⟩ | ⟨-, -, h⟩
    · exact w2.1.ne' h
    · exact w2.2.ne h
    · exact hc (w1.symm.trans (h.trans x1))

variable (D : Pieces Es Y A n L F p) (D' : Pieces Es' Y' A' n' L' F' p') (P : Es.Perm Es')
include D D' P

/-- The segment of the second family which starts like the given one of the first one. -/
theorem Pieces.germ {i : ℕ} (hi : i < n) (hp : (A i).a < p') : ∃ j ∈ L' ++ F', Germ (A i) (A' j) := by
  obtain ⟨e, he, e1, e2, e3⟩ := D.par i hi
  have pi := D.inv.proper i hi
  obtain ⟨w, hw, w1, w2, w3⟩ := D'.aft e (P.mem_iff.1 he) (A i).a ⟨e2, by linarith⟩
  have hcol : Col (A i) (A' w) := e1.trans w1.symm
  have ha : (A' w).a = (A i).a := by
    refine le_antisymm w2.1 (not_lt.1 fun h => ?_)
    exact D'.uncut ((D.vst i hi).perm P) hp hw h w2.2 (hcol.symm.y _)
  refine ⟨w, ?_, hcol, ha.symm⟩
  by_contra h
  simp only [List.mem_append, not_or] at h
  have := D'.inv.wait w hw h.1 h.2
  linarith

/-- Collinear segments which come to the same place from the left have the same start. -/
theorem Pieces.germ_before {i j : ℕ} (hi : i < n) (hj : j < n') (hc : Col (A i) (A' j)) {v : ℚ} (h : v ≤ p) (h' : v ≤ p')
    (i1 : (A i).a < v) (i2 : v ≤ (A i).b) (j1 : (A' j).a < v) (j2 : v ≤ (A' j).b) : Germ (A i) (A' j) := by
  refine ⟨hc, ?_⟩
  rcases lt_trichotomy (A i).a (A' j).a with g | g | g
  · exact (D.uncut ((D'.vst j hj).perm P.symm) (by linarith) hi g (by linarith) (hc.y _)).elim
  · exact g
  · exact (D'.uncut ((D.vst i hi).perm P) (by linarith) hj g (by linarith) (hc.symm.y _)).elim

theorem Pieces.germ_after {i j : ℕ} (hi : i < n) (hj : j < n') (hc : Col (A i) (A' j)) {v : ℚ} (h : v < p) (h' : v < p')
    (i1 : Act v (A i)) (j1 : Act v (A' j)) : Germ (A i) (A' j) := by
  refine ⟨hc, ?_⟩
  obtain ⟨i1, i2⟩ := i1
  obtain ⟨j1, j2⟩ := j1
  rcases lt_trichotomy (A i).a (A' j).a with g | g | g
  · exact (D.uncut ((D'.vst j hj).perm P.symm) (by linarith) hi g (by linarith) (hc.y _)).elim
  · exact g
  · exact (D'.uncut ((D.vst i hi).perm P) (by linarith) hj g (by linarith) (hc.symm.y _)).elim

/-- A segment which starts like an active one is active. -/
theorem Pieces.germ_act {i j : ℕ} (hi : i < n) (hj : j < n') (g : Germ (A i) (A' j)) {v : ℚ} (h : v < p)
    (i1 : Act v (A i)) : Act v (A' j) := by
  refine ⟨by rw [← g.2]; exact i1.1, not_le.1 fun hlt => ?_⟩
  have pj := D'.inv.proper j hj
  have e := g.2
  exact D.uncut ((D'.vsp j hj).perm P.symm) (by linarith) hi (by linarith) (hlt.trans_lt i1.2) (g.1.y _)

end pieces

end Sweep

open Sweep

variable {ε : ℚ} {Pt Pt' : List Point} {Y Y' : ℚ → ℚ} {L F L' F' : List ℕ} {p p' : ℚ} {s s' : Store ShapedData} {Es Es' : List Seg}

/-- What is known at the end of a sweep. -/
structure Ended (ε : ℚ) (Es : List Seg) (Pt : List Point) (Y : ℚ → ℚ) (s : Store ShapedData) (L F : List ℕ) (p : ℚ) :
    Prop where
  st : St ε Pt Y s L F p NoEx
  pieces : Pieces Es Y (absSeg ε s.heap) s.heap.count L F p
  sound : ∀ i ∈ L ++ F, Sound ε Es s L F i
  nohot : ∀ i < s.heap.count, Touched Es (absSeg ε s.heap i) → ∀ k < s.heap.count, k ≠ i → ¬ Hot ε s.heap k i
  np : ∀ i ∈ L ++ F, ∀ k < s.heap.count, (absSeg ε s.heap k).a = (absSeg ε s.heap i).a → k ∈ L ++ F
  uni : ∀ i ∈ L ++ F, ∀ j ∈ L ++ F, (s.heap.lefts i).data.fromShapedResult = true →
    (s.heap.lefts j).data.fromShapedResult = true → Hot ε s.heap i j → i = j

/-- the lower one of overlapping segments -/
def Low (ε : ℚ) (h : Heap ShapedData) (i : ℕ) : Prop := ∀ k < h.count, k ≠ i → Hot ε h k i → (absSeg ε h i).ff = true

/-- the upper one of overlapping segments -/
def Top (ε : ℚ) (h : Heap ShapedData) (i : ℕ) : Prop := ∀ k < h.count, k ≠ i → Hot ε h k i → (absSeg ε h i).ff = false

/-- below in the plane -/
def SBel (c : ℚ) (s t : Seg) : Prop := s.y c < t.y c ∨ (s.y c = t.y c ∧ s.m < t.m)

theorem SBel.bel {c : ℚ} {s t : Seg} (h : SBel c s t) : Bel c s t := h.imp_right fun h => ⟨h.1, Or.inl h.2⟩

theorem SBel.congr {c : ℚ} {s t s' t' : Seg} (h : SBel c s t) (h1 : Col s s') (h2 : Col t t') : SBel c s' t' := by
  unfold SBel at *
  rw [← h1.y, ← h2.y, ← h1.1, ← h2.1]; exact h

theorem Sweep.Bel.sbel_or {c : ℚ} {s t : Seg} (h : Bel c s t) : SBel c s t ∨ (Col s t ∧ s.ff = true ∧ t.ff = false) := by
  rcases h with h | ⟨h, h' | ⟨h', h2⟩⟩
  · exact Or.inl (Or.inl h)
  · exact Or.inl (Or.inr ⟨h, h'⟩)
  · exact Or.inr ⟨col_of_slope h' h, h2⟩

theorem SBel.not_bel {c : ℚ} {s t : Seg} (h : SBel c s t) : ¬ Bel c t s := h.bel.asymm

namespace Ended

variable (E : Ended ε Es Pt Y s L F p)
include E

theorem exists_low {i : ℕ} (hi : i ∈ L ++ F) : ∃ l ∈ L ++ F, Low ε s.heap l ∧ Hot ε s.heap l i := by
  by_cases h : Low ε s.heap i
  · exact ⟨i, hi, h, Col.refl _, rfl⟩
  · unfold Low at h
    push Not at h
    obtain ⟨k, hk, hne, hh, hf⟩ := h
    have hin := E.st.inv'.bound i hi
    have hkP := E.np i hi k hk hh.2
    refine ⟨k, hkP, fun _ _ _ _ => ?_, hh⟩
    have h1 : (absSeg ε s.heap k).ff ≠ (absSeg ε s.heap i).ff := E.st.hot_first hk hin hne hh
    cases h2 : (absSeg ε s.heap k).ff
    · cases h3 : (absSeg ε s.heap i).ff
      · rw [h2, h3] at h1; exact absurd rfl h1
      · exact absurd h3 hf
    · rfl

/-- What is below the lower one of overlapping segments does not overlap it. -/
theorem low_bel {i b : ℕ} (hi : i ∈ L ++ F) (hl : Low ε s.heap i) (hp : (absSeg ε s.heap i).a < p) (hb : b < s.heap.count)
    (ha : Act (absSeg ε s.heap i).a (absSeg ε s.heap b))
    (h : Bel (absSeg ε s.heap i).a (absSeg ε s.heap b) (absSeg ε s.heap i)) :
    SBel (absSeg ε s.heap i).a (absSeg ε s.heap b) (absSeg ε s.heap i) := by
  rcases h.sbel_or with h' | ⟨hc, h1, h2⟩
  · exact h'
  exfalso
  have hin := E.st.inv'.bound i hi
  rcases ha.1.lt_or_eq with g | g
  · exact E.pieces.uncut (E.pieces.vst i hin) hp hb g ha.2 (hc.y _)
  · have := hl b hb (fun e => by rw [e, h2] at h1; cases h1) ⟨hc, g⟩
    rw [this] at h2; cases h2

/-- What is next below is the upper one of overlapping segments. -/
theorem under_top {i b : ℕ} (hi : i ∈ L ++ F) (hl : Low ε s.heap i) (hp : (absSeg ε s.heap i).a < p) (hb : b < s.heap.count)
    (U : Under (absSeg ε s.heap) s.heap.count i b) : Top ε s.heap b := by
  intro k hk hne hh
  by_contra hf
  have bff : (absSeg ε s.heap b).ff = true := by simpa using hf
  have kff : (absSeg ε s.heap k).ff = false := by
    have : (absSeg ε s.heap k).ff ≠ (absSeg ε s.heap b).ff := E.st.hot_first hk hb hne hh
    rw [bff] at this; simpa using this
  have sb := E.low_bel hi hl hp hb U.act U.bel
  have ka := E.pieces.germ_act E.pieces (List.Perm.refl _) hb hk hh.symm hp U.act
  have kb := sb.congr hh.1.symm (Col.refl _)
  rcases U.next k hk ka kb.bel with h | h
  · exact hne h
  · rcases h.sbel_or with h | ⟨-, h, -⟩
    · have := hh.1.y (absSeg ε s.heap i).a
      have := hh.1.1
      rcases h with h | ⟨-, h⟩ <;> linarith
    · rw [kff] at h; cases h

/-- The event below the upper one of two overlapping segments. -/
theorem upper {i l : ℕ} (hi : i ∈ L ++ F) (hp : (absSeg ε s.heap i).a < p) (hl : l ∈ L ++ F) (hlow : Low ε s.heap l)
    (hne : l ≠ i) (hh : Hot ε s.heap l i) : Bw s.heap i = freshBw s.heap l := by
  have I := E.st.inv'
  have hin := I.bound i hi
  have hln := I.bound l hl
  have lff : (absSeg ε s.heap l).ff = true := hlow i hin hne.symm hh.symm
  have iff' : (absSeg ε s.heap i).ff = false := by
    have : (absSeg ε s.heap l).ff ≠ (absSeg ε s.heap i).ff := E.st.hot_first hln hin hne hh
    rw [lff] at this
    cases h : (absSeg ε s.heap i).ff
    · rfl
    · rw [h] at this; exact absurd rfl this
  have pl := I.proper l hln
  have la : Act (absSeg ε s.heap i).a (absSeg ε s.heap l) := by rw [← hh.2]; exact ⟨le_rfl, pl⟩
  have lb : Bel (absSeg ε s.heap i).a (absSeg ε s.heap l) (absSeg ε s.heap i) :=
    Or.inr ⟨hh.1.y _, Or.inr ⟨hh.1.1, lff, iff'⟩⟩
  have nl : ¬ Lowest (absSeg ε s.heap) s.heap.count i := fun h => h l hln la lb
  rcases E.sound i hi with ⟨-, -, h, -⟩ | ⟨⟨k, hk, k1, k2, k3⟩, -⟩ | ⟨h, -⟩
  · rcases h with ⟨k, hk, k1, k2, -, -, -, k3⟩ | h | ⟨b, hb, U, -, -, e⟩
    · have := E.np i hi k hk k3
      simp [k1, k2] at this
    · exact absurd h nl
    · have hbn := I.bound b hb
      have : l = b := by
        rcases U.next l hln la lb with h | h
        · exact h
        exfalso
        have hy := hh.1.y (absSeg ε s.heap i).a
        have hm := hh.1.1
        have U1 := U.bel
        rcases h with h | ⟨h0, h | ⟨h3, -, h⟩⟩ <;> rcases U1 with g | ⟨g0, g | ⟨g3, g, -⟩⟩ <;>
          first | linarith | (rw [h] at g; cases g)
      rw [this]; exact e
  · have := E.np i hi k hk k3.2
    simp [k1, k2] at this
  · exact absurd hh (E.nohot i hin h l hln hne)

/-- The value taken from an upper segment. -/
theorem top_value {i l : ℕ} (hi : i ∈ L ++ F) (hp : (absSeg ε s.heap i).a < p) (ht : Top ε s.heap i) (hl : l ∈ L ++ F)
    (hlow : Low ε s.heap l) (hh : Hot ε s.heap l i) :
    (∃ k ∈ L ++ F, Hot ε s.heap k i ∧ (s.heap.lefts k).data.fromShapedResult = true ∧ s.heap.isVertical k = false ∧
      freshBw s.heap i = some k) ∨
    ((∀ k ∈ L ++ F, Hot ε s.heap k i → (s.heap.lefts k).data.fromShapedResult = true → s.heap.isVertical k = true) ∧
      freshBw s.heap i = Bw s.heap l) := by
  have I := E.st.inv'
  have hin := I.bound i hi
  have hln := I.bound l hl
  have two : ∀ k ∈ L ++ F, Hot ε s.heap k i → k = i ∨ k = l := by
    intro k hk h
    by_contra hne
    push Not at hne
    by_cases e : l = i
    · subst e
      have := hlow k (I.bound k hk) hne.1 h
      rw [ht k (I.bound k hk) hne.1 h] at this
      cases this
    · exact E.st.hot_three (I.bound k hk) hin hln hne.1 (Ne.symm e) hne.2 h hh.symm
  have key : ∀ k, ((s.heap.lefts k).data.fromShapedResult && !s.heap.isVertical k) = true ↔
      (s.heap.lefts k).data.fromShapedResult = true ∧ s.heap.isVertical k = false := by
    intro k
    cases (s.heap.lefts k).data.fromShapedResult <;> cases s.heap.isVertical k <;> simp
  have fb : ∀ k, ¬ ((s.heap.lefts k).data.fromShapedResult = true ∧ s.heap.isVertical k = false) → freshBw s.heap k = Bw s.heap k := by
    intro k hk
    unfold freshBw
    rw [if_neg (by rw [key]; exact hk)]
  by_cases hs : (s.heap.lefts i).data.fromShapedResult = true ∧ s.heap.isVertical i = false
  · left
    refine ⟨i, hi, ⟨Col.refl _, rfl⟩, hs.1, hs.2, ?_⟩
    unfold freshBw
    rw [if_pos ((key i).2 hs)]
  rw [fb i hs]
  by_cases e : l = i
  · subst e
    right
    refine ⟨fun k hk h hR => ?_, rfl⟩
    have : k = l := (two k hk h).elim id id
    subst this
    by_contra hv
    exact hs ⟨hR, by simpa using hv⟩
  · rw [E.upper hi hp hl hlow e hh]
    by_cases hs' : (s.heap.lefts l).data.fromShapedResult = true ∧ s.heap.isVertical l = false
    · left
      refine ⟨l, hl, hh, hs'.1, hs'.2, ?_⟩
      unfold freshBw
      rw [if_pos ((key l).2 hs')]
    · right
      refine ⟨fun k hk h hR => ?_, fb l hs'⟩
      by_contra hv
      rcases two k hk h with rfl | rfl
      · exact hs ⟨hR, by simpa using hv⟩
      · exact hs' ⟨hR, by simpa using hv⟩

/-- The event below of a selected event. -/
theorem selected_value {i l : ℕ} (hi : i ∈ L ++ F) (hp : (absSeg ε s.heap i).a < p)
    (hR : (s.heap.lefts i).data.fromShapedResult = true) (hl : l ∈ L ++ F) (hlow : Low ε s.heap l) (hh : Hot ε s.heap l i) :
    Bw s.heap i = Bw s.heap l := by
  by_cases e : l = i
  · rw [e]
  rw [E.upper hi hp hl hlow e hh]
  unfold freshBw
  rw [if_neg]
  intro h
  rw [Bool.and_eq_true] at h
  exact e (E.uni l hl i hi h.1 hR hh)

end Ended

/-- Selected events of the second sweep have the segments of selected events of the first one. -/
def SelSub (h h' : Heap ShapedData) (P P' : List ℕ) : Prop :=
  ∀ i ∈ P, (h.lefts i).data.fromShapedResult = true → ∃ j ∈ P', (h'.lefts j).data.fromShapedResult = true ∧
    h'.segment j = h.segment i

theorem absSeg_of_segment {h h' : Heap ShapedData} {i j : ℕ} (e : h'.segment j = h.segment i) :
    Germ (absSeg ε h' j) (absSeg ε h i) := by
  have e1 : h'.start j = h.start i := congrArg Segment.start e
  have e2 : h'.stop j = h.stop i := congrArg Segment.stop e
  unfold absSeg
  rw [e1, e2]
  exact ⟨⟨rfl, rfl⟩, rfl⟩

theorem isVertical_of_segment {h h' : Heap ShapedData} {i j : ℕ} (e : h'.segment j = h.segment i) :
    h'.isVertical j = h.isVertical i := by
  have e1 : h'.start j = h.start i := congrArg Segment.start e
  have e2 : h'.stop j = h.stop i := congrArg Segment.stop e
  unfold Heap.isVertical
  rw [e1, e2]

section compare
variable (E : Ended ε Es Pt Y s L F p) (E' : Ended ε Es' Pt' Y' s' L' F' p') (P : Es.Perm Es')
  (s1 : SelSub s.heap s'.heap (L ++ F) (L' ++ F')) (s2 : SelSub s'.heap s.heap (L' ++ F') (L ++ F))
include E E' P s1 s2

/-- Values taken from upper segments coincide if the ones of the lower segments do. -/
theorem Ended.value_eq {i i' l l' : ℕ} (hi : i ∈ L ++ F) (hp : (absSeg ε s.heap i).a < p) (ht : Top ε s.heap i) (hl : l ∈ L ++ F)
    (hlow : Low ε s.heap l) (hh : Hot ε s.heap l i) (hi' : i' ∈ L' ++ F') (hp' : (absSeg ε s'.heap i').a < p')
    (ht' : Top ε s'.heap i') (hl' : l' ∈ L' ++ F') (hlow' : Low ε s'.heap l') (hh' : Hot ε s'.heap l' i')
    (g : Germ (absSeg ε s.heap i) (absSeg ε s'.heap i'))
    (e : (Bw s.heap l).map s.heap.segment = (Bw s'.heap l').map s'.heap.segment) :
    (freshBw s.heap i).map s.heap.segment = (freshBw s'.heap i').map s'.heap.segment := by
  rcases E.top_value hi hp ht hl hlow hh with ⟨k, hk, k1, k2, k3, k4⟩ | ⟨h1, h2⟩
  · obtain ⟨j, hj, j1, j2⟩ := s1 k hk k2
    have gj : Hot ε s'.heap j i' := (absSeg_of_segment j2).trans (Germ.trans k1 g)
    rcases E'.top_value hi' hp' ht' hl' hlow' hh' with ⟨k', hk', k1', k2', k3', k4'⟩ | ⟨h1', -⟩
    · have : k' = j := E'.uni k' hk' j hj k2' j1 (Germ.trans k1' (Germ.symm gj))
      rw [k4, k4', this, Option.map_some, Option.map_some, j2]
    · have := h1' j hj gj j1
      rw [isVertical_of_segment j2, k3] at this
      cases this
  · rcases E'.top_value hi' hp' ht' hl' hlow' hh' with ⟨k', hk', k1', k2', k3', k4'⟩ | ⟨-, h2'⟩
    · obtain ⟨j, hj, j1, j2⟩ := s2 k' hk' k2'
      have gj : Hot ε s.heap j i := (absSeg_of_segment j2).trans (Germ.trans k1' (Germ.symm g))
      have := h1 j hj gj j1
      rw [isVertical_of_segment j2, k3'] at this
      cases this
    · rw [h2, h2', e]

/-- Events below of lower segments which start in the same way have the same segments. -/
theorem Ended.low_eq (i : ℕ) (hi : i ∈ L ++ F) (hl : Low ε s.heap i) (hp : (absSeg ε s.heap i).a < p) (i' : ℕ)
    (hi' : i' ∈ L' ++ F') (hl' : Low ε s'.heap i') (hp' : (absSeg ε s'.heap i').a < p')
    (g : Germ (absSeg ε s.heap i) (absSeg ε s'.heap i')) :
    (Bw s.heap i).map s.heap.segment = (Bw s'.heap i').map s'.heap.segment := by
  classical
  have I := E.st.inv'
  have I' := E'.st.inv'
  have D := E.pieces
  have D' := E'.pieces
  induction hc : ((Finset.range s.heap.count).filter fun k => (absSeg ε s.heap k).a < (absSeg ε s.heap i).a ∨
      ((absSeg ε s.heap k).a = (absSeg ε s.heap i).a ∧ (absSeg ε s.heap k).m < (absSeg ε s.heap i).m)).card
      using Nat.strong_induction_on generalizing i i' with
  | _ N ih =>
    have hin := I.bound i hi
    have hin' := I'.bound i' hi'
    set A := absSeg ε s.heap with hA
    set A' := absSeg ε s'.heap with hA'
    -- the values of segments before
    have back : ∀ b ∈ L ++ F, ∀ b' ∈ L' ++ F', ((A b).a < (A i).a ∨ ((A b).a = (A i).a ∧ (A b).m < (A i).m)) →
        Germ (A b) (A' b') → Top ε s.heap b → Top ε s'.heap b' →
        (freshBw s.heap b).map s.heap.segment = (freshBw s'.heap b').map s'.heap.segment := by
      intro b hb b' hb' hlt gb tb tb'
      obtain ⟨l, hl1, hl2, hl3⟩ := E.exists_low hb
      obtain ⟨l', hl1', hl2', hl3'⟩ := E'.exists_low hb'
      have hbn := I.bound b hb
      have bp : (A b).a < p := by rcases hlt with h | h <;> linarith
      have bp' : (A' b').a < p' := by
        have := gb.2
        have := g.2
        rcases hlt with h | h <;> linarith
      have la : (A l).a = (A b).a := hl3.2
      have la' : (A' l').a = (A' b').a := hl3'.2
      have lm : (A l).m = (A b).m := hl3.1.1
      refine Ended.value_eq E E' P s1 s2 hb bp tb hl1 hl2 hl3 hb' bp' tb' hl1' hl2' hl3' gb ?_
      refine ih _ ?_ l hl1 hl2 (by rw [la]; exact bp) l' hl1' hl2' (by rw [la']; exact bp')
        (Germ.trans hl3 (gb.trans (Germ.symm hl3'))) rfl
      rw [← hc]
      apply Finset.card_lt_card
      rw [Finset.ssubset_iff_of_subset]
      · refine ⟨b, ?_, ?_⟩
        · simp only [Finset.mem_filter, Finset.mem_range]
          exact ⟨hbn, hlt⟩
        · simp only [Finset.mem_filter, not_and, la, lm]
          intro _
          push Not
          exact ⟨le_rfl, fun _ => le_rfl⟩
      · intro k hk
        simp only [Finset.mem_filter] at hk ⊢
        refine ⟨hk.1, ?_⟩
        have h2 := hk.2
        rw [la, lm] at h2
        rcases h2 with h2 | ⟨h2, h3⟩ <;> rcases hlt with h | ⟨h, h'⟩
        · exact Or.inl (by linarith)
        · exact Or.inl (by linarith)
        · exact Or.inl (by linarith)
        · exact Or.inr ⟨by linarith, by linarith⟩
    have wait : ∀ k < s.heap.count, k ∉ L → k ∉ F → (A k).a = (A i).a → False := by
      intro k hk k1 k2 k3
      have := E.np i hi k hk k3
      simp [k1, k2] at this
    have wait' : ∀ k < s'.heap.count, k ∉ L' → k ∉ F' → (A' k).a = (A' i').a → False := by
      intro k hk k1 k2 k3
      have := E'.np i' hi' k hk k3
      simp [k1, k2] at this
    -- segments below
    have down : ∀ b < s.heap.count, Act (A i).a (A b) → SBel (A i).a (A b) (A i) →
        ∃ b' ∈ L' ++ F', Germ (A b) (A' b') ∧ Act (A' i').a (A' b') ∧ SBel (A' i').a (A' b') (A' i') := by
      intro b hb ha hs
      obtain ⟨b', hb', gb⟩ := D.germ D' P hb (by have := ha.1; have := g.2; linarith)
      refine ⟨b', hb', gb, ?_, ?_⟩
      · rw [← g.2]
        exact D.germ_act D' P hb (I'.bound b' hb') gb hp ha
      · rw [← g.2]
        exact hs.congr gb.1 g.1
    have down' : ∀ b < s'.heap.count, Act (A' i').a (A' b) → SBel (A' i').a (A' b) (A' i') →
        ∃ b' ∈ L ++ F, Germ (A' b) (A b') ∧ Act (A i).a (A b') ∧ SBel (A i).a (A b') (A i) := by
      intro b hb ha hs
      obtain ⟨b', hb', gb⟩ := D'.germ D P.symm hb (by have := ha.1; have := g.2; linarith)
      refine ⟨b', hb', gb, ?_, ?_⟩
      · rw [g.2]
        exact D'.germ_act D P.symm hb (I.bound b' hb') gb hp' ha
      · rw [g.2]
        exact hs.congr gb.1 g.1.symm
    rcases E.sound i hi with ⟨-, h2, h3, h4⟩ | ⟨⟨k, hk, k1, k2, k3⟩, -⟩ | ⟨h1, c, hc1, c2, c3, c4, c5, -, c6⟩
    · rcases E'.sound i' hi' with ⟨-, h2', h3', -⟩ | ⟨⟨k, hk, k1, k2, k3⟩, -⟩ | ⟨h1', -⟩
      · rcases h3 with ⟨k, hk, k1, k2, -, -, -, k3⟩ | hlow | ⟨b, hb, U, -, -, e⟩
        · exact (wait k hk k1 k2 k3).elim
        · rcases h3' with ⟨k, hk, k1, k2, -, -, -, k3⟩ | hlow' | ⟨b', hb', U', -, -, e'⟩
          · exact (wait' k hk k1 k2 k3).elim
          · rw [h2 hlow, h2' hlow']; rfl
          · exfalso
            have hb'n := I'.bound b' hb'
            obtain ⟨b, hb, gb, b1, b2⟩ := down' b' hb'n U'.act (E'.low_bel hi' hl' hp' hb'n U'.act U'.bel)
            exact hlow b (I.bound b hb) b1 b2.bel
        · have hbn := I.bound b hb
          have sb := E.low_bel hi hl hp hbn U.act U.bel
          obtain ⟨d, hd, gd, d1, d2⟩ := down b hbn U.act sb
          rcases h3' with ⟨k, hk, k1, k2, -, -, -, k3⟩ | hlow' | ⟨b', hb', U', -, -, e'⟩
          · exact (wait' k hk k1 k2 k3).elim
          · exact (hlow' d (I'.bound d hd) d1 d2.bel).elim
          · have hb'n := I'.bound b' hb'
            have sb' := E'.low_bel hi' hl' hp' hb'n U'.act U'.bel
            obtain ⟨x, hx, gx, x1, x2⟩ := down' b' hb'n U'.act sb'
            have gb : Germ (A b) (A' b') := by
              have hcol : Col (A' d) (A' b') := by
                rcases U'.next d (I'.bound d hd) d1 d2.bel with h | h
                · rw [h]; exact Col.refl _
                rcases h.sbel_or with h | h
                · exfalso
                  have : SBel (A i).a (A b) (A x) := by rw [g.2]; exact h.congr gd.1.symm gx.1
                  rcases U.next x (I.bound x hx) x1 x2.bel with h' | h'
                  · rw [h'] at this
                    exact this.bel.irrefl
                  · exact this.not_bel h'
                · exact h.1
              have ub := U'.act
              rw [← hA', ← g.2] at ub
              exact D.germ_after D' P hbn hb'n (gd.1.trans hcol) hp (by rw [g.2]; exact hp') U.act ub
            rw [e, e']
            refine back b hb b' hb' ?_ gb (E.under_top hi hl hp hbn U) (E'.under_top hi' hl' hp' hb'n U')
            rcases U.act.1.lt_or_eq with h | h
            · exact Or.inl h
            · refine Or.inr ⟨h, ?_⟩
              have y1 := (I.endsY b hbn).1
              have y2 := (I.endsY i hin).1
              rw [h] at y1
              rcases sb with h' | ⟨-, h'⟩
              · rw [y1, y2] at h'; exact absurd h' (lt_irrefl _)
              · exact h'
      · exact (wait' k hk k1 k2 k3.2).elim
      · exact absurd ((h1'.perm P.symm).congr g.1 g.2) h4
    · exact (wait k hk k1 k2 k3.2).elim
    · rcases E'.sound i' hi' with ⟨-, -, -, h4'⟩ | ⟨⟨k, hk, k1, k2, k3⟩, -⟩ | ⟨-, c', hc1', c2', c3', c4', c5', -, c6'⟩
      · exact absurd ((h1.perm P).congr g.1.symm g.2.symm) h4'
      · exact (wait' k hk k1 k2 k3.2).elim
      · obtain ⟨j, hj, -⟩ := h1.thru
        have hcn := I.bound c hc1
        have hcn' := I'.bound c' hc1'
        rw [← hA] at c2 c3 c4
        rw [← hA', ← g.2] at c2' c3' c4'
        have col1 : Col (A c) j := by
          obtain ⟨e, he, e1, e2, e3⟩ := D.par c hcn
          exact e1.trans (hj.all e he (by linarith) (by linarith) ((e1.y _).symm.trans c4)).2
        have col2 : Col (A' c') j := by
          obtain ⟨e, he, e1, e2, e3⟩ := D'.par c' hcn'
          refine e1.trans (hj.all e (P.mem_iff.2 he) (by linarith) (by linarith) ((e1.y _).symm.trans ?_)).2
          rw [c4', ← g.1.y]
        have gc : Germ (A c) (A' c') := D.germ_before D' P hcn hcn' (col1.trans col2.symm) hp.le (by rw [g.2]; exact hp'.le)
          c2 c3 c2' c3'
        rw [c6, c6']
        exact back c hc1 c' hc1' (Or.inl c2) gc c5 c5'

/-- Events below of selected events with the same segment have the same segments. -/
theorem Ended.below_eq {i i' : ℕ} (hi : i ∈ L ++ F) (hp : (absSeg ε s.heap i).a < p)
    (hR : (s.heap.lefts i).data.fromShapedResult = true) (hi' : i' ∈ L' ++ F') (hp' : (absSeg ε s'.heap i').a < p')
    (hR' : (s'.heap.lefts i').data.fromShapedResult = true) (e : s'.heap.segment i' = s.heap.segment i) :
    (Bw s.heap i).map s.heap.segment = (Bw s'.heap i').map s'.heap.segment := by
  obtain ⟨l, hl1, hl2, hl3⟩ := E.exists_low hi
  obtain ⟨l', hl1', hl2', hl3'⟩ := E'.exists_low hi'
  rw [E.selected_value hi hp hR hl1 hl2 hl3, E'.selected_value hi' hp' hR' hl1' hl2' hl3']
  refine Ended.low_eq E E' P s1 s2 l hl1 hl2 (by rw [hl3.2]; exact hp) l' hl1' hl2' (by rw [hl3'.2]; exact hp') ?_
  exact Germ.trans hl3 (Germ.trans (Germ.symm (absSeg_of_segment e)) (Germ.symm hl3'))

end compare

end Clipping

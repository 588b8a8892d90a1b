import Verif.Lemmas.Flags.Marks
import Verif.Lemmas.Below.End

/-!
# Marks of common edges at the end of the sweep
-/

namespace Clipping

open Sweep

theorem overlapKindOf_comm (a b : Bool) : overlapKindOf a b = overlapKindOf b a := by
  cases a <;> cases b <;> rfl

theorem shapedFlags_steady {O : Ops ShapedData} {rule : ShapedRule} (hO : IsShaped O rule) : (shapedFlags hO).Steady where
  keep l r := by
    show (O.overlap false l r).1.overlapKind = l.data.overlapKind ∧ (O.overlap false l r).2.overlapKind = r.data.overlapKind
    rw [hO.overlap]
    exact ⟨rfl, rfl⟩
  symm a b := overlapKindOf_comm a b

/-- What events of shaped operands know about common edges at the end of the sweep. -/
structure MarkedEnd (rule : ShapedRule) (h : Heap ShapedData) (events : List Ev) : Prop where
  /-- common edges are marked by the sides of the interiors of the operands -/
  mark : ∀ i ∈ finishedLefts h events, ∀ k < h.count, k ≠ i → h.segment k = h.segment i →
    (h.lefts i).data.overlapKind = overlapKindOf (h.lefts i).data.interiorToLeft (h.lefts k).data.interiorToLeft
  /-- other edges are not marked -/
  free : ∀ i < h.count, (∀ k < h.count, k ≠ i → h.segment k ≠ h.segment i) → (h.lefts i).data.overlapKind = .none
  /-- decisions agree with the marks -/
  res : ∀ i ∈ finishedLefts h events, (h.lefts i).data.fromShapedResult =
    rule (h.first i) (decisionData (h.lefts i).data.otherInteriorToLeft (h.lefts i).data.overlapKind)
  /-- if an edge of an operand is not finished, all edges of the other one are -/
  finall : ∀ o, ∀ i < h.count, h.first i = !o → i ∉ finishedLefts h events → ∀ k < h.count, h.first k = o →
    k ∈ finishedLefts h events

theorem shapedSweep_marked {O : Ops ShapedData} {rule : ShapedRule} (hO : IsShaped O rule) {op : Bool → Bool → Bool}
    {tb : TieBreak} {xmax : Option ℚ} {A B : List Segment} {h : Heap ShapedData} {events : List Ev}
    (hA : IsBoundary A) (hB : IsBoundary B) (hst : StopOk op xmax A B)
    (e : shapedSweep O tb xmax A B = .ok (h, events)) (E : ShapedEnd op h events (stopAt xmax) A B) :
    MarkedEnd rule h events := by
  classical
  have ok := operandsOk_marked hA.noOverlap hB.noOverlap
  obtain ⟨s, log, e', r, fin, nd, pr, hok, lm⟩ := sweep_final O ⟨false, false, .none, false, none⟩ tb
    (stopAt xmax) ok (stopAt_mono xmax)
  have hev : h = s.store.heap ∧ events = (log.reverse).map Prod.fst := by
    unfold shapedSweep at e
    rw [e'] at e
    simp only [Except.ok.injEq, Prod.mk.injEq] at e
    exact ⟨e.1.symm, e.2.symm⟩
  obtain ⟨rfl, hev⟩ := hev
  set h := s.store.heap with hh
  have ff := flags_final (shapedFlags hO) ok (stopAt_mono xmax) r rfl fin lm
  set F := (log.filterMap fun (e, i) => if Heap.isLeft e then none else some i).reverse with hF
  have eF : finishedLefts h events = F := by
    rw [hF, finishedLefts, hev, ← List.filterMap_reverse, List.filterMap_map]
    refine List.filterMap_congr fun x hx => ?_
    have := pr x (List.mem_reverse.1 hx)
    obtain ⟨x1, x2⟩ := x
    cases x1 with
    | left i => simp [Heap.isLeft]
    | right j => simp only [Heap.isLeft, Function.comp]; simp only [Heap.primary] at this; simp [this]
  have fr := fresh_init O.toPayload ⟨false, false, .none, false, none⟩ A B
  obtain ⟨ε, Y, p, -, S0, -⟩ := fr.stX ok []
  obtain ⟨F', p', S, l, M⟩ := marks_reach (shapedFlags_steady hO) (init := initState O.toPayload _ A B) S0 rfl (by
    intro k hk
    change k < (initStore _ _ A B).heap.count at hk
    rw [fr.count] at hk
    have := init_data O.toPayload ⟨false, false, .none, false, none⟩ A B k _ (List.getElem?_eq_getElem hk)
    refine ⟨?_, ?_⟩
    · exact (congrArg (shapedFlags hO).oth this).trans ((shapedFlags hO).create_oth _)
    · exact (congrArg (shapedFlags hO).mark this).trans ((shapedFlags hO).create_mark _)) r
  have hFF : F' = F := l.fin
  subst hFF
  have I := S.inv'
  -- overlapping segments which start at the same place are equal
  have hot_end : ∀ {k i : ℕ}, k ∈ F → i < s.store.heap.count →
      Hot ε s.store.heap k i → s.store.heap.segment k = s.store.heap.segment i ∧ i ∈ F := by
    intro k i hk hi hh
    have pk := I.proper k (fin.bound k hk)
    have pi := I.proper i hi
    rcases fin.pair k hk i hi with g | g
    · exact g
    · exfalso
      set b := min (absSeg ε s.store.heap k).b (absSeg ε s.store.heap i).b with hb
      have hab : (absSeg ε s.store.heap k).a < b := by
        rw [hb, lt_min_iff]
        exact ⟨pk, by rw [hh.2]; exact pi⟩
      have hbk : b ≤ (absSeg ε s.store.heap k).b := min_le_left _ _
      have hbi : b ≤ (absSeg ε s.store.heap i).b := min_le_right _ _
      set c := ((absSeg ε s.store.heap k).a + b) / 2 with hc
      have c1 : (absSeg ε s.store.heap k).a < c := by rw [hc]; linarith
      have c2 : c < b := by rw [hc]; linarith
      have com : Com (absSeg ε s.store.heap k) (absSeg ε s.store.heap i) c :=
        ⟨c1.le, by linarith, by rw [← hh.2]; exact c1.le, by linarith, hh.1.y c⟩
      obtain ⟨q, q1, q2, q3⟩ := (com_seg pk pi).1 com
      rcases (g q q1 q2).1 with e | e
      · have : sx ε q = (absSeg ε s.store.heap k).a := by rw [e]; rfl
        linarith
      · have : sx ε q = (absSeg ε s.store.heap k).b := by rw [e]; rfl
        linarith
  have finall : ∀ o, ∀ i < h.count, h.first i = !o → i ∉ F → ∀ k < h.count, h.first k = o → k ∈ F := by
    intro o i hi hf hiF k hk hko
    have := (fin.done i hi).not.1 hiF
    obtain ⟨xm, e1, e2⟩ : ∃ xm, xmax = some xm ∧ xm < (h.stop i).x := by
      unfold stopAt at this
      cases xmax with
      | none => simp at this
      | some xm => exact ⟨xm, rfl, by simpa using this⟩
    have mem : ∀ o, ∀ i < h.count, h.first i = o → h.stop i ∈ segsPts (operand A B o) := by
      intro o i hi hf
      have : h.stop i ∈ (h.segment i).pts := Segment.stop_mem _
      cases o
      · exact fin.mem_right.2 ⟨i, hi, hf, this⟩
      · exact fin.mem_left.2 ⟨i, hi, hf, this⟩
    have m1 := mem _ i hi hf
    have m2 := mem _ k hk hko
    obtain ⟨h1, h2⟩ := hst xm e1
    rw [fin.done k hk, e1]
    unfold stopAt
    have : (h.stop k).x ≤ xm := by
      cases o
      · rcases h1 with g | g
        · exact absurd (g _ m1) (not_le.2 e2)
        · exact g.1 _ m2
      · rcases h2 with g | g
        · exact absurd (g _ m1) (not_le.2 e2)
        · exact g.1 _ m2
    simpa using this
  have equal_hot : ∀ {i k : ℕ}, h.segment k = h.segment i → Hot ε h i k := by
    intro i k e
    have e1 : h.start k = h.start i := congrArg Segment.start e
    have e2 : h.stop k = h.stop i := congrArg Segment.stop e
    refine ⟨?_, ?_⟩
    · unfold absSeg
      rw [e1, e2]
      exact ⟨rfl, rfl⟩
    · rw [abs_a, abs_a, e1]
  have twinF : ∀ i ∈ F, ∀ k < h.count, h.segment k = h.segment i → k ∈ F := by
    intro i hi k hk hs
    have e2 : h.stop k = h.stop i := congrArg Segment.stop hs
    rw [fin.done k hk, e2, ← fin.done i (fin.bound i hi)]; exact hi
  have mark : ∀ i ∈ F, ∀ k < h.count, k ≠ i → h.segment k = h.segment i →
      (h.lefts i).data.overlapKind = overlapKindOf (h.lefts i).data.interiorToLeft (h.lefts k).data.interiorToLeft := by
    intro i hi k hk hki hs
    have hkF := twinF i hi k hk hs
    exact M.hit i k (by simp [hi]) (by simp [hkF]) hki.symm (equal_hot hs) (by simp)
  have free : ∀ i < h.count, (∀ k < h.count, k ≠ i → h.segment k ≠ h.segment i) →
      (h.lefts i).data.overlapKind = .none := by
    intro i hi hno
    refine M.miss i hi ?_
    intro hiW k hkW hki hot
    have hkn := M.bound k hkW
    have nf := S.hot_first hi hkn hki.symm hot
    have : i ∈ F := by
      by_contra hiF
      have hkF := finall (h.first k) i hi (by
        revert nf
        show h.first i ≠ h.first k → _
        cases h.first i <;> cases h.first k <;> simp) hiF k hkn rfl
      exact hiF (hot_end hkF hi hot.symm).2
    exact hno k hkn hki (hot_end this hkn hot).1.symm
  refine ⟨?_, free, ?_, ?_⟩
  · rw [eF]; exact mark
  · rw [eF]
    intro i hi
    rcases ff.res i hi with ⟨k, hk, hki, hs, hr⟩ | ⟨hn, hr⟩
    · refine Eq.trans (b := rule (h.first i) (decisionData (h.lefts i).data.otherInteriorToLeft
        ((shapedFlags hO).pairKind h i k))) hr ?_
      rw [mark i hi k (fin.bound k hk) hki hs]
      unfold Flags.pairKind
      split
      · rfl
      · rw [overlapKindOf_comm]; rfl
    · rw [free i (fin.bound i hi) hn]; exact hr
  · rw [eF]; exact finall

end Clipping

import Verif.Lemmas.Below.Through
import Verif.Spec.Touch

/-!
# Touched places where two edges end
-/

namespace Clipping

open Sweep

/-- Indices of elements with a property. -/
theorem card_le_countP {β : Type} (l : List β) (P : β → Bool) (T : Finset ℕ)
    (h : ∀ k ∈ T, ∃ x, l[k]? = some x ∧ P x = true) : T.card ≤ l.countP P := by
  classical
  induction l generalizing T with
  | nil =>
    have : T = ∅ := by
      rw [Finset.eq_empty_iff_forall_notMem]
      intro k hk
      obtain ⟨x, hx, -⟩ := h k hk
      simp at hx
    simp [this]
  | cons a l ih =>
    have e : (T.erase 0).card ≤ l.countP P := by
      have c : ((T.erase 0).image Nat.pred).card = (T.erase 0).card := by
        apply Finset.card_image_of_injOn
        intro x hx y hy hxy
        have h1 := (Finset.mem_erase.1 hx).1
        have h2 := (Finset.mem_erase.1 hy).1
        exact Nat.pred_inj (Nat.pos_of_ne_zero h1) (Nat.pos_of_ne_zero h2) hxy
      rw [← c]
      apply ih
      intro k hk
      obtain ⟨k', hk', rfl⟩ := Finset.mem_image.1 hk
      obtain ⟨h1, h2⟩ := Finset.mem_erase.1 hk'
      obtain ⟨x, hx, hP⟩ := h k' h2
      obtain ⟨n, rfl⟩ := Nat.exists_eq_succ_of_ne_zero h1
      exact ⟨x, by simpa using hx, hP⟩
    rw [List.countP_cons]
    by_cases h0 : 0 ∈ T
    · obtain ⟨x, hx, hP⟩ := h 0 h0
      have hx' : a = x := by simpa using hx
      subst hx'
      rw [if_pos hP, ← Finset.card_erase_add_one h0]
      omega
    · rw [Finset.erase_eq_of_notMem h0] at e
      omega

theorem countP_lo_le (E : List Segment) (q : Point) : E.countP (fun e => decide (e.lo = q)) ≤ degree E q := by
  induction E with
  | nil => simp [degree]
  | cons e E ih =>
    unfold degree at ih ⊢
    rw [List.countP_cons, List.countP_cons, List.countP_cons]
    rcases Segment.lo_hi_cases e with ⟨h, -⟩ | ⟨h, -⟩ <;> rw [h]
    · by_cases e1 : e.start = q <;> by_cases e2 : e.stop = q <;> simp [e1, e2] <;> omega
    · by_cases e1 : e.start = q <;> by_cases e2 : e.stop = q <;> simp [e1, e2] <;> omega

/-- Few edges end at touched places. -/
theorem FewTouch.degree {ε : ℚ} {E : List Segment} (N : FewTouch E) (pr : ∀ t ∈ E, t.Proper) (ho : Orders ε (points E))
    {s : Seg} (T : Touched (E.map (normSeg ε)) s) {e : Segment} (he : e ∈ E) (ha : sx ε e.lo = s.a) (hy : e.lo.y = s.y s.a) :
    degree E e.lo ≤ 2 := by
  have lt : ∀ t ∈ E, sx ε t.lo < sx ε t.hi := fun t ht =>
    ho _ (mem_points_end ht).1 _ (mem_points_end ht).2 (lo_lt_hi (pr t ht))
  obtain ⟨j, hj, hm⟩ := T.thru
  obtain ⟨u, hu, rfl⟩ := List.mem_map.1 hj.mem
  have e1 : sx ε u.lo < s.a := hj.lo
  have e2 : s.a < sx ε u.hi := hj.hi
  refine (N e he e.lo ((Segment.isEnd_iff ..).2 (Or.inl rfl)) u hu ?_ ?_).resolve_left ?_
  · rw [mem_normSeg (lt u hu), ha]
    exact ⟨hj.lo.le, hj.hi.le, hj.val.trans hy.symm⟩
  · rw [Segment.isEnd_iff]
    rintro (h | h)
    · rw [← h, ha] at e1
      exact lt_irrefl _ e1
    · rw [← h, ha] at e2
      exact lt_irrefl _ e2
  · rintro ⟨f, hf, f1, f2, f3⟩
    rw [mem_normSeg (lt f hf), ha] at f1
    have hc := (hj.all _ (List.mem_map_of_mem hf) (by
      rw [← ha]
      exact ho _ (mem_points_end hf).1 _ (mem_points_end he).1 f2) f1.2.1 (f1.2.2.trans hy)).2
    have h0 : cross u.lo u.hi f.lo = 0 := by
      rw [cross_zero_iff (lt u hu) (ff := true)]
      refine (hc.y _).symm.trans ?_
      exact seg_y_start
    apply f3
    rcases Segment.lo_hi_cases u with ⟨h1, h2, -⟩ | ⟨h1, h2, -⟩ <;> rw [h1, h2] at h0
    · exact h0
    · unfold cross at h0 ⊢
      linear_combination (-1) * h0

variable {rule : ShapedRule} {op : Bool → Bool → Bool} {tb : TieBreak} {xmax : Option ℚ} {A B : List Segment}
  {h : Heap ShapedData} {events : List Ev}

/-- The only segments above a place touched are `l` and `w`, and they are both selected or both not. -/
structure Twins (ε : ℚ) (h : Heap ShapedData) (l w : ℕ) : Prop where
  lt : w < h.count
  ne : w ≠ l
  start : (absSeg ε h w).a = (absSeg ε h l).a
  only : ∀ k < h.count, (absSeg ε h k).a = (absSeg ε h l).a → (absSeg ε h l).m ≤ (absSeg ε h k).m → k = l ∨ k = w
  slope : (absSeg ε h l).m ≤ (absSeg ε h w).m
  same : (h.lefts w).data.fromShapedResult = (h.lefts l).data.fromShapedResult

/-- The end of a sweep over edges few of which end at touched places. -/
theorem holey_twins (hr : RuleOk rule) (hA : IsBoundary A) (hB : IsBoundary B) (N : FewTouch (A ++ B))
    (e : shapedSweep (holeyOps rule) tb xmax A B = .ok (h, events))
    (E : ShapedEnd op h events (stopAt xmax) A B) {ε : ℚ} {X : List Point} (ho : Orders ε (points (A ++ B) ++ X))
    (hX : ∀ q ∈ points (A ++ B), ∀ q' ∈ points (A ++ B), middle q q' ∈ X) :
    ∃ (Y : ℚ → ℚ) (s : Store ShapedData) (L F : List ℕ) (p : ℚ), h = s.heap ∧
      Ended ε ((A ++ B).map (normSeg ε)) (points (A ++ B)) Y s L F p ∧ (∀ k, k ∈ L ++ F ↔ Ev.left k ∈ events) ∧
      (∀ k, Ev.left k ∈ events.filter (fromResult h) → (absSeg ε h k).b ≤ p) ∧
      ∀ l ∈ L ++ F, (absSeg ε h l).a < p → Touched ((A ++ B).map (normSeg ε)) (absSeg ε h l) → ∃ w, Twins ε h l w := by
  classical
  obtain ⟨Y, s, L, F, p, rfl, D, mem, fin, p₀, log, S0, R, r, lg⟩ := holey_ended_run hr hA hB e E
    (orders_sub ho fun q hq => by simp [hq])
  refine ⟨Y, s, L, F, p, rfl, D, mem, fin, ?_⟩
  intro l hl hp T
  have fr := fresh_init (holeyOps rule).toPayload ⟨false, false, .none, false, none⟩ A B
  set s₀ := initStore (holeyOps rule).toPayload ⟨false, false, .none, false, none⟩ A B with hs₀
  set fl := shapedFlags (isShaped_holey hr) with hfl
  have bd : ∀ o, IsBoundary (operand A B o) := by
    intro o; cases o
    · exact hB
    · exact hA
  have hD : ∀ k < s₀.heap.count, fl.X s₀.heap k = false ∧ fl.K s₀.heap k = fl.none := by
    intro k hk
    rw [fr.count] at hk
    unfold Flags.X Flags.K
    rw [init_data (holeyOps rule).toPayload _ A B k _ (List.getElem?_eq_getElem hk)]
    exact ⟨fl.create_oth _, fl.create_mark _⟩
  have reg : ∀ o, RegionOk fl ε o s₀ := fun o => region_init fl S0 ho hX (bd o)
  obtain ⟨F', p', -, lg', DI, -, side⟩ := flags_reach (f := fl)
    (init := initState (holeyOps rule).toPayload ⟨false, false, .none, false, none⟩ A B) S0 rfl hD r
  have hFF : F' = F := lg'.fin.trans lg.fin.symm
  rw [hFF] at DI side
  have I := D.st.inv'
  have I₀ := S0.inv'
  have hln := I.bound l hl
  have eo : origs ε s₀.heap = (A ++ B).map (normSeg ε) := origs_init ..
  have T' := T
  rw [← eo] at T'
  have hl₀ := T'.orig S0 D.st R hln
  obtain ⟨j, hj, hm⟩ := T.thru
  have inEs : ∀ k < s₀.heap.count, { absSeg ε s₀.heap k with ff := true } ∈ (A ++ B).map (normSeg ε) := by
    intro k hk
    rw [← eo]
    exact mem_origs hk
  have yl : (absSeg ε s.heap l).y (absSeg ε s.heap l).a = Y (absSeg ε s.heap l).a := (I.endsY l hln).1
  -- what starts here has not been cut off
  have old : ∀ k < s.heap.count, (absSeg ε s.heap k).a = (absSeg ε s.heap l).a →
      (absSeg ε s.heap l).m ≤ (absSeg ε s.heap k).m → k < s₀.heap.count := by
    intro k hk ka km
    by_contra hn
    obtain ⟨x, hx, x1, -, x2, x3⟩ := R.tail S0 D.st hk (not_lt.1 hn)
    have pk := I.proper k hk
    have := (hj.all _ (inEs x hx) (by rw [← ka]; exact x2) (by rw [← ka]; exact (pk.trans_le x3).le) (by
      refine (x1.y _).symm.trans ?_
      rw [← ka, (I.endsY k hk).1, ka, yl])).2
    have h1 := x1.1
    have h2 : (absSeg ε s₀.heap x).m = j.m := this.1
    linarith
  have young : ∀ k < s₀.heap.count, (absSeg ε s₀.heap k).a = (absSeg ε s.heap l).a → k < s.heap.count ∧
      (absSeg ε s.heap k).a = (absSeg ε s.heap l).a ∧ (absSeg ε s.heap l).m ≤ (absSeg ε s.heap k).m := by
    intro k hk ka
    obtain ⟨k1, -, k2⟩ := R.abs k hk
    refine ⟨lt_of_lt_of_le hk R.count, k2.trans ka, ?_⟩
    rw [k1.1]
    exact T.least { absSeg ε s₀.heap k with ff := true } (inEs k hk) ka
  -- at most two edges
  have hlm : l < (marked A B).length := by rw [← fr.count]; exact hl₀
  have gl := fr.get l _ (List.getElem?_eq_getElem hlm)
  have la : (absSeg ε s₀.heap l).a = (absSeg ε s.heap l).a := (R.abs l hl₀).2.2.symm
  have few : degree (A ++ B) (s₀.heap.start l) ≤ 2 := by
    rw [gl.1]
    have hmem : ((marked A B)[l]).1 ∈ A ++ B := by
      have := List.mem_map_of_mem (f := Prod.fst) (List.getElem_mem hlm)
      rwa [marked_fst] at this
    refine N.degree ?_ (orders_sub ho fun q hq => by simp [hq]) T hmem ?_ ?_
    · intro t ht
      rcases List.mem_append.1 ht with h | h
      · exact hA.noOverlap.1 t h
      · exact hB.noOverlap.1 t h
    · rw [← gl.1]; exact la
    · rw [← gl.1, yl, ← la]
      exact (abs_ya (ε := ε) l).symm.trans (I₀.endsY l hl₀).1
  have three : ∀ a < s₀.heap.count, ∀ b < s₀.heap.count, (absSeg ε s₀.heap a).a = (absSeg ε s.heap l).a →
      (absSeg ε s₀.heap b).a = (absSeg ε s.heap l).a → a ≠ l → b ≠ l → a = b := by
    intro a ha b hb aa ba al bl
    by_contra hne
    have hc : ({l, a, b} : Finset ℕ).card = 3 := by
      rw [Finset.card_insert_of_notMem (by simp [al.symm, bl.symm]), Finset.card_pair hne]
    have hst : ∀ k < s₀.heap.count, (absSeg ε s₀.heap k).a = (absSeg ε s.heap l).a → s₀.heap.start k = s₀.heap.start l := by
      intro k hk ka
      exact (S0.pts.ord.eq_iff (S0.pts.mem k hk).1 (S0.pts.mem l hl₀).1).2 (ka.trans la.symm)
    have := card_le_countP ((marked A B).map Prod.fst) (fun e => decide (e.lo = s₀.heap.start l)) {l, a, b} (by
      intro k hk
      have hk2 : k < s₀.heap.count ∧ s₀.heap.start k = s₀.heap.start l := by
        rw [Finset.mem_insert, Finset.mem_insert, Finset.mem_singleton] at hk
        rcases hk with rfl | rfl | rfl
        · exact ⟨hl₀, rfl⟩
        · exact ⟨ha, hst _ ha aa⟩
        · exact ⟨hb, hst _ hb ba⟩
      have hkm : k < (marked A B).length := by rw [← fr.count]; exact hk2.1
      refine ⟨((marked A B)[k]).1, by simp [List.getElem?_eq_getElem hkm], ?_⟩
      rw [decide_eq_true_eq, ← hk2.2]
      exact (fr.get k _ (List.getElem?_eq_getElem hkm)).1.symm)
    rw [marked_fst, hc] at this
    have := this.trans (countP_lo_le (A ++ B) _)
    omega
  -- another edge of the operand
  obtain ⟨w, hw, wf, wa, wl⟩ : ∃ w < s₀.heap.count, (absSeg ε s₀.heap w).ff = (absSeg ε s₀.heap l).ff ∧
      (absSeg ε s₀.heap w).a = (absSeg ε s.heap l).a ∧ w ≠ l := by
    by_contra hno
    push Not at hno
    have hd := (reg (absSeg ε s₀.heap l).ff).deg (absSeg ε s.heap l).a
    unfold deg at hd
    rw [Finset.sum_eq_single l] at hd
    · rw [ind_pos ⟨rfl, la⟩, ind_neg, add_zero] at hd
      · cases hd
      · rintro ⟨-, h⟩
        have := I₀.proper l hl₀
        linarith
    · intro k hk hkl
      rw [Finset.mem_range] at hk
      rw [ind_neg, ind_neg, add_zero]
      · rintro ⟨-, h⟩
        have pk := I₀.proper k hk
        have := (hj.all _ (inEs k hk) (by rw [← h]; exact pk) h.ge (by
          change (absSeg ε s₀.heap k).y _ = _
          rw [← h, (I₀.endsY k hk).2, h, yl])).1
        exact absurd h this.ne'
      · rintro ⟨h1, h2⟩
        exact hkl (hno k hk h1 h2)
    · intro h
      exact absurd (Finset.mem_range.2 hl₀) h
  obtain ⟨hwn, wa', wm⟩ := young w hw wa
  have only : ∀ k < s.heap.count, (absSeg ε s.heap k).a = (absSeg ε s.heap l).a →
      (absSeg ε s.heap l).m ≤ (absSeg ε s.heap k).m → k = l ∨ k = w := by
    intro k hk ka km
    have hk₀ := old k hk ka km
    by_cases hkl : k = l
    · exact Or.inl hkl
    · right
      exact three k hk₀ w hw ((R.abs k hk₀).2.2.symm.trans ka) wa hkl wl
  have hww : w ∈ L ++ F := D.np l hl w hwn wa'
  have wff : (absSeg ε s.heap w).ff = (absSeg ε s.heap l).ff := by
    rw [(R.abs w hw).2.1, (R.abs l hl₀).2.1, wf]
  refine ⟨w, hwn, wl, wa', only, wm, ?_⟩
  -- both are selected in the same way
  have none : ∀ i ∈ L ++ F, (∀ k ∈ L ++ F, k ≠ i → ¬ Hot ε s.heap i k) →
      fl.R s.heap i = fl.rule (s.heap.first i) (fl.X s.heap i) fl.none := by
    intro i hi hno
    rcases DI.res i hi with ⟨k, hk, k1, k2, -⟩ | ⟨-, h⟩
    · exact absurd k2 (hno k hk k1)
    · exact h
  have pend : ∀ i ∈ L ++ F, ¬ Pend (absSeg ε s.heap) s.heap.count L F i := by
    rintro i hi ⟨k, hk, k1, k2, -, -, -, k3⟩
    have := D.np i hi k hk k3
    simp [k1, k2] at this
  have r1 := none l hl fun k hk hne hh => D.nohot l hln T k (I.bound k hk) hne hh.symm
  have r2 := none w hww fun k hk hne hh => by
    have hkn := I.bound k hk
    rcases only k hkn (hh.2.symm.trans wa') (by rw [← hh.1.1]; exact wm) with rfl | rfl
    · exact D.nohot k hln T w hwn wl hh
    · exact hne rfl
  have hX2 : fl.X s.heap w = fl.X s.heap l := by
    have hf : ∀ i, s.heap.first i = (absSeg ε s.heap i).ff := fun i => rfl
    have sd := (side (!(absSeg ε s.heap l).ff) (reg _)).2
    have x1 := (sd l hl (by rw [hf]; simp)).resolve_right (pend l hl)
    have x2 := (sd w hww (by rw [hf, wff]; simp)).resolve_right (pend w hww)
    change ind (fl.X s.heap l = true) = _ at x1
    change ind (fl.X s.heap w = true) = _ at x2
    have e : par (absSeg ε s.heap) s.heap.count (!(absSeg ε s.heap l).ff) (absSeg ε s.heap w).a (absSeg ε s.heap w) =
        par (absSeg ε s.heap) s.heap.count (!(absSeg ε s.heap l).ff) (absSeg ε s.heap l).a (absSeg ε s.heap l) := by
      rw [wa']
      unfold par
      refine Finset.sum_congr rfl fun k hk => ind_congr (and_congr_right fun kf => and_congr_right fun ka => ?_)
      rw [Finset.mem_range] at hk
      have yw : (absSeg ε s.heap w).y (absSeg ε s.heap l).a = (absSeg ε s.heap l).y (absSeg ε s.heap l).a := by
        rw [yl, ← wa', (I.endsY w hwn).1]
      have key : (absSeg ε s.heap k).y (absSeg ε s.heap l).a = (absSeg ε s.heap l).y (absSeg ε s.heap l).a →
          (absSeg ε s.heap k).m < (absSeg ε s.heap l).m := by
        intro hy
        rcases ka.1.lt_or_eq with g | g
        · exact (D.pieces.uncut (D.pieces.vst l hln) hp hk g ka.2 hy).elim
        · by_contra hlt
          rcases only k hk g (not_lt.1 hlt) with rfl | rfl
          · simp at kf
          · rw [wff] at kf; simp at kf
      unfold Bel
      rw [yw]
      constructor
      · rintro (h | ⟨h, -⟩)
        · exact Or.inl h
        · exact Or.inr ⟨h, Or.inl (key h)⟩
      · rintro (h | ⟨h, -⟩)
        · exact Or.inl h
        · exact Or.inr ⟨h, Or.inl ((key h).trans_le wm)⟩
    rw [e, ← x1] at x2
    rw [Bool.eq_iff_iff, ← ind_eq_one (P := fl.X s.heap w = true), x2, ind_eq_one]
  have : fl.R s.heap w = fl.R s.heap l := by
    rw [r1, r2, hX2]
    have : s.heap.first w = s.heap.first l := wff
    rw [this]
  exact this

end Clipping

import Verif.Lemmas.Below.FewParity

/-!
# Parity of the set of all selected edges

At a touched place edges of an operand which come from the left go on along the passing line. So the edges of an operand
above the touched segment are even in number, and the same holds for the selected edges.
-/

namespace Clipping

open Sweep

variable {ε : ℚ} {Pt : List Point} {Y : ℚ → ℚ} {s : Store ShapedData} {L F : List ℕ} {p : ℚ} {Es : List Seg}

namespace Ended

section
variable (D : Ended ε Es Pt Y s L F p)
include D

/-- Parity of the edges of an operand below a segment, in terms of the plane. -/
theorem par_spar {k : ℕ} (hk : k ∈ L ++ F) (hp : (absSeg ε s.heap k).a < p) (o : Bool) :
    par (absSeg ε s.heap) s.heap.count o (absSeg ε s.heap k).a (absSeg ε s.heap k) =
      spar (absSeg ε s.heap) s.heap.count (fun w => (absSeg ε s.heap w).ff = o) (absSeg ε s.heap k).a (absSeg ε s.heap k) +
        ind (o = true ∧ (absSeg ε s.heap k).ff = false ∧ ∃ w < s.heap.count, (absSeg ε s.heap w).ff = true ∧ Hot ε s.heap w k) := by
  have I := D.st.inv'
  have e : ind (o = true ∧ (absSeg ε s.heap k).ff = false ∧
      ∃ w < s.heap.count, (absSeg ε s.heap w).ff = true ∧ Hot ε s.heap w k) =
      ∑ w ∈ Finset.range s.heap.count, ind (o = true ∧ (absSeg ε s.heap k).ff = false ∧
        (absSeg ε s.heap w).ff = true ∧ Hot ε s.heap w k) := by
    rw [sum_one]
    · exact ind_congr ⟨fun ⟨h1, h2, w, hw, h3⟩ => ⟨w, hw, h1, h2, h3⟩, fun ⟨w, hw, h1, h2, h3⟩ => ⟨h1, h2, w, hw, h3⟩⟩
    · rintro w hw w' hw' ⟨-, -, h1, h2⟩ ⟨-, -, g1, g2⟩
      by_contra hne
      exact D.st.hot_first hw hw' hne (Germ.trans h2 (Germ.symm g2)) (h1.trans g1.symm)
  rw [e]
  unfold par spar
  rw [← Finset.sum_add_distrib]
  refine Finset.sum_congr rfl fun w hw => ?_
  rw [Finset.mem_range] at hw
  rw [← ind_or]
  · apply ind_congr
    constructor
    · rintro ⟨h1, h2, h3⟩
      rcases h3.sbel_or with g | ⟨g1, g2, g3⟩
      · exact Or.inl ⟨h1, h2, g⟩
      · exact Or.inr ⟨h1.symm.trans g2, g3, g2, D.hot_of_act hk hp hw h2 g1⟩
    · rintro (⟨h1, h2, h3⟩ | ⟨h1, h2, h3, h4⟩)
      · exact ⟨h1, h2, h3.bel⟩
      · exact ⟨h3.trans h1.symm, by rw [← h4.2]; exact ⟨le_rfl, I.proper w hw⟩,
          Or.inr ⟨h4.1.y _, Or.inr ⟨h4.1.1, h3, h2⟩⟩⟩
  · rintro ⟨⟨-, -, h⟩, -, -, -, hh⟩
    have := hh.1.y (absSeg ε s.heap k).a
    have := hh.1.1
    rcases h with h | ⟨-, h⟩ <;> linarith

variable {O : Ops ShapedData} {κ : Type} {f : Flags O κ} (DI : DataInv f ε s L F) (reg : ∀ o, RegionOk f ε o s)
  (side : ∀ o, SideInv f ε o s L F)
include DI reg side

/-- Places with the same edges and the same parities below have the same decisions. -/
theorem same_decision {c u : ℕ} (hc : c ∈ L ++ F) (hu : u ∈ L ++ F) (pc : (absSeg ε s.heap c).a < p)
    (pu : (absSeg ε s.heap u).a < p)
    (hs : ∀ o, spar (absSeg ε s.heap) s.heap.count (fun w => (absSeg ε s.heap w).ff = o) (absSeg ε s.heap c).a (absSeg ε s.heap c) =
      spar (absSeg ε s.heap) s.heap.count (fun w => (absSeg ε s.heap w).ff = o) (absSeg ε s.heap u).a (absSeg ε s.heap u))
    (hpr : ∀ o, (∃ w < s.heap.count, (absSeg ε s.heap w).ff = o ∧ Hot ε s.heap w c) ↔
      ∃ w < s.heap.count, (absSeg ε s.heap w).ff = o ∧ Hot ε s.heap w u) {k k' : ℕ}
    (hk : Hot ε s.heap k c) (hk' : Hot ε s.heap k' u) (kn : k < s.heap.count) (kn' : k' < s.heap.count)
    (hf : (absSeg ε s.heap k).ff = (absSeg ε s.heap k').ff) : f.R s.heap k = f.R s.heap k' := by
  have I := D.st.inv'
  have first : ∀ i, s.heap.first i = (absSeg ε s.heap i).ff := fun i => rfl
  have inP : ∀ {c w}, c ∈ L ++ F → w < s.heap.count → Hot ε s.heap w c → w ∈ L ++ F := fun hc hw hh => D.np _ hc _ hw hh.2
  have pend : ∀ i ∈ L ++ F, ¬ Pend (absSeg ε s.heap) s.heap.count L F i := by
    rintro i hi ⟨k, hk, k1, k2, -, -, -, k3⟩
    have := D.np i hi k hk k3
    simp [k1, k2] at this
  have pars : ∀ o w w', Hot ε s.heap w c → Hot ε s.heap w' u → w < s.heap.count → w' < s.heap.count →
      (absSeg ε s.heap w).ff = (absSeg ε s.heap w').ff →
      par (absSeg ε s.heap) s.heap.count o (absSeg ε s.heap w).a (absSeg ε s.heap w) =
        par (absSeg ε s.heap) s.heap.count o (absSeg ε s.heap w').a (absSeg ε s.heap w') := by
    intro o w w' h h' hw hw' hff
    rw [D.par_spar (inP hc hw h) (by rw [h.2]; exact pc), D.par_spar (inP hu hw' h') (by rw [h'.2]; exact pu),
      spar_congr h.1 h.2, spar_congr h'.1 h'.2, hs o, hff]
    congr 1
    refine ind_congr (and_congr_right fun _ => and_congr_right fun _ => ?_)
    have e1 : (∃ x < s.heap.count, (absSeg ε s.heap x).ff = true ∧ Hot ε s.heap x w) ↔
        ∃ x < s.heap.count, (absSeg ε s.heap x).ff = true ∧ Hot ε s.heap x c :=
      exists_congr fun x => and_congr_right fun _ => and_congr_right fun _ =>
        ⟨fun g => Germ.trans g h, fun g => Germ.trans g (Germ.symm h)⟩
    have e2 : (∃ x < s.heap.count, (absSeg ε s.heap x).ff = true ∧ Hot ε s.heap x w') ↔
        ∃ x < s.heap.count, (absSeg ε s.heap x).ff = true ∧ Hot ε s.heap x u :=
      exists_congr fun x => and_congr_right fun _ => and_congr_right fun _ =>
        ⟨fun g => Germ.trans g h', fun g => Germ.trans g (Germ.symm h')⟩
    rw [e1, e2, hpr]
  have own : ∀ w w', Hot ε s.heap w c → Hot ε s.heap w' u → w < s.heap.count → w' < s.heap.count →
      (absSeg ε s.heap w).ff = (absSeg ε s.heap w').ff → f.I s.heap w = f.I s.heap w' := by
    intro w w' h h' hw hw' hff
    have r1 := (reg (absSeg ε s.heap w).ff).own w hw rfl (absSeg ε s.heap w).a ⟨le_rfl, I.proper w hw⟩
    have r2 := (reg (absSeg ε s.heap w).ff).own w' hw' hff.symm (absSeg ε s.heap w').a ⟨le_rfl, I.proper w' hw'⟩
    rw [pars _ w w' h h' hw hw' hff, ← r2] at r1
    rw [Bool.eq_iff_iff, ← ind_eq_one (P := f.I s.heap w = true), r1, ind_eq_one]
  have oth : f.X s.heap k = f.X s.heap k' := by
    have r1 := (side (!(absSeg ε s.heap k).ff) k (inP hc kn hk) (by rw [first]; simp)).resolve_right (pend _ (inP hc kn hk))
    have r2 := (side (!(absSeg ε s.heap k).ff) k' (inP hu kn' hk') (by rw [first, hf]; simp)).resolve_right
      (pend _ (inP hu kn' hk'))
    rw [pars _ k k' hk hk' kn kn' hf, ← r2] at r1
    rw [Bool.eq_iff_iff, ← ind_eq_one (P := f.X s.heap k = true), r1, ind_eq_one]
  have other : ∀ {a b}, a < s.heap.count → b < s.heap.count → b ≠ a → Hot ε s.heap a b →
      (absSeg ε s.heap b).ff = !(absSeg ε s.heap a).ff := by
    intro a b ha hb hne hh
    have : (absSeg ε s.heap b).ff ≠ (absSeg ε s.heap a).ff := D.st.hot_first hb ha hne hh.symm
    revert this
    cases (absSeg ε s.heap b).ff <;> cases (absSeg ε s.heap a).ff <;> simp
  rcases DI.res k (inP hc kn hk) with ⟨x, hx, x1, x2, xr⟩ | ⟨no, xr⟩
  · have xn := I.bound x hx
    have xc : Hot ε s.heap x c := Germ.trans (Germ.symm x2) hk
    rcases DI.res k' (inP hu kn' hk') with ⟨x', hx', x1', x2', xr'⟩ | ⟨no', xr'⟩
    · have xn' := I.bound x' hx'
      have xu : Hot ε s.heap x' u := Germ.trans (Germ.symm x2') hk'
      have o1 := own k k' hk hk' kn kn' hf
      have o2 := own x x' xc xu xn xn' (by rw [other kn xn x1 x2, other kn' xn' x1' x2', hf])
      rw [xr, xr', oth]
      unfold Flags.pairKind
      rw [o1, o2, first, first, hf]
    · exfalso
      obtain ⟨y, yn, yf, yh⟩ := (hpr (absSeg ε s.heap x).ff).1 ⟨x, xn, rfl, xc⟩
      refine no' y (inP hu yn yh) ?_ (Germ.trans hk' (Germ.symm yh))
      rintro rfl
      rw [other kn xn x1 x2, hf] at yf
      simp at yf
  · rcases DI.res k' (inP hu kn' hk') with ⟨x', hx', x1', x2', xr'⟩ | ⟨no', xr'⟩
    · exfalso
      have xn' := I.bound x' hx'
      have xu : Hot ε s.heap x' u := Germ.trans (Germ.symm x2') hk'
      obtain ⟨y, yn, yf, yh⟩ := (hpr (absSeg ε s.heap x').ff).2 ⟨x', xn', rfl, xu⟩
      refine no y (inP hc yn yh) ?_ (Germ.trans hk (Germ.symm yh))
      rintro rfl
      rw [other kn' xn' x1' x2', hf] at yf
      simp at yf
    · rw [xr, xr', oth, first, first, hf]

variable {L₀ F₀ : List ℕ} {p₀ : ℚ} {Ex₀ : ℕ → ℕ → Prop} {s₀ : Store ShapedData} (S₀ : St ε Pt Y s₀ L₀ F₀ p₀ Ex₀)
  (R : Orig O ε s₀.heap s.heap) (hE : origs ε s₀.heap = Es)
include S₀ R hE

/-- An even number of selected edges starts above a touched place. -/
theorem wedge_all {K : ℕ → Prop} (hK : Chosen s (L ++ F) K) (hK' : ∀ k ∈ L ++ F, f.R s.heap k = true → K k)
    (hR : ∀ k, f.R s.heap k = (s.heap.lefts k).data.fromShapedResult)
    (hd : ∀ x, kdeg (absSeg ε s.heap) s.heap.count K x = 0) {l : ℕ} (hl : l ∈ L ++ F) (hp : (absSeg ε s.heap l).a < p)
    (T : Touched Es (absSeg ε s.heap l)) : wedge ε s.heap K l = 0 := by
  have I := D.st.inv'
  have hln := I.bound l hl
  obtain ⟨j, hj, hm⟩ := T.thru
  obtain ⟨u, hu, -, -, uj, ua⟩ := D.exists_under hl hp T hj hm
  obtain ⟨c, hcn, cj, c1, c2, -⟩ := D.pieces.bef j hj.mem _ hj.lo hj.hi.le
  have hc : c ∈ L ++ F := by
    by_contra h
    simp only [List.mem_append, not_or] at h
    have := I.wait c hcn h.1 h.2
    linarith
  have cy : (absSeg ε s.heap c).y (absSeg ε s.heap l).a = (absSeg ε s.heap l).y (absSeg ε s.heap l).a := (cj.y _).trans hj.val
  have cb := (D.stops_at hl hp T hj hcn c1 c2 cy).2
  have pres : ∀ o, (∃ w < s.heap.count, (absSeg ε s.heap w).ff = o ∧ Hot ε s.heap w c) ↔
      ∃ w < s.heap.count, (absSeg ε s.heap w).ff = o ∧ Hot ε s.heap w u := by
    intro o
    constructor
    · rintro ⟨k, hk, kf, kh⟩
      have ka : (absSeg ε s.heap k).a < (absSeg ε s.heap l).a := by rw [kh.2]; exact c1
      have pk := I.proper k hk
      have kb : (absSeg ε s.heap l).a ≤ (absSeg ε s.heap k).b := by
        by_contra hlt
        push Not at hlt
        exact D.pieces.uncut (D.pieces.vsp k hk) (by linarith) hcn (by rw [← kh.2]; exact pk) (by rw [cb]; exact hlt)
          (kh.1.symm.y _)
      obtain ⟨x, hx, x1, x2, x3, x4⟩ := R.parent S₀ D.st hk
      have kj : Col (absSeg ε s.heap k) j := kh.1.trans cj
      have xb := (hj.all { absSeg ε s₀.heap x with ff := true } (by rw [← hE]; exact mem_origs hx) (lt_of_le_of_lt x3 ka) (kb.trans x4) (by
        refine (x1.y _).symm.trans ((kj.y _).trans hj.val))).1
      obtain ⟨w, hw, w1, w2, w3⟩ := R.after S₀ D.st hx (c := (absSeg ε s.heap l).a) ⟨(lt_of_le_of_lt x3 ka).le, xb⟩
      have wj : Col (absSeg ε s.heap w) j := w1.trans (x1.symm.trans kj)
      refine ⟨w, hw, w2.trans (x2.symm.trans kf), wj.trans uj.symm, ?_⟩
      rw [ua]
      rcases w3.1.lt_or_eq with g | g
      · exact (D.pieces.uncut (D.pieces.vst l hln) hp hw g w3.2 ((wj.y _).trans hj.val)).elim
      · exact g
    · rintro ⟨k, hk, kf, kh⟩
      have kj : Col (absSeg ε s.heap k) j := kh.1.trans uj
      have ka : (absSeg ε s.heap k).a = (absSeg ε s.heap l).a := kh.2.trans ua
      have pk := I.proper k hk
      obtain ⟨x, hx, x1, x2, x3, x4⟩ := R.parent S₀ D.st hk
      rcases x3.lt_or_eq with g | g
      · obtain ⟨w, hw, w1, w2, w3, w4⟩ := R.before S₀ D.st hx (c := (absSeg ε s.heap l).a) (by rw [← ka]; exact g)
          (by linarith)
        have wj : Col (absSeg ε s.heap w) j := w1.trans (x1.symm.trans kj)
        exact ⟨w, hw, w2.trans (x2.symm.trans kf), D.pieces.germ_before D.pieces (List.Perm.refl _) hw hcn
          (wj.trans cj.symm) hp.le hp.le w3 w4 c1 c2⟩
      · exfalso
        have h1 := T.least { absSeg ε s₀.heap x with ff := true } (by rw [← hE]; exact mem_origs hx) (g.trans ka)
        have h2 : (absSeg ε s.heap l).m ≤ (absSeg ε s₀.heap x).m := h1
        have h3 := x1.1
        have h4 := kj.1
        linarith
  have pars : ∀ o, spar (absSeg ε s.heap) s.heap.count (fun w => (absSeg ε s.heap w).ff = o) (absSeg ε s.heap c).a (absSeg ε s.heap c) =
      spar (absSeg ε s.heap) s.heap.count (fun w => (absSeg ε s.heap w).ff = o) (absSeg ε s.heap u).a (absSeg ε s.heap u) := by
    intro o
    rw [D.through hl hp T (K := fun w => (absSeg ε s.heap w).ff = o) (fun x => (reg o).deg x) hj hm hcn c1 c2 cj]
    exact spar_congr (cj.trans uj.symm) ua.symm
  have pu : (absSeg ε s.heap u).a < p := by rw [ua]; exact hp
  have pc : (absSeg ε s.heap c).a < p := by linarith
  have iff : HasHot ε s.heap K c ↔ HasHot ε s.heap K u := by
    constructor
    · rintro ⟨k, hk, k1, k2⟩
      obtain ⟨w, hw, w1, w2⟩ := (pres _).1 ⟨k, hk, rfl, k2⟩
      refine ⟨w, hw, hK' w (D.np u hu w hw w2.2) ?_, w2⟩
      rw [← D.same_decision DI reg side hc hu pc pu pars pres k2 w2 hk hw w1.symm, hR]
      exact (hK k k1).2
    · rintro ⟨k, hk, k1, k2⟩
      obtain ⟨w, hw, w1, w2⟩ := (pres _).2 ⟨k, hk, rfl, k2⟩
      refine ⟨w, hw, hK' w (D.np c hc w hw w2.2) ?_, w2⟩
      rw [D.same_decision DI reg side hc hu pc pu pars pres w2 k2 hw hk w1, hR]
      exact (hK k k1).2
  have := D.bend hK hd hl hp T hj hm hc c1 c2 cy uj ua
  rw [ind_congr iff] at this
  have h2 : ind (HasHot ε s.heap K u) + ind (HasHot ε s.heap K u) = 0 := CharTwo.add_self_eq_zero _
  linear_combination -this + 0 * h2

end

end Ended

variable {rule : ShapedRule} {op : Bool → Bool → Bool} {tb : TieBreak} {xmax : Option ℚ} {A B : List Segment}
  {h : Heap ShapedData} {events : List Ev}

/-- What the event below a selected edge says on the side on which the result is. -/
theorem all_parity (hr : RuleOk rule) (hA : IsBoundary A) (hB : IsBoundary B)
    (e : shapedSweep (holeyOps rule) tb xmax A B = .ok (h, events))
    (E : ShapedEnd op h events (stopAt xmax) A B) {i : ℕ} (hi : Ev.left i ∈ events.filter (fromResult h)) :
    (Bw h i = none → ¬ Inside (leftEdges h (events.filter (fromResult h))) (h.mid i)) ∧
    ∀ b, Bw h i = some b → (Inside (leftEdges h (events.filter (fromResult h))) (h.mid i) ↔
      ¬ Inside (leftEdges h (events.filter (fromResult h))) (h.mid b)) := by
  have bOk := holey_belowOk hr hA hB e E
  set X : List Point := (h.mid i :: (Bw h i).toList.map h.mid) ++
    (points (A ++ B)).flatMap (fun q => (points (A ++ B)).map (middle q)) with hX
  obtain ⟨ε, ho⟩ := exists_orders (points (A ++ B) ++ X)
  obtain ⟨Y, s, L, F, p, rfl, D, mem, fin, p₀, log, S0, R, r, lg⟩ := holey_ended_run hr hA hB e E (ε := ε)
    (orders_sub ho fun q hq => by simp [hq])
  have fr := fresh_init (holeyOps rule).toPayload ⟨false, false, .none, false, none⟩ A B
  set s₀ := initStore (holeyOps rule).toPayload ⟨false, false, .none, false, none⟩ A B with hs₀
  set fl := shapedFlags (isShaped_holey hr) with hfl
  have bd : ∀ o, IsBoundary (operand A B o) := by
    intro o; cases o
    · exact hB
    · exact hA
  have hD : ∀ k < s₀.heap.count, fl.X s₀.heap k = false ∧ fl.K s₀.heap k = fl.none := by
    intro k hk
    rw [fr.count] at hk
    unfold Flags.X Flags.K
    rw [init_data (holeyOps rule).toPayload _ A B k _ (List.getElem?_eq_getElem hk)]
    exact ⟨fl.create_oth _, fl.create_mark _⟩
  have reg : ∀ o, RegionOk fl ε o s₀ := fun o => region_init fl S0 ho (by
    intro q hq q' hq'
    rw [hX, List.mem_append, List.mem_flatMap]
    exact Or.inr ⟨q, hq, List.mem_map_of_mem hq'⟩) (bd o)
  obtain ⟨F', p', -, lg', DI, -, side⟩ := flags_reach (f := fl)
    (init := initState (holeyOps rule).toPayload ⟨false, false, .none, false, none⟩ A B) S0 rfl hD r
  have hFF : F' = F := lg'.fin.trans lg.fin.symm
  rw [hFF] at DI side
  have S := D.st
  have V := S.inv'
  have selE := E.selected
  have bnd : ∀ k, Ev.left k ∈ events.filter (fromResult s.heap) → k < s.heap.count := fun k hk => selE.evOk _ hk
  -- inner points
  have inn : ∀ k, Ev.left k ∈ events.filter (fromResult s.heap) →
      s.heap.mid k ∈ (s.heap.segment k).pts ∧
      Act (sx ε (s.heap.mid k)) (absSeg ε s.heap k) ∧ sx ε (s.heap.mid k) < p ∧
      (absSeg ε s.heap k).a < p ∧
      ∀ j, Ev.left j ∈ events.filter (fromResult s.heap) → s.heap.mid k ∈ (s.heap.segment j).pts → j = k := by
    intro k hk
    have pk := V.proper k (bnd k hk)
    have hf := fin k hk
    have hsx : sx ε (s.heap.mid k) = ((absSeg ε s.heap k).a + (absSeg ε s.heap k).b) / 2 :=
      sx_middle _ _
    have hmem : s.heap.mid k ∈ (s.heap.segment k).pts := by
      rw [mem_segment pk, hsx]
      refine ⟨by linarith, by linarith, ?_⟩
      have e1 := abs_ya (ε := ε) (h := s.heap) k
      have e2 := abs_yb (ε := ε) pk
      rw [← abs_a] at e1
      rw [← abs_b] at e2
      simp only [Heap.mid, middle, Seg.y] at e1 e2 ⊢
      linear_combination (e1 + e2) / 2
    refine ⟨hmem, ⟨by rw [hsx]; linarith, by rw [hsx]; linarith⟩, by rw [hsx]; linarith, by linarith, ?_⟩
    intro j hj hmj
    by_contra hne
    have hp := selE.endsOnly
    rw [leftEdges_eq] at hp
    have sym : Std.Symm fun a b : ℕ => ∀ q, q ∈ (s.heap.segment a).pts → q ∈ (s.heap.segment b).pts →
        (s.heap.segment a).IsEnd q ∧ (s.heap.segment b).IsEnd q := ⟨fun a b hab q h1 h2 => (hab q h2 h1).symm⟩
    have := ((List.pairwise_map.1 hp).forall (mem_leftIds.2 hk) (mem_leftIds.2 hj) (Ne.symm hne) _ hmem hmj).1
    rcases this with h | h
    · have : sx ε (s.heap.mid k) = (absSeg ε s.heap k).a := by rw [h]; rfl
      linarith
    · have : sx ε (s.heap.mid k) = (absSeg ε s.heap k).b := by rw [h]; rfl
      linarith
  set Ks := leftIds (events.filter (fromResult s.heap)) with hKs
  have nd : Ks.Nodup := leftIds_nodup selE.nodup
  have hK : ∀ k ∈ Ks, Ev.left k ∈ events.filter (fromResult s.heap) := fun k hk => mem_leftIds.1 hk
  rw [leftEdges_eq]
  have hd := S.kdeg_zero nd (fun k hk => bnd k (hK k hk)) (by rw [← leftEdges_eq]; exact selE.even)
  have val : ∀ k, Ev.left k ∈ events.filter (fromResult s.heap) → s.heap.mid k ∈ X →
      kpar (absSeg ε s.heap) s.heap.count (fun k => k ∈ Ks) (absSeg ε s.heap k).a (absSeg ε s.heap k) =
        ind (Inside (Ks.map s.heap.segment) (s.heap.mid k)) := by
    intro k hk hkX
    obtain ⟨i1, i2, i3, -, i4⟩ := inn k hk
    rw [V.kpar_piece hd (bnd k hk) i2 i3]
    exact S.kpar_inside ho hkX nd (fun k hk => bnd k (hK k hk)) (bnd k hk) i1 fun j hj => i4 j (hK j hj)
  have hiL : i ∈ L ++ F := (mem i).2 (List.mem_filter.1 hi).1
  have hC : Chosen s (L ++ F) (fun k => k ∈ Ks) :=
    fun k hk => ⟨(mem k).2 (List.mem_filter.1 (hK k hk)).1, (List.mem_filter.1 (hK k hk)).2⟩
  obtain ⟨c1, c2⟩ := D.sel_parity hC hd (i := i) (by
      intro l hl hlp T _
      exact D.wedge_all DI (fun o => (side o (reg o)).1) (fun o => (side o (reg o)).2) S0 R (origs_init ..) hC
        (fun k hk hR => mem_leftIds.2 (List.mem_filter.2 ⟨(mem k).1 hk, hR⟩)) (fun _ => rfl) hd hl hlp T)
    hiL (inn i hi).2.2.2.1 (List.mem_filter.1 hi).2
  rw [val i hi (by simp [hX])] at c1 c2
  refine ⟨fun h => ind_eq_zero.1 (c1 h), fun b hb => ?_⟩
  have hbs : Ev.left b ∈ events.filter (fromResult s.heap) := (bOk i hi b hb).1
  have := (c2 b hb).2
  rw [val b hbs (by simp [hX, hb]), ind_pos (P := b ∈ Ks) (mem_leftIds.2 hbs)] at this
  by_cases h1 : Inside (Ks.map s.heap.segment) (s.heap.mid i) <;>
    by_cases h2 : Inside (Ks.map s.heap.segment) (s.heap.mid b)
  · rw [ind_pos h1, ind_pos h2] at this
    exact absurd this (by decide)
  · exact iff_of_true h1 h2
  · exact iff_of_false h1 (not_not.2 h2)
  · rw [ind_neg h1, ind_neg h2] at this
    exact absurd this (by decide)

end Clipping

import Verif.Lemmas.Flags.Region
import Verif.Lemmas.Arrangement

/-!
# Sides and decisions at the end of the sweep
-/

namespace Clipping

open Sweep

variable {α κ : Type} {O : Ops α}

/-- Before its own end the parity below a processed segment is the one at its start. -/
theorem Sweep.Inv.par_piece {Y : ℚ → ℚ} {A : ℕ → Seg} {n : ℕ} {L F : List ℕ} {p : ℚ} {o : Bool}
    (I : Inv Y A n L F p NoEx) (hd : ∀ x, deg A n o x = 0) {i : ℕ} (hi : i < n) {c : ℚ} (hc : Act c (A i))
    (hp : c < p) : par A n o (A i).a (A i) = par A n o c (A i) := by
  have key : ∀ k < n, ∀ c', (A i).a < c' → c' ≤ c → (A k).a ≤ c' → c' ≤ (A k).b → (A k).y c' = (A i).y c' →
      Col (A k) (A i) ∧ (A k).a < c' ∧ c' < (A k).b := by
    intro k hk c' h1 h2 h3 h4 h5
    have hc2 := hc.2
    rcases I.good k hk i hi c' (by linarith) ⟨h3, h4, h1.le, by linarith, h5⟩ with ⟨-, h | h⟩ | ⟨h, -, h'⟩
    · linarith
    · linarith
    · exact ⟨h', h.1, h.2⟩
  refine par_const hc.1 hd I.proper I.endsY ?_ ?_ ?_ ?_
  · intro k hk _ c' h1 h2 h3 h4 h5
    exact key k hk c' h1 h2.le h3 h4 h5
  · intro hlt k hk _ h1 h2 h3
    exact (key k hk c hlt le_rfl h1.le h2.le h3).1
  · intro hlt k hk _ h1 h2
    exact absurd h1 (key k hk c hlt le_rfl (by rw [← h1]; exact (I.proper k hk).le) h1.ge h2).2.2.ne'
  · intro hlt k hk _ h1 h2
    exact absurd h1 (key k hk c hlt le_rfl h1.le (by rw [← h1]; exact (I.proper k hk).le) h2).2.1.ne

/-- What events know at the end of the sweep. -/
structure FlagsFinal (f : Flags O κ) (h : Heap α) (F : List ℕ) (log : List (Ev × ℕ)) (first second : List Segment) :
    Prop where
  /-- finished segments know whether they are inside of the other operand -/
  side : ∀ o, IsBoundary (operand first second o) → ∀ i ∈ F, h.first i = !o → ∀ m ∈ (h.segment i).pts,
    ¬ Vertex (first ++ second) m → (f.X h i = true ↔
      Xor (Inside (operand first second o) m) (o = true ∧ m ∈ segsPts (operand first second o)))
  /-- segments know on which side the interior of their own operand is -/
  own : ∀ o, IsBoundary (operand first second o) → ∀ i < h.count, h.first i = o → ∀ m ∈ (h.segment i).pts,
    ¬ Vertex (first ++ second) m → (f.I h i = true ↔ ¬ Inside (operand first second o) m)
  /-- a point which is no vertex is on one segment of an operand at most -/
  uniq : ∀ i < h.count, ∀ j < h.count, h.first i = h.first j → ∀ m ∈ (h.segment i).pts, m ∈ (h.segment j).pts →
    ¬ Vertex (first ++ second) m → i = j
  /-- unfinished ones are outside if the other operand is finished -/
  rest : ∀ o, IsBoundary (operand first second o) → ∀ i, Ev.left i ∈ log.map Prod.fst → i ∉ F → h.first i = !o →
    (∀ k < h.count, h.first k = o → k ∈ F) → f.X h i = false ∧ f.R h i = f.rule (h.first i) false f.none
  /-- the decisions -/
  res : ∀ i ∈ F, (∃ k ∈ F, k ≠ i ∧ h.segment k = h.segment i ∧
      f.R h i = f.rule (h.first i) (f.X h i) (f.pairKind h i k)) ∨
    ((∀ k < h.count, k ≠ i → h.segment k ≠ h.segment i) ∧ f.R h i = f.rule (h.first i) (f.X h i) f.none)
  /-- all decisions are made by the rule -/
  any : ∀ i, Ev.left i ∈ log.map Prod.fst → ∃ x k, f.R h i = f.rule (h.first i) x k

theorem flags_final (f : Flags O κ) {d : α} {tb : TieBreak} {stop : Point → Bool} {first second : List Segment}
    (ok : OperandsOk (marked first second)) (mono : ∀ p q, p ≤ q → stop p = true → stop q = true)
    {s : SweepState α} {log : List (Ev × ℕ)} (r : Reach O tb (initState O.toPayload d first second) s log)
    {F : List ℕ} (hF : F = (log.filterMap fun (e, i) => if Heap.isLeft e then none else some i).reverse)
    (fin : Final s.store.heap F stop (marked first second))
    (logmem : ∀ e, e ∈ log.map Prod.fst ↔ EvOk s.store.heap e ∧ stop (s.store.heap.evStart e) = false) :
    FlagsFinal f s.store.heap F log first second := by
  classical
  have fr := fresh_init O.toPayload d first second
  set Pt := points ((marked first second).map Prod.fst) with hPt
  have init : ∀ m, ∃ ε Y p F' p', Orders ε (Pt ++ (m :: Pt.flatMap fun q => Pt.map (middle q))) ∧
      St ε Pt Y (initStore O.toPayload d first second) [] [] p NoEx ∧ (∀ q ∈ Pt, Vertex (first ++ second) q) ∧
      St ε Pt Y s.store s.line F' p' NoEx ∧ LogOk ε s.store s.line F' p' log ∧ DataInv f ε s.store s.line F' ∧
      (∀ o c t, par (absSeg ε s.store.heap) s.store.heap.count o c t =
        par (absSeg ε (initStore O.toPayload d first second).heap)
          (initStore O.toPayload d first second).heap.count o c t) ∧
      ∀ o, IsBoundary (operand first second o) → RegionOk f ε o s.store ∧ SideInv f ε o s.store s.line F' := by
    intro m
    obtain ⟨ε, Y, p, ho, S, hv, -⟩ := fr.stX ok (m :: Pt.flatMap fun q => Pt.map (middle q))
    have hD : ∀ k < (initStore O.toPayload d first second).heap.count,
        f.X (initStore O.toPayload d first second).heap k = false ∧
          f.K (initStore O.toPayload d first second).heap k = f.none := by
      intro k hk
      rw [fr.count] at hk
      unfold Flags.X Flags.K
      rw [init_data O.toPayload d first second k _ (List.getElem?_eq_getElem hk)]
      exact ⟨f.create_oth _, f.create_mark _⟩
    obtain ⟨F', p', S', l', D', hp', h'⟩ := flags_reach (f := f) (init := initState O.toPayload d first second)
      S rfl hD r
    rw [marked_fst] at hv
    refine ⟨ε, Y, p, F', p', ho, S, ?_, S', l', D', hp', fun o hE => h' o ?_⟩
    · rw [hPt, marked_fst]; exact hv
    · refine region_init f S ho ?_ hE
      intro q hq q' hq'
      exact List.mem_cons_of_mem _ (List.mem_flatMap.2 ⟨q, hq, List.mem_map_of_mem (f := middle q) hq'⟩)
  -- no pending segments
  have pend : ∀ {ε Y F' p'}, St ε Pt Y s.store s.line F' p' NoEx → LogOk ε s.store s.line F' p' log →
      ∀ i, Ev.left i ∈ log.map Prod.fst → ¬ Pend (absSeg ε s.store.heap) s.store.heap.count s.line F' i := by
    rintro ε Y F' p' S l i hi ⟨k, hk, k1, k2, -, -, -, k3⟩
    have hi' := (logmem _).1 hi
    have e : s.store.heap.start k = s.store.heap.start i :=
      (S.pts.ord.eq_iff (S.pts.mem k hk).1 (S.pts.mem i hi'.1).1).2 k3
    have : Ev.left k ∈ log.map Prod.fst := by
      rw [logmem]
      refine ⟨hk, ?_⟩
      have : s.store.heap.evStart (.left k) = s.store.heap.evStart (.left i) := e
      rw [this]; exact hi'.2
    rcases (l.left k).1 this with h | h
    exacts [k1 h, k2 h]
  have leftOf : ∀ i ∈ F, Ev.left i ∈ log.map Prod.fst := by
    intro i hi
    obtain ⟨ε, Y, p, F', p', -, -, -, S, l, -⟩ := init ⟨0, 0⟩
    rw [l.left]
    right
    rw [l.fin, ← hF]; exact hi
  -- overlapping segments which start at the same place are equal
  have hot_end : ∀ {ε Y L' F' p'}, St ε Pt Y s.store L' F' p' NoEx → ∀ {k i : ℕ}, k ∈ F → i < s.store.heap.count →
      Hot ε s.store.heap k i → s.store.heap.segment k = s.store.heap.segment i ∧ i ∈ F := by
    intro ε Y L' F' p' S k i hk hi hh
    have I := S.inv'
    have pk := I.proper k (fin.bound k hk)
    have pi := I.proper i hi
    rcases fin.pair k hk i hi with g | g
    · exact g
    · exfalso
      set b := min (absSeg ε s.store.heap k).b (absSeg ε s.store.heap i).b with hb
      have hab : (absSeg ε s.store.heap k).a < b := by
        rw [hb, lt_min_iff]
        exact ⟨pk, by rw [hh.2]; exact pi⟩
      have hbk : b ≤ (absSeg ε s.store.heap k).b := min_le_left _ _
      have hbi : b ≤ (absSeg ε s.store.heap i).b := min_le_right _ _
      set c := ((absSeg ε s.store.heap k).a + b) / 2 with hc
      have c1 : (absSeg ε s.store.heap k).a < c := by rw [hc]; linarith
      have c2 : c < b := by rw [hc]; linarith
      have com : Com (absSeg ε s.store.heap k) (absSeg ε s.store.heap i) c :=
        ⟨c1.le, by linarith, by rw [← hh.2]; exact c1.le, by linarith, hh.1.y c⟩
      obtain ⟨q, q1, q2, q3⟩ := (com_seg pk pi).1 com
      rcases (g q q1 q2).1 with e | e
      · have : sx ε q = (absSeg ε s.store.heap k).a := by rw [e]; rfl
        linarith
      · have : sx ε q = (absSeg ε s.store.heap k).b := by rw [e]; rfl
        linarith
  -- the pieces are on segments of the input
  have colOf : ∀ {ε Y p F' p' m i o}, St ε Pt Y (initStore O.toPayload d first second) [] [] p NoEx →
      St ε Pt Y s.store s.line F' p' NoEx → m ∉ Pt → i < s.store.heap.count → m ∈ (s.store.heap.segment i).pts →
      ∀ k < (initStore O.toPayload d first second).heap.count,
        (initStore O.toPayload d first second).heap.first k = o →
        m ∈ ((initStore O.toPayload d first second).heap.segment k).pts →
        Col (absSeg ε (initStore O.toPayload d first second).heap k) (absSeg ε s.store.heap i) := by
    intro ε Y p F' p' m i o S0 S hmp hin hm
    have I := S.inv'
    intro k hk hko hmk
    rw [fr.count] at hk
    have hx := List.getElem?_eq_getElem hk
    rw [fr.segment hx, pts_lo_hi] at hmk
    obtain ⟨j, hj, j1, j2, j3⟩ := fin.cov _ (List.getElem_mem hk) m hmk
    have c1 := S.col_point hmp hj hin j3 hm
    obtain ⟨-, -, -, -, g5⟩ := fr.get k _ hx
    -- the piece `j` is on the segment `k`
    have pj := I.proper j hj
    have hk' : k < (initStore O.toPayload d first second).heap.count := by rw [fr.count]; exact hk
    have pk := S0.inv'.proper k hk'
    have sub : ∀ q ∈ (s.store.heap.segment j).pts, q ∈ ((initStore O.toPayload d first second).heap.segment k).pts := by
      intro q hq
      rw [fr.segment hx, pts_lo_hi]; exact j2 hq
    have s1 := (mem_segment pk).1 (sub (s.store.heap.start j) (by
      rw [mem_segment pj]; exact ⟨le_rfl, pj.le, abs_ya j⟩))
    have s2 := (mem_segment pk).1 (sub (s.store.heap.stop j) (by
      rw [mem_segment pj]; exact ⟨pj.le, le_rfl, abs_yb pj⟩))
    have a1 := abs_ya (ε := ε) (h := s.store.heap) j
    have a2 := abs_yb pj
    have hne : (absSeg ε s.store.heap j).a ≠ (absSeg ε s.store.heap j).b := pj.ne
    refine Col.trans ?_ c1
    exact col_of_two hne (s1.2.2.trans a1.symm) (s2.2.2.trans a2.symm)
  refine ⟨?_, ?_, ?_, ?_, ?_, ?_⟩
  · intro o hE i hi hf m hm hv
    obtain ⟨ε, Y, p, F', p', ho, S0, hvx, S, l, -, hp, h⟩ := init m
    have hFF : F' = F := l.fin.trans hF.symm
    subst hFF
    obtain ⟨R, side⟩ := h o hE
    have hmp : m ∉ Pt := fun h => hv (hvx m h)
    have hin := fin.bound i hi
    have I := S.inv'
    have inn := S.inner hmp hin hm
    rcases side i (by simp [hi]) hf with e | e
    swap
    · exact absurd e (pend S l i (leftOf i hi))
    have hm' := (mem_segment (I.proper i hin)).1 hm
    rw [I.par_piece R.deg hin ⟨inn.1.le, inn.2⟩ (inn.2.trans_le (I.fin i hi)), hp] at e
    have htc := colOf (o := o) S0 S hmp hin hm
    rw [S0.par_point ho (m := m) (by simp) hmp hm'.2.2 htc, below_init] at e
    have ex : (o = true ∧ (absSeg ε s.store.heap i).ff = false ∧ ∃ k < (initStore O.toPayload d first second).heap.count,
        (initStore O.toPayload d first second).heap.first k = o ∧
        m ∈ ((initStore O.toPayload d first second).heap.segment k).pts) ↔
        (o = true ∧ m ∈ segsPts (operand first second o)) := by
      constructor
      · rintro ⟨h1, -, k, hk, hko, hmk⟩
        rw [fr.count] at hk
        have hx := List.getElem?_eq_getElem hk
        rw [fr.segment hx, pts_lo_hi] at hmk
        rw [(fr.get k _ hx).2.2.2.2] at hko
        refine ⟨h1, _, ?_, hmk⟩
        rw [← hko]
        exact operand_mem hx
      · rintro ⟨h1, e, he, hme⟩
        obtain ⟨k, hk⟩ := mem_operand he
        refine ⟨h1, ?_, k, ?_, (fr.get k _ hk).2.2.2.2, ?_⟩
        · show s.store.heap.first i = false
          rw [hf, h1]; rfl
        · rw [fr.count]; exact (List.getElem?_eq_some_iff.1 hk).1
        · rw [fr.segment hk, pts_lo_hi]; exact hme
    rw [ind_congr ex] at e
    rw [← ind_eq_one (P := f.X s.store.heap i = true), e]
    generalize Inside (operand first second o) m = P
    generalize (o = true ∧ m ∈ segsPts (operand first second o)) = Q
    by_cases h1 : P <;> by_cases h2 : Q
    · rw [ind_pos h1, ind_pos h2]; simp [h1, h2, Xor]
    · rw [ind_pos h1, ind_neg h2]; simp [h1, h2, Xor]
    · rw [ind_neg h1, ind_pos h2]; simp [h1, h2, Xor]
    · rw [ind_neg h1, ind_neg h2]; simp [h1, h2, Xor]
  · intro o hE i hin hf m hm hv
    obtain ⟨ε, Y, p, F', p', ho, S0, hvx, S, l, -, hp, h⟩ := init m
    obtain ⟨R, -⟩ := h o hE
    have hmp : m ∉ Pt := fun h => hv (hvx m h)
    have I := S.inv'
    have inn := S.inner hmp hin hm
    have hm' := (mem_segment (I.proper i hin)).1 hm
    have e := R.own i hin hf (sx ε m) ⟨inn.1.le, inn.2⟩
    have htc := colOf (o := o) S0 S hmp hin hm
    rw [hp, S0.par_point ho (m := m) (by simp) hmp hm'.2.2 htc, below_init, ind_neg (P := o = true ∧ _), add_zero,
      ← ind_not] at e
    · by_cases h1 : f.I s.store.heap i = true <;> by_cases h2 : Inside (operand first second o) m
      · rw [ind_pos h1, ind_neg (not_not.2 h2)] at e; cases e
      · simp [h1, h2]
      · simp [h1, h2]
      · rw [ind_neg h1, ind_pos h2] at e; cases e
    · rintro ⟨h1, h2, -⟩
      have : s.store.heap.first i = false := h2
      rw [hf, h1] at this; cases this
  · intro i hi j hj hf m hmi hmj hv
    obtain ⟨ε, Y, p, F', p', ho, S0, hvx, S, -⟩ := init m
    exact S.unique_point (fun h => hv (hvx m h)) hi hj hmi hmj hf
  · intro o hE i hlog hiF hf hall
    obtain ⟨ε, Y, p, F', p', ho, S0, hvx, S, l, D, hp, h⟩ := init ⟨0, 0⟩
    have hFF : F' = F := l.fin.trans hF.symm
    subst hFF
    obtain ⟨R, side⟩ := h o hE
    have I := S.inv'
    have hiL : i ∈ s.line := ((l.left i).1 hlog).resolve_right hiF
    have hin := I.ltn hiL
    have pr : ∀ i < s.store.heap.count, (absSeg ε s.store.heap i).a < (absSeg ε s.store.heap i).b := I.proper
    have ps := pop_spec (tb := tb) S.ok S.pts pr S.queue.evOk
    have hright : Ev.right (s.store.heap.lefts i).right ∈ s.store.queue :=
      (S.queue.right _).2 ⟨S.ok.rlt i hin, by rwa [S.ok.lr i hin]⟩
    have key : f.X s.store.heap i = false := by
      rcases hpop : pop tb s.store with _ | ⟨e, q⟩
      · rw [ps.1.1 hpop] at hright; cases hright
      obtain ⟨he, -, hmin⟩ := ps.2 e q hpop
      have heo := S.queue.evOk e he
      have hest : stop (s.store.heap.evStart e) = true := by
        by_contra hc
        have hlg : e ∈ log.map Prod.fst := (logmem e).2 ⟨heo, by simpa using hc⟩
        cases e with
        | left k =>
          have := (S.queue.left k).1 he
          rcases (l.left k).1 hlg with g | g
          exacts [this.2.1 g, this.2.2 g]
        | right k =>
          have := (S.queue.right k).1 he
          obtain ⟨x, hx, hxk⟩ := (l.right k).1 hlg
          apply this.2
          rw [← hxk, S.ok.lr x (fin.bound x hx)]; exact hx
      have before : ∀ e', e' ∈ log.map Prod.fst → evX ε s.store.heap e' < evX ε s.store.heap e := by
        intro e' he'
        obtain ⟨g1, g2⟩ := (logmem e').1 he'
        by_contra hc
        push Not at hc
        have : s.store.heap.evStart e ≤ s.store.heap.evStart e' :=
          (S.pts.ord.le_iff (evStart_mem S.ok S.pts heo) (evStart_mem S.ok S.pts g1)).2 hc
        rw [mono _ _ this hest] at g2; cases g2
      obtain ⟨n1, n2, n3, -⟩ := S.next he hmin (fun i _ => rfl) I
      have I' := I.advance' n1 n2 n3
      -- a place behind all segments of the other operand
      obtain ⟨c, c1, c2, c3⟩ : ∃ c, (absSeg ε s.store.heap i).a ≤ c ∧ c < evX ε s.store.heap e ∧
          ∀ k < s.store.heap.count, s.store.heap.first k = o → (absSeg ε s.store.heap k).b ≤ c := by
        set T : Finset ℚ := insert (absSeg ε s.store.heap i).a
          (((Finset.range s.store.heap.count).filter fun k => s.store.heap.first k = o).image
            fun k => (absSeg ε s.store.heap k).b) with hT
        have hne : T.Nonempty := ⟨_, Finset.mem_insert_self _ _⟩
        refine ⟨T.max' hne, T.le_max' _ (Finset.mem_insert_self _ _), ?_, ?_⟩
        · have hmem : ∀ z ∈ T, z = (absSeg ε s.store.heap i).a ∨ ∃ k ∈ (Finset.range s.store.heap.count).filter
              (fun k => s.store.heap.first k = o), (absSeg ε s.store.heap k).b = z := by
            intro z hz
            rwa [hT, Finset.mem_insert, Finset.mem_image] at hz
          rcases hmem _ (T.max'_mem hne) with h | ⟨k, hk, h⟩
          · rw [h]; exact before _ hlog
          · rw [Finset.mem_filter, Finset.mem_range] at hk
            rw [← h]
            exact before (.right (s.store.heap.lefts k).right) ((l.right _).2 ⟨k, hall k hk.1 hk.2, rfl⟩)
        · intro k hk hko
          refine T.le_max' _ ?_
          rw [hT]
          exact Finset.mem_insert_of_mem (Finset.mem_image.2 ⟨k, by simp [hk, hko], rfl⟩)
      rcases side i (by simp [hiL]) hf with e' | e'
      swap
      · exact absurd e' (pend S l i hlog)
      have act : Act c (absSeg ε s.store.heap i) := ⟨c1, c2.trans_le (n3 i hiL)⟩
      rw [I'.par_piece R.deg hin act c2] at e'
      have z : par (absSeg ε s.store.heap) s.store.heap.count o c (absSeg ε s.store.heap i) = 0 := by
        unfold par
        refine Finset.sum_eq_zero fun k hk => ind_neg ?_
        rintro ⟨g1, g2, -⟩
        have := c3 k (Finset.mem_range.1 hk) g1
        linarith [g2.2]
      rw [z, ind_eq_zero] at e'
      simpa using e'
    refine ⟨key, ?_⟩
    rcases D.res i (by simp [hiL]) with ⟨k, hk, hki, hh, hr⟩ | ⟨-, hr⟩
    · exfalso
      have hkn := I.bound k hk
      have nf := S.hot_first hin hkn hki.symm hh
      have hko : s.store.heap.first k = o := by
        rw [hf] at nf
        revert nf
        cases s.store.heap.first k <;> cases o <;> simp
      exact hiF (hot_end S (hall k hkn hko) hin hh.symm).2
    · rw [hr, key]
  · intro i hi
    obtain ⟨ε, Y, p, F', p', ho, S0, hvx, S, l, D, hp, h⟩ := init ⟨0, 0⟩
    have hFF : F' = F := l.fin.trans hF.symm
    subst hFF
    have I := S.inv'
    have hin := fin.bound i hi
    rcases D.res i (by simp [hi]) with ⟨k, hk, hki, hh, hr⟩ | ⟨hn, hr⟩
    · left
      have := hot_end S hi (I.bound k hk) hh
      exact ⟨k, this.2, hki, this.1.symm, hr⟩
    · right
      refine ⟨?_, hr⟩
      intro k hk hki e
      have e1 : s.store.heap.start k = s.store.heap.start i := congrArg Segment.start e
      have e2 : s.store.heap.stop k = s.store.heap.stop i := congrArg Segment.stop e
      have hkF : k ∈ F' := by
        rw [fin.done k hk, e2, ← fin.done i hin]; exact hi
      refine hn k (by simp [hkF]) hki ⟨?_, ?_⟩
      · unfold absSeg
        rw [e1, e2]
        exact ⟨rfl, rfl⟩
      · rw [abs_a, abs_a, e1]
  · intro i hlog
    obtain ⟨ε, Y, p, F', p', ho, S0, hvx, S, l, D, hp, h⟩ := init ⟨0, 0⟩
    have hi : i ∈ s.line ++ F' := by
      rw [List.mem_append]; exact (l.left i).1 hlog
    rcases D.res i hi with ⟨k, -, -, -, hr⟩ | ⟨-, hr⟩
    · exact ⟨_, _, hr⟩
    · exact ⟨_, _, hr⟩

end Clipping

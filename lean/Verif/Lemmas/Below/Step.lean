import Verif.Lemmas.Below.Inv

/-!
# Events below in every state of the sweep
-/

namespace Clipping

open Sweep

variable {rule : ShapedRule} {ε : ℚ} {Pt : List Point} {Y : ℚ → ℚ} {L F : List ℕ} {p : ℚ}

theorem bwFrom_some {h : Heap ShapedData} {c b : ℕ} (e : bwFrom rule h c = some b) :
    (b = c ∧ rule (h.first c) (h.lefts c).data = true) ∨ Bw h c = some b := by
  unfold bwFrom at e
  split_ifs at e with h1
  · exact Or.inr e
  · left
    simp only [Bool.or_eq_true, not_or, Bool.not_eq_true, Bool.not_eq_false'] at h1
    exact ⟨(Option.some.inj e).symm, h1.1⟩

theorem BelowInv.left (hr : RuleOk rule) {s s' : Store ShapedData} {M : List ℕ} {p' : ℚ} {t : ℕ} {l₁ l₂ : List ℕ}
    (S : St ε Pt Y s L F p NoEx) (S' : St ε Pt Y s' (l₁ ++ t :: l₂) F p' NoEx)
    (G : LeftGeo Y (absSeg ε s.heap) s.heap.count L F p' t l₁ l₂) (ev : Evolves (holeyOps rule) ε Pt M s s')
    (ld : LeftData (shapedFlags (isShaped_holey hr)) ε s s' t l₁ l₂) (lb : LeftBelow rule ε s s' t l₁ l₂)
    (B : BelowInv rule ε s L F p) : BelowInv rule ε s' (l₁ ++ t :: l₂) F p' := by
  set A := absSeg ε s.heap with hA
  set n := s.heap.count with hn
  have hp : p ≤ p' := by rw [← G.ta]; exact S.inv'.wait t G.tn G.tL G.tF
  have mem : ∀ i, i ∈ l₁ ++ t :: l₂ ++ F ↔ i = t ∨ i ∈ L ++ F := by
    intro i
    rw [G.hL]
    simp only [List.mem_append, List.mem_cons]
    tauto
  have bd : ∀ i, i = t ∨ i ∈ L ++ F → i < n := by
    rintro i (rfl | h)
    · exact G.tn
    · exact G.inv.bound i h
  have net : ∀ i ∈ L ++ F, i ≠ t := by
    rintro i hi rfl
    rcases List.mem_append.1 hi with h | h
    exacts [G.tL h, G.tF h]
  have nd : (l₁ ++ l₂).Nodup := by rw [← G.hL]; exact G.inv.nodupL
  have hot : ∀ u v, u < n → v < n → (Hot ε s'.heap u v ↔ Hot ε s.heap u v) := fun u v hu hv => ev.hot S S' hu hv
  have l1L : ∀ j ∈ l₁, j ∈ L := fun j hj => by rw [G.hL]; simp [hj]
  have l2L : ∀ j ∈ l₂, j ∈ L := fun j hj => by rw [G.hL]; simp [hj]
  have LF : ∀ j ∈ L, j ∈ L ++ F := fun j hj => by simp [hj]
  have hd2 : ∀ a, l₂.head? = some a → a ∈ l₂ := fun a ha => List.mem_of_mem_head? ha
  have hd1 : ∀ a, l₁.getLast? = some a → a ∈ l₁ := fun a ha => List.mem_of_getLast? ha
  have ne12 : ∀ a ∈ l₁, ∀ b ∈ l₂, a ≠ b := fun a ha b hb => (List.nodup_append.1 nd).2.2 a ha b hb
  have ord' : ∀ u < n, ∀ v < n, (Ord (absSeg ε s'.heap u) (absSeg ε s'.heap v) ↔ Ord (A u) (A v)) := by
    intro u hu v hv
    obtain ⟨a1, a2, a3, -⟩ := ev.abs S S' hu
    obtain ⟨b1, b2, b3, -⟩ := ev.abs S S' hv
    unfold Ord
    rw [a1.1, a2, a3, b1.1, b2, b3]
  have nw : ∀ k, k ∉ l₁ ++ t :: l₂ → k ≠ t ∧ k ∉ L := by
    intro k hk
    simp only [List.mem_append, List.mem_cons, not_or] at hk
    exact ⟨hk.2.1, by rw [G.hL]; simp [hk.1, hk.2.2]⟩
  have nonew : ∀ b ∈ L ++ F, ∀ k < s'.heap.count, n ≤ k → k ∉ l₁ ++ t :: l₂ → k ∉ F → ¬ Hot ε s'.heap k b :=
    fun b hb k hk hge k1 k2 => B.no_new S S' ev hp hb hk hge k1 k2
  -- what is claimed of an event below
  let Ok : ℕ → Prop := fun b => b ∈ l₁ ++ t :: l₂ ++ F ∧ (s'.heap.lefts b).data.fromShapedResult = true ∧
    ∀ k < s'.heap.count, k ∉ l₁ ++ t :: l₂ → k ∉ F → ¬ Hot ε s'.heap k b
  have base : ∀ i ∈ L ++ F, ∀ b, Bw s.heap i = some b → Ok b ∧ b < n ∧ Ord (A b) (A i) := by
    intro i hi b hb
    obtain ⟨m1, m2, m3, m4⟩ := B.main i hi b hb
    have ht := m4 t G.tn G.tL G.tF
    refine ⟨⟨(mem b).2 (Or.inr m1), ?_, ?_⟩, G.inv.bound b m1, m3⟩
    · have := (ld.rest b (G.inv.bound b m1) (net b m1) (fun a _ hh e => ht (e ▸ hh))
        (fun a _ hh e => ht (by rw [e]; exact hh.symm))).2
      exact this.trans m2
    · intro k hk k1 k2 hh
      by_cases hkn : k < n
      · exact m4 k hkn (nw k k1).2 k2 ((hot k b hkn (G.inv.bound b m1)).1 hh)
      · exact nonew b m1 k hk (not_lt.1 hkn) k1 k2 hh
  have dec : ∀ i, (i = t ∨ i ∈ L ++ F) → Decided rule s'.heap i := by
    rintro i (rfl | hi)
    · exact lb.decided
    · by_cases ha : l₂.head? = some i ∧ Hot ε s.heap t i
      · exact (lb.above i ha.1 ha.2).2
      by_cases hb : l₁.getLast? = some i ∧ Hot ε s.heap i t
      · exact (lb.below i hb.1 hb.2).1
      have hin := G.inv.bound i hi
      exact (B.decided i hi).congr (ev.first i hin) (lb.old i hin (net i hi)
        (fun a h1 h2 e => ha ⟨e ▸ h1, e ▸ h2⟩) (fun b h1 h2 e => hb ⟨e ▸ h1, e ▸ h2⟩))
  -- a segment below which does not overlap
  have key : ∀ d ∈ l₁, ¬ Hot ε s.heap d t → ∀ b, bwFrom rule s'.heap d = some b →
      Ok b ∧ b < n ∧ (b = d ∨ Ord (A b) (A d)) := by
    intro d hd hnh b hb
    have hdL := LF d (l1L d hd)
    have hdn := G.inv.bound d hdL
    rcases bwFrom_some hb with ⟨rfl, hrule⟩ | hbd
    · refine ⟨⟨(mem b).2 (Or.inr hdL), ?_, ?_⟩, hdn, Or.inl rfl⟩
      · have := dec b (Or.inr hdL)
        unfold Decided at this
        rw [← this]; exact hrule
      · intro k hk k1 k2 hh
        by_cases hkn : k < n
        · rw [hot k b hkn hdn] at hh
          have w := G.inv.wait k hkn (nw k k1).2 k2
          have hba := (G.inv.act b (l1L b hd)).1
          have hbp : (A b).a = p' := le_antisymm hba (by rw [← hh.2]; exact w)
          rcases slope_of_bel (G.inv.endsY b hdn).1 (G.inv.endsY t G.tn).1 hbp G.ta (G.lo b hd) with h' | h'
          · have hkt : (A k).m < (A t).m := by rw [hh.1.1]; exact h'
            have hka : (A k).a = p' := hh.2.trans hbp
            have yk : (A k).y p' = (A t).y p' := by
              have e1 := (G.inv.endsY k hkn).1
              have e2 := (G.inv.endsY t G.tn).1
              rw [hka] at e1
              rw [G.ta] at e2
              rw [e1, e2]
            have := (G.q k hkn (nw k k1).2 k2 hka (Or.inr ⟨yk, Or.inl hkt⟩)).2.1.1
            linarith
          · exact hnh h'
        · exact nonew b hdL k hk (not_lt.1 hkn) k1 k2 hh
    · have e : Bw s'.heap d = Bw s.heap d := by
        unfold Bw
        rw [lb.old d hdn (net d hdL) (fun a ha _ => ne12 d hd a (hd2 a ha)) (fun b' hb' hh e => hnh (e ▸ hh))]
      rw [e] at hbd
      obtain ⟨o1, o2, o3⟩ := base d hdL b hbd
      exact ⟨o1, o2, Or.inr o3⟩
  have ordt : ∀ d ∈ l₁, Ord (A d) (A t) := fun d hd =>
    ord_of_bel (G.inv.endsY d (bd d (Or.inr (LF d (l1L d hd))))).1 (G.inv.endsY t G.tn).1 (G.inv.act d (l1L d hd)).1 G.ta
      (G.lo d hd)
  -- the overlapping one below
  have low : ∀ c, l₁.getLast? = some c → Hot ε s.heap c t → ∀ b, Bw s'.heap c = some b → Ok b ∧ b < n ∧ Ord (A b) (A c) := by
    intro c hc hh b hb
    have hcl := hd1 c hc
    have hcL := LF c (l1L c hcl)
    rw [(lb.below c hc hh).2] at hb
    cases hd : l₁.dropLast.getLast? with
    | none =>
      rw [hd] at hb
      exact base c hcL b hb
    | some d =>
      rw [hd] at hb
      have hdl : d ∈ l₁.dropLast := List.mem_of_getLast? hd
      obtain ⟨l, hl⟩ := List.getLast?_eq_some_iff.1 hc
      have hll : l₁.dropLast = l := by rw [hl]; simp
      rw [hll] at hdl
      have hd1' : d ∈ l₁ := by rw [hl]; simp [hdl]
      have hdc : d ≠ c := by
        have := (List.nodup_append.1 nd).1
        rw [hl] at this
        exact (List.nodup_append.1 this).2.2 d hdl c (by simp)
      have hdn := bd d (Or.inr (LF d (l1L d hd1')))
      have hcn := bd c (Or.inr hcL)
      have hnh : ¬ Hot ε s.heap d t := fun h' =>
        S.hot_three hdn G.tn hcn (net d (LF d (l1L d hd1'))) (net c hcL).symm hdc h' hh.symm
      obtain ⟨o1, o2, o3⟩ := key d hd1' hnh b hb
      have pw := G.inv.belPair G.hne
      rw [G.hL, hl] at pw
      have bdc : Bel p' (A d) (A c) := (List.pairwise_append.1 (List.pairwise_append.1 pw).1).2.2 d hdl c (by simp)
      have odc : Ord (A d) (A c) := ord_of_bel (G.inv.endsY d hdn).1 (G.inv.endsY c hcn).1
        (G.inv.act d (l1L d hd1')).1 (hh.2.trans G.ta) bdc
      refine ⟨o1, o2, ?_⟩
      rcases o3 with rfl | o3
      · exact odc
      · exact o3.trans odc
  -- the new one
  have self : ∀ b, Bw s'.heap t = some b → Ok b ∧ b < n ∧ Ord (A b) (A t) := by
    intro b hb
    rw [lb.self] at hb
    cases hc : l₁.getLast? with
    | none =>
      rw [hc] at hb
      dsimp only at hb
      rw [B.wait t G.tn G.tL G.tF] at hb
      cases hb
    | some c =>
      rw [hc] at hb
      dsimp only at hb
      have hcl := hd1 c hc
      have hcL := LF c (l1L c hcl)
      have hcn := bd c (Or.inr hcL)
      by_cases hh : Hot ε s.heap c t
      · rcases bwFrom_some hb with ⟨rfl, hrule⟩ | hbd
        · refine ⟨⟨(mem b).2 (Or.inr hcL), ?_, ?_⟩, hcn, ordt b hcl⟩
          · have := dec b (Or.inr hcL)
            unfold Decided at this
            rw [← this]; exact hrule
          · intro k hk k1 k2 h'
            have e1 := (nw k k1).1
            have e2 : k ≠ b := fun e => (nw k k1).2 (e ▸ l1L b hcl)
            have hb' : Hot ε s'.heap b t := (hot b t hcn G.tn).2 hh
            exact S'.hot_three hk (hcn.trans_le ev.count) (G.tn.trans_le ev.count) e2 (net b hcL) e1 h' hb'
        · obtain ⟨o1, o2, o3⟩ := low c hc hh b hbd
          exact ⟨o1, o2, o3.trans (ordt c hcl)⟩
      · obtain ⟨o1, o2, o3⟩ := key c hcl hh b hb
        refine ⟨o1, o2, ?_⟩
        rcases o3 with rfl | o3
        · exact ordt b hcl
        · exact o3.trans (ordt c hcl)
  refine ⟨?_, fun i hi => dec i ((mem i).1 hi), ?_, ?_⟩
  · intro k hk k1 k2
    by_cases hkn : k < n
    · obtain ⟨e1, e2⟩ := nw k k1
      have e : (s'.heap.lefts k).data = (s.heap.lefts k).data := lb.old k hkn e1
        (fun a ha _ e => e2 (e ▸ l2L a (hd2 a ha))) (fun b hb _ e => e2 (e ▸ l1L b (hd1 b hb)))
      unfold Bw
      rw [e]
      exact B.wait k hkn e2 k2
    · exact lb.new k hk (not_lt.1 hkn)
  · intro b hb hba u hu hua hub hcol
    have hbm : b = t ∨ b ∈ L := by
      rw [G.hL]; simp only [List.mem_append, List.mem_cons] at hb ⊢; tauto
    have hum : u = t ∨ u ∈ L := by
      rw [G.hL]; simp only [List.mem_append, List.mem_cons] at hu ⊢; tauto
    have hbn := bd b (hbm.imp id (LF b))
    have hun := bd u (hum.imp id (LF u))
    obtain ⟨a1, a2, a3, -⟩ := ev.abs S S' hbn
    obtain ⟨b1, b2, b3, b4⟩ := ev.abs S S' hun
    have hcol0 : Col (A u) (A b) := b1.symm.trans (hcol.trans a1)
    have hua0 : (A u).a < p' := by rw [← b3]; exact hua
    have huL : u ∈ L := by
      rcases hum with rfl | h
      · have := G.ta; linarith
      · exact h
    rcases hbm with rfl | hbL
    · have hff : (A u).ff ≠ (A b).ff := by
        intro hf
        have p1 := G.inv.proper u hun
        have p2 := G.inv.proper b hbn
        have hta := G.ta
        have hub0 : p' < (A u).b := hub.trans_le b4
        rcases G.inv.noOv u hun b hbn (net u (LF u huL)) hcol0 hf with h' | h' <;> linarith
      have hyy : (absSeg ε s'.heap u).y p' = (absSeg ε s'.heap b).y p' := hcol.y p'
      have pb := S'.inv'.proper b (hbn.trans_le ev.count)
      have fin : ∀ x y : ℕ, Checked (absSeg ε s'.heap x) (absSeg ε s'.heap y) → (x = u ∧ y = b ∨ x = b ∧ y = u) → False := by
        rintro x y hc (⟨rfl, rfl⟩ | ⟨rfl, rfl⟩)
        · rcases hc p' ⟨hua.le, hub.le, hba.le, by rw [hba] at pb; exact pb.le, hyy⟩ with ⟨h' | h', -⟩ | ⟨-, h'⟩
          · linarith
          · linarith
          · linarith
        · rcases hc p' ⟨hba.le, by rw [hba] at pb; exact pb.le, hua.le, hub.le, hyy.symm⟩ with ⟨-, h' | h'⟩ | ⟨-, h'⟩
          · linarith
          · linarith
          · linarith
      rcases G.col_adj huL hcol0.symm hff with h' | h'
      · obtain ⟨l, rfl⟩ : ∃ l, l₂ = u :: l := by
          cases l₂ with
          | nil => cases h'
          | cons x l => simp only [List.head?_cons, Option.some.injEq] at h'; subst h'; exact ⟨l, rfl⟩
        exact fin b u (S'.inv'.adj b u ⟨l₁, l, rfl⟩ (fun h => h)) (Or.inr ⟨rfl, rfl⟩)
      · obtain ⟨l, rfl⟩ := List.getLast?_eq_some_iff.1 h'
        exact fin u b (S'.inv'.adj u b ⟨l, l₂, by simp⟩ (fun h => h)) (Or.inl ⟨rfl, rfl⟩)
    · have hbp : (A b).a ≤ p := (S.inv'.act b hbL).1
      have hpp : p = p' := le_antisymm hp (by rw [← hba, a3]; exact hbp)
      refine B.thru b hbL (by rw [hpp, ← hba, a3]) u huL (by rw [hpp]; exact hua0) ?_ hcol0
      rw [hpp]; exact hub.trans_le b4
  · intro i hi b hb
    rw [mem] at hi
    have wrap : (Ok b ∧ b < n ∧ Ord (A b) (A i)) → b ∈ l₁ ++ t :: l₂ ++ F ∧
        (s'.heap.lefts b).data.fromShapedResult = true ∧ Ord (absSeg ε s'.heap b) (absSeg ε s'.heap i) ∧
        ∀ k < s'.heap.count, k ∉ l₁ ++ t :: l₂ → k ∉ F → ¬ Hot ε s'.heap k b :=
      fun h => ⟨h.1.1, h.1.2.1, (ord' b h.2.1 i (bd i hi)).2 h.2.2, h.1.2.2⟩
    apply wrap
    rcases hi with rfl | hi
    · exact self b hb
    by_cases ha : l₂.head? = some i ∧ Hot ε s.heap t i
    · obtain ⟨ha, hh⟩ := ha
      have hi2 := hd2 i ha
      have hin := bd i (Or.inr hi)
      rw [(lb.above i ha hh).1] at hb
      have oti : Ord (A t) (A i) := ord_of_bel (G.inv.endsY t G.tn).1 (G.inv.endsY i hin).1 G.ta.le (hh.2.symm.trans G.ta)
        (G.hi i hi2)
      rcases bwFrom_some hb with ⟨rfl, hrule⟩ | hbd
      · refine ⟨⟨(mem b).2 (Or.inl rfl), ?_, ?_⟩, G.tn, oti⟩
        · have := dec b (Or.inl rfl)
          unfold Decided at this
          rw [← this]; exact hrule
        · intro k hk k1 k2 h'
          have e1 := (nw k k1).1
          have e2 : k ≠ i := fun e => (nw k k1).2 (e ▸ l2L i hi2)
          exact S'.hot_three hk (G.tn.trans_le ev.count) (hin.trans_le ev.count) e1 (net i hi).symm e2 h'
            ((hot b i G.tn hin).2 hh)
      · obtain ⟨o1, o2, o3⟩ := self b hbd
        exact ⟨o1, o2, o3.trans oti⟩
    by_cases hc : l₁.getLast? = some i ∧ Hot ε s.heap i t
    · exact low i hc.1 hc.2 b hb
    have hin := G.inv.bound i hi
    have e : Bw s'.heap i = Bw s.heap i := by
      unfold Bw
      rw [lb.old i hin (net i hi) (fun a h1 h2 e => ha ⟨e ▸ h1, e ▸ h2⟩) (fun b h1 h2 e => hc ⟨e ▸ h1, e ▸ h2⟩)]
    rw [e] at hb
    exact base i hi b hb

end Clipping

import Verif.Lemmas.Below.Compare
import Verif.Lemmas.Below.End
import Verif.Lemmas.Shaped.TwinEnd

/-!
# Events below at the end of two sweeps over the same edges
-/

namespace Clipping

open Sweep

/-- the sheared segment -/
def normSeg (ε : ℚ) (s : Segment) : Seg := seg ε s.lo s.hi true

theorem SameEdges.normSegs {A B : List Segment} (h : SameEdges A B) (ε : ℚ) :
    (A.map (normSeg ε)).Perm (B.map (normSeg ε)) := by
  have := List.Perm.map (fun s : Segment => seg ε s.start s.stop true) h
  rw [List.map_map, List.map_map] at this
  exact this

theorem origs_init {α : Type} (ε : ℚ) (P : Payload α) (d : α) (A B : List Segment) :
    origs ε (initStore P d A B).heap = (A ++ B).map (normSeg ε) := by
  have fr := fresh_init P d A B
  rw [← marked_fst A B, List.map_map]
  unfold origs
  refine List.ext_getElem (by simp [fr.count]) fun k h1 h2 => ?_
  simp only [List.getElem_map, List.getElem_range, Function.comp]
  have hk : k < (marked A B).length := by simpa using h2
  have e := fr.segment (List.getElem?_eq_getElem hk)
  have e1 : (initStore P d A B).heap.start k = (marked A B)[k].1.lo := congrArg Segment.start e
  have e2 : (initStore P d A B).heap.stop k = (marked A B)[k].1.hi := congrArg Segment.stop e
  unfold absSeg normSeg
  rw [e1, e2]
  rfl

theorem pointAt_segs {ε v : ℚ} {s t : Segment} (h : sx ε s.lo < sx ε s.hi) (h' : sx ε t.lo < sx ε t.hi)
    (hc : Com (normSeg ε s) (normSeg ε t) v) : ∃ q, q ∈ s.pts ∧ q ∈ t.pts ∧ sx ε q = v := by
  obtain ⟨q, h1, h2, h3⟩ := (com_seg h h').1 hc
  rw [pts_lo_hi] at h1 h2
  exact ⟨q, h1, h2, h3⟩

theorem mem_normSeg {ε : ℚ} {s : Segment} (h : sx ε s.lo < sx ε s.hi) {q : Point} :
    q ∈ s.pts ↔ (normSeg ε s).a ≤ sx ε q ∧ sx ε q ≤ (normSeg ε s).b ∧ (normSeg ε s).y (sx ε q) = q.y := by
  rw [← pts_lo_hi]
  exact mem_seg (ff := true) h

/-- Vertices of an arrangement in the sheared plane. -/
theorem vertexSeg_of_vertex {ε : ℚ} {l : List Segment} (ho : ∀ s ∈ l, sx ε s.lo < sx ε s.hi) {q : Point} (h : Vertex l q) :
    VertexSeg (l.map (normSeg ε)) (sx ε q) q.y := by
  have ends : ∀ s ∈ l, s.IsEnd q → VertexSeg (l.map (normSeg ε)) (sx ε q) q.y := by
    intro s hs hq
    refine Or.inl ⟨_, List.mem_map_of_mem hs, ?_, ?_⟩
    · rcases (Segment.isEnd_iff ..).1 hq with h | h
      · exact Or.inl (by rw [h]; rfl)
      · exact Or.inr (by rw [h]; rfl)
    · refine ((mem_normSeg (ho s hs)).1 ?_).2.2
      rcases hq with h | h <;> rw [h]
      · exact s.start_mem
      · exact s.stop_mem
  rcases h with ⟨s, hs, hq⟩ | ⟨s, hs, t, ht, hst⟩
  · exact ends s hs hq
  have hq : q ∈ s.pts ∩ t.pts := by rw [hst]; exact rfl
  have q1 := (mem_normSeg (ho s hs)).1 hq.1
  have q2 := (mem_normSeg (ho t ht)).1 hq.2
  by_cases hc : Col (normSeg ε s) (normSeg ε t)
  · have key : (normSeg ε s).a = sx ε q ∨ (normSeg ε s).b = sx ε q ∨ (normSeg ε t).a = sx ε q ∨ (normSeg ε t).b = sx ε q := by
      by_contra hn
      push Not at hn
      have a1 := lt_of_le_of_ne q1.1 hn.1
      have a2 := lt_of_le_of_ne q1.2.1 (Ne.symm hn.2.1)
      have a3 := lt_of_le_of_ne q2.1 hn.2.2.1
      have a4 := lt_of_le_of_ne q2.2.1 (Ne.symm hn.2.2.2)
      have hlt : sx ε q < min (normSeg ε s).b (normSeg ε t).b := lt_min a2 a4
      have l1 := min_le_left (normSeg ε s).b (normSeg ε t).b
      have l2 := min_le_right (normSeg ε s).b (normSeg ε t).b
      obtain ⟨r, r1, r2, r3⟩ := pointAt_segs (v := (min (normSeg ε s).b (normSeg ε t).b)) (ho s hs) (ho t ht)
        ⟨by linarith, l1, by linarith, l2, hc.y _⟩
      have : r = q := by
        have : r ∈ s.pts ∩ t.pts := ⟨r1, r2⟩
        rw [hst] at this
        exact this
      rw [this] at r3
      exact hlt.ne r3
    have val : ∀ u ∈ l, q ∈ u.pts → (normSeg ε u).a = sx ε q ∨ (normSeg ε u).b = sx ε q →
        VertexSeg (l.map (normSeg ε)) (sx ε q) q.y := fun u hu hqu h =>
      Or.inl ⟨_, List.mem_map_of_mem hu, h.imp Eq.symm Eq.symm, ((mem_normSeg (ho u hu)).1 hqu).2.2⟩
    rcases key with h | h | h | h
    · exact val s hs hq.1 (Or.inl h)
    · exact val s hs hq.1 (Or.inr h)
    · exact val t ht hq.2 (Or.inl h)
    · exact val t ht hq.2 (Or.inr h)
  · exact Or.inr ⟨_, List.mem_map_of_mem hs, _, List.mem_map_of_mem ht, hc,
      ⟨q1.1, q1.2.1, q2.1, q2.2.1, q1.2.2.trans q2.2.2.symm⟩, q1.2.2⟩

section
variable {α : Type} {O : Ops α} {ε : ℚ} {Pt : List Point} {Y : ℚ → ℚ} {L F L₀ F₀ : List ℕ} {p p₀ : ℚ}
  {Ex₀ : ℕ → ℕ → Prop} {s₀ s : Store α} (S₀ : St ε Pt Y s₀ L₀ F₀ p₀ Ex₀) (S : St ε Pt Y s L F p NoEx)
  (R : Orig O ε s₀.heap s.heap) (hv : ∀ q ∈ Pt, VertexSeg (origs ε s₀.heap) (sx ε q) q.y)
include S₀ S R hv

theorem Sweep.Orig.pieces : Pieces (origs ε s₀.heap) Y (absSeg ε s.heap) s.heap.count L F p := by
  have I₀ := S₀.inv'
  have I := S.inv'
  -- the segment of the first store which a segment is part of
  have same : ∀ k < s₀.heap.count, ∀ w < s.heap.count, Col (absSeg ε s.heap w) (absSeg ε s₀.heap k) →
      (absSeg ε s.heap w).ff = (absSeg ε s₀.heap k).ff → (absSeg ε s.heap w).a < (absSeg ε s₀.heap k).b →
      (absSeg ε s₀.heap k).a < (absSeg ε s.heap w).b →
      (absSeg ε s₀.heap k).a ≤ (absSeg ε s.heap w).a ∧ (absSeg ε s.heap w).b ≤ (absSeg ε s₀.heap k).b := by
    intro k hk w hw hc hf h1 h2
    obtain ⟨m, hm, m1, m2, m3, m4⟩ := R.parent S₀ S hw
    have : m = k := by
      by_contra hne
      rcases I₀.noOv m hm k hk hne (m1.symm.trans hc) (m2.symm.trans hf) with h | h <;> linarith
    rw [← this]
    exact ⟨m3, m4⟩
  refine ⟨I, ?_, ?_, ?_, ?_, ?_, ?_⟩
  · intro i hi
    obtain ⟨k, hk, k1, k2, k3, k4⟩ := R.parent S₀ S hi
    exact ⟨_, mem_origs hk, k1, k3, k4⟩
  · intro e he c hc
    obtain ⟨k, hk, rfl⟩ := of_mem_origs he
    obtain ⟨w, hw, w1, w2, w3⟩ := R.after S₀ S hk hc
    refine ⟨w, hw, w1, w3, (same k hk w hw w1 w2 (w3.1.trans_lt hc.2) (lt_of_le_of_lt hc.1 w3.2)).1⟩
  · intro e he c h1 h2
    obtain ⟨k, hk, rfl⟩ := of_mem_origs he
    obtain ⟨w, hw, w1, w2, w3, w4⟩ := R.before S₀ S hk h1 h2
    refine ⟨w, hw, w1, w3, w4, (same k hk w hw w1 w2 (w3.trans_le h2) (lt_of_lt_of_le h1 w4)).2⟩
  · intro e he
    obtain ⟨k, hk, rfl⟩ := of_mem_origs he
    exact I₀.proper k hk
  · intro i hi
    have := hv _ (S.pts.mem i hi).1
    rw [abs_a, abs_ya]; exact this
  · intro i hi
    have := hv _ (S.pts.mem i hi).2
    rw [abs_b, abs_yb (I.proper i hi)]; exact this

end

variable {rule : ShapedRule} {op : Bool → Bool → Bool} {tb : TieBreak} {xmax : Option ℚ} {A B : List Segment}
  {h : Heap ShapedData} {events : List Ev}

/-- The end of a sweep, with its beginning. -/
theorem holey_ended_run (hr : RuleOk rule) (hA : IsBoundary A) (hB : IsBoundary B)
    (e : shapedSweep (holeyOps rule) tb xmax A B = .ok (h, events))
    (E : ShapedEnd op h events (stopAt xmax) A B) {ε : ℚ} (ho : Orders ε (points (A ++ B))) :
    ∃ (Y : ℚ → ℚ) (s : Store ShapedData) (L F : List ℕ) (p : ℚ), h = s.heap ∧
      Ended ε ((A ++ B).map (normSeg ε)) (points (A ++ B)) Y s L F p ∧ (∀ k, k ∈ L ++ F ↔ Ev.left k ∈ events) ∧
      (∀ k, Ev.left k ∈ events.filter (fromResult h) → (absSeg ε h k).b ≤ p) ∧
      ∃ p₀ log, St ε (points (A ++ B)) Y (initStore (holeyOps rule).toPayload ⟨false, false, .none, false, none⟩ A B)
          [] [] p₀ NoEx ∧
        Orig (holeyOps rule) ε (initStore (holeyOps rule).toPayload ⟨false, false, .none, false, none⟩ A B).heap s.heap ∧
        Reach (holeyOps rule) tb (initState (holeyOps rule).toPayload ⟨false, false, .none, false, none⟩ A B) ⟨s, L⟩ log ∧
        LogOk ε s L F p log := by
  obtain ⟨s, log, r, rfl, hm⟩ := shapedSweep_reach hA hB e
  have ok := operandsOk_marked hA.noOverlap hB.noOverlap
  have fr := fresh_init (holeyOps rule).toPayload ⟨false, false, .none, false, none⟩ A B
  obtain ⟨Y, p, S0, hv, -⟩ := fr.stAt ok (ε := ε) (by rw [marked_fst]; exact ho)
  rw [marked_fst] at S0 hv
  obtain ⟨F, p', S, l, -, R, J⟩ := stale_reach hr (init := initState (holeyOps rule).toPayload _ A B) S0 rfl (by
    intro k hk
    change k < (initStore _ _ A B).heap.count at hk
    rw [fr.count] at hk
    exact ⟨_, init_data (holeyOps rule).toPayload _ A B k _ (List.getElem?_eq_getElem hk)⟩) r
  have V := S.inv'
  have mem : ∀ k, k ∈ s.line ++ F ↔ Ev.left k ∈ events := by
    intro k
    rw [List.mem_append, ← l.left, ← hm]
  have selE := E.selected
  have eo : origs ε (initState (holeyOps rule).toPayload ⟨false, false, .none, false, none⟩ A B).store.heap =
    (A ++ B).map (normSeg ε) := origs_init ..
  have hord : ∀ t ∈ A ++ B, sx ε t.lo < sx ε t.hi := by
    intro t ht
    have hp := mem_points_end ht
    refine ho _ hp.1 _ hp.2 (lo_lt_hi ?_)
    rcases List.mem_append.1 ht with h | h
    · exact hA.noOverlap.1 t h
    · exact hB.noOverlap.1 t h
  refine ⟨Y, s.store, s.line, F, p', rfl, ⟨S, ?_, ?_, ?_, ?_, ?_⟩, mem, ?_, p, log, S0, R, r, l⟩
  · rw [← eo]
    refine R.pieces S0 S fun q hq => ?_
    rw [eo]
    exact vertexSeg_of_vertex hord (hv q hq)
  · rw [← eo]; exact J.main
  · intro i hi T k hk hne
    rw [← eo] at T
    exact T.no_hot S0 S R hi hk hne
  · intro i hi k hk k3
    have hi' := (E.mem _).1 ((mem i).1 hi)
    have e : s.store.heap.start k = s.store.heap.start i :=
      (S.pts.ord.eq_iff (S.pts.mem k hk).1 (S.pts.mem i hi'.1).1).2 k3
    rw [mem, E.mem]
    refine ⟨hk, ?_⟩
    have : s.store.heap.evStart (.left k) = s.store.heap.evStart (.left i) := e
    rw [this]; exact hi'.2
  · intro i hi b hb hRi hR hh
    by_contra hne
    have his : Ev.left i ∈ events.filter (fromResult s.store.heap) := List.mem_filter.2 ⟨(mem i).1 hi, hRi⟩
    have hbs : Ev.left b ∈ events.filter (fromResult s.store.heap) := List.mem_filter.2 ⟨(mem b).1 hb, hR⟩
    have hin := V.bound i hi
    have hbn := V.bound b hb
    have hs : s.store.heap.start i = s.store.heap.start b :=
      (S.pts.ord.eq_iff (S.pts.mem i hin).1 (S.pts.mem b hbn).1).2 hh.2
    refine selE.det_ne his hbs (by rintro h; cases h; exact hne rfl) hs rfl ?_
    have hc : cross (s.store.heap.start i) (s.store.heap.stop i) (s.store.heap.stop b) =
        det (evDir s.store.heap (.left i)) (evDir s.store.heap (.left b)) := by
      rw [cross_eq_det]
      change _ = det (vec (s.store.heap.start i) (s.store.heap.stop i)) (vec (s.store.heap.start b) (s.store.heap.stop b))
      rw [← hs]
    rw [← hc, cross_zero_iff (V.proper i hin) (ff := s.store.heap.first i)]
    exact (hh.1.y _).trans (abs_yb (V.proper b hbn))
  · intro k hk
    have hk' := List.mem_filter.1 hk
    have := E.both k hk'.1 hk'.2
    unfold resultLefts finishedLefts at this
    rw [List.mem_filter, List.mem_filterMap] at this
    obtain ⟨⟨f, hf, hf'⟩, -⟩ := this
    cases f with
    | left j => cases hf'
    | right j =>
      simp only [Option.some.injEq] at hf'
      refine V.fin k ?_
      obtain ⟨i', h1, h2⟩ := (l.right j).1 ((hm _).1 hf)
      have := S.ok.lr i' (V.bound i' (by simp [h1]))
      rw [h2, hf'] at this
      rw [this]; exact h1

/-- The end of a sweep. -/
theorem holey_ended (hr : RuleOk rule) (hA : IsBoundary A) (hB : IsBoundary B)
    (e : shapedSweep (holeyOps rule) tb xmax A B = .ok (h, events))
    (E : ShapedEnd op h events (stopAt xmax) A B) {ε : ℚ} (ho : Orders ε (points (A ++ B))) :
    ∃ (Y : ℚ → ℚ) (s : Store ShapedData) (L F : List ℕ) (p : ℚ), h = s.heap ∧
      Ended ε ((A ++ B).map (normSeg ε)) (points (A ++ B)) Y s L F p ∧ (∀ k, k ∈ L ++ F ↔ Ev.left k ∈ events) ∧
      ∀ k, Ev.left k ∈ events.filter (fromResult h) → (absSeg ε h k).a < p := by
  obtain ⟨Y, s, L, F, p, rfl, D, mem, fin, -⟩ := holey_ended_run hr hA hB e E ho
  refine ⟨Y, s, L, F, p, rfl, D, mem, fun k hk => lt_of_lt_of_le (D.st.inv'.proper k ?_) (fin k hk)⟩
  exact E.selected.evOk _ hk

variable {rule' : ShapedRule} {op' : Bool → Bool → Bool} {tb' : TieBreak} {xmax' : Option ℚ} {A' B' : List Segment}
  {h' : Heap ShapedData} {events' : List Ev}

/-- Events below of two sweeps over the same edges have the same segments. -/
theorem holey_below_twin (hr : RuleOk rule) (hA : IsBoundary A) (hB : IsBoundary B)
    (e : shapedSweep (holeyOps rule) tb xmax A B = .ok (h, events)) (E : ShapedEnd op h events (stopAt xmax) A B)
    (hr' : RuleOk rule') (hA' : IsBoundary A') (hB' : IsBoundary B')
    (e' : shapedSweep (holeyOps rule') tb' xmax' A' B' = .ok (h', events')) (E' : ShapedEnd op' h' events' (stopAt xmax') A' B')
    (hs : SameEdges (A ++ B) (A' ++ B')) (hc : ∀ q, Combined op A B q ↔ Combined op' A' B' q) {i i' : ℕ}
    (hi : Ev.left i ∈ events.filter (fromResult h)) (hi' : Ev.left i' ∈ events'.filter (fromResult h'))
    (hii : h'.segment i' = h.segment i) : (Bw h i).map h.segment = (Bw h' i').map h'.segment := by
  obtain ⟨ε, ho⟩ := exists_orders (points (A ++ B) ++ points (A' ++ B'))
  obtain ⟨Y, s, L, F, p, rfl, D, mem, fin⟩ := holey_ended hr hA hB e E (ε := ε)
    fun p hp q hq => ho p (by simp [hp]) q (by simp [hq])
  obtain ⟨Y', s', L', F', p', rfl, D', mem', fin'⟩ := holey_ended hr' hA' hB' e' E' (ε := ε)
    fun p hp q hq => ho p (by simp [hp]) q (by simp [hq])
  have sub : ∀ {h₁ h₂ : Heap ShapedData} {ev₁ ev₂ : List Ev} {l₁ l₂ : List ℕ}, (∀ k, k ∈ l₁ ↔ Ev.left k ∈ ev₁) →
      (∀ k, k ∈ l₂ ↔ Ev.left k ∈ ev₂) → (∀ t, t ∈ leftEdges h₁ (ev₁.filter (fromResult h₁)) →
        t ∈ leftEdges h₂ (ev₂.filter (fromResult h₂))) → SelSub h₁ h₂ l₁ l₂ := by
    intro h₁ h₂ ev₁ ev₂ l₁ l₂ m₁ m₂ hsub j hj hR
    have : h₁.segment j ∈ leftEdges h₁ (ev₁.filter (fromResult h₁)) := by
      rw [leftEdges_eq]
      exact List.mem_map_of_mem (mem_leftIds.2 (List.mem_filter.2 ⟨(m₁ j).1 hj, hR⟩))
    have := hsub _ this
    rw [leftEdges_eq] at this
    obtain ⟨k, hk, ek⟩ := List.mem_map.1 this
    obtain ⟨k1, k2⟩ := List.mem_filter.1 (mem_leftIds.1 hk)
    exact ⟨k, (m₂ k).2 k1, k2, ek⟩
  have edges : ∀ t, t ∈ leftEdges s.heap (events.filter (fromResult s.heap)) ↔
      t ∈ leftEdges s'.heap (events'.filter (fromResult s'.heap)) := by
    intro t
    rw [E.mem_leftEdges hA.noOverlap hB.noOverlap, E'.mem_leftEdges hA'.noOverlap hB'.noOverlap, hs.sameSegments.isEdge]
    simp only [Separates.congr hs.sameSegments.pts hc]
  obtain ⟨m1, m2⟩ := List.mem_filter.1 hi
  obtain ⟨m1', m2'⟩ := List.mem_filter.1 hi'
  exact Ended.below_eq D D' (hs.normSegs ε) (sub mem mem' fun t => (edges t).1) (sub mem' mem fun t => (edges t).2)
    ((mem i).2 m1) (fin i hi) m2 ((mem' i').2 m1') (fin' i' hi') m2' hii

end Clipping

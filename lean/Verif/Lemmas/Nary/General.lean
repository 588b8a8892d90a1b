import Verif.Lemmas.Nary.Detect
import Verif.Lemmas.Sweep.Init
import Verif.Lemmas.Runs

/-!
# What the n-ary sweep keeps for any segments
-/

namespace Clipping.Nary

open Sweep

variable {ε : ℚ} {Pt : List Point} {l : List Segment}

/-- The events are consistent, end at given points, and every segment is a part of an input segment. -/
structure Sound (ε : ℚ) (Pt : List Point) (l : List Segment) (s : Store Unit) : Prop where
  ok : HeapOk s.heap
  pts : PtsOk ε Pt s.heap
  pr : ∀ i < s.heap.count, (absSeg ε s.heap i).a < (absSeg ε s.heap i).b
  que : ∀ e ∈ s.queue, EvOk s.heap e
  par : ∀ i < s.heap.count, ∃ t ∈ l, (s.heap.segment i).pts ⊆ t.pts

theorem EvOk.mono {h h' : Heap Unit} (hc : h.count ≤ h'.count) {e : Ev} (he : EvOk h e) : EvOk h' e := by
  cases e <;> exact lt_of_lt_of_le he hc

/-- Dividing a segment strictly inside. -/
theorem Sound.divide {s : Store Unit} (S : Sound ε Pt l s) {i : ℕ} {q : Point} (hi : i < s.heap.count)
    (h1 : (absSeg ε s.heap i).a < sx ε q) (h2 : sx ε q < (absSeg ε s.heap i).b)
    (hy : (absSeg ε s.heap i).y (sx ε q) = q.y) (hq : q ∈ Pt) :
    Sound ε Pt l (divideSegment linearOps.toPayload s i q) ∧
      potential ε Pt (divideSegment linearOps.toPayload s i q) ≤ potential ε Pt s := by
  have hqs : q ∈ (s.heap.segment i).pts := (mem_segment (h1.trans h2)).2 ⟨h1.le, h2.le, hy⟩
  refine ⟨⟨S.ok.divide hi, S.pts.divide S.ok (fun _ _ => rfl) hi h1 h2 hy hq S.pr, ?_, ?_, ?_⟩, ?_⟩
  · intro j hj
    rcases Nat.lt_succ_iff_lt_or_eq.1 hj with hj | rfl
    · by_cases e : j = i
      · subst e
        have : absSeg ε (divideSegment linearOps.toPayload s j q).heap j = _ := abs_divide_self hi h1 hy
        rw [this]; exact h1
      · have : absSeg ε (divideSegment linearOps.toPayload s i q).heap j = _ :=
          abs_divide_other S.ok hi hj e
        rw [this]; exact S.pr j hj
    · have : absSeg ε (divideSegment linearOps.toPayload s i q).heap s.heap.count = _ :=
        abs_divide_new S.ok hi h1 h2 hy
      rw [this]; exact h2
  · intro e he
    simp only [divideSegment, List.mem_append, List.mem_cons, List.not_mem_nil, or_false] at he
    rcases he with he | rfl | rfl
    · exact EvOk.mono (Nat.le_succ _) (S.que e he)
    · exact Nat.lt_succ_self _
    · exact Nat.lt_succ_self _
  · intro j hj
    obtain ⟨k, hk, pk⟩ := (sub_divide (O := linearOps) S.ok hi hqs).1 j hj
    obtain ⟨t, ht, h⟩ := S.par k hk
    exact ⟨t, ht, pk.pts.trans h⟩
  · have td := total_divide (P := linearOps.toPayload) S.ok hi h1 h2 hy hq
    unfold potential
    have : (divideSegment linearOps.toPayload s i q).queue.length = s.queue.length + 2 := by
      simp [divideSegment]
    rw [this]
    omega

/-- Any divisions at the given points. -/
theorem Sound.divs {s s' : Store Unit} {u v : ℕ} (S : Sound ε Pt l s) (hu : u < s.heap.count)
    (hv : v < s.heap.count) (d : Divs linearOps.toPayload ε u v (· ∈ Pt) s s') :
    Sound ε Pt l s' ∧ potential ε Pt s' ≤ potential ε Pt s ∧ s.heap.count ≤ s'.heap.count := by
  induction d with
  | refl => exact ⟨S, le_rfl, le_rfl⟩
  | @data s₁ s₂ _ g hq _ ih =>
    obtain ⟨S', hp, hc⟩ := ih
    refine ⟨⟨g.ok S'.ok, g.ptsOk S'.pts, ?_, ?_, ?_⟩, ?_, by rw [g.count]; exact hc⟩
    · rw [g.count]; simp only [g.absSeg]; exact S'.pr
    · rw [hq]; exact fun e he => EvOk.mono g.count.ge (S'.que e he)
    · rw [g.count]; simp only [g.segment]; exact S'.par
    · have : potential ε Pt s₂ = potential ε Pt s₁ := by
        unfold potential; rw [hq, g.total]
      rw [this]; exact hp
  | @step s₁ i q _ hi h1 h2 hy hG ih =>
    obtain ⟨S', hp, hc⟩ := ih
    have hin : i < s₁.heap.count := by
      rcases hi with rfl | rfl
      · exact hu.trans_le hc
      · exact hv.trans_le hc
    obtain ⟨S'', hp'⟩ := S'.divide hin h1 h2 hy hG
    exact ⟨S'', hp'.trans hp, hc.trans (Nat.le_succ _)⟩

theorem Sound.detect {s : Store Unit} {u v : ℕ} (S : Sound ε Pt l s) (hu : u < s.heap.count)
    (hv : v < s.heap.count) : Sound ε Pt l (naryDetect s u v) ∧
      potential ε Pt (naryDetect s u v) ≤ potential ε Pt s ∧ s.heap.count ≤ (naryDetect s u v).heap.count :=
  S.divs hu hv (naryDetect_divs S.ok hu hv (S.pr u hu) (S.pr v hv) S.pts)

/-- The same for the whole state. -/
structure SoundState (ε : ℚ) (Pt : List Point) (l : List Segment) (s : NaryState) : Prop where
  store : Sound ε Pt l s.store
  tree : ∀ i ∈ s.tree.inorder, i < s.store.heap.count
  result : ∀ r ∈ s.result, r.start < r.stop ∧ r.start ∈ Pt ∧ r.stop ∈ Pt ∧ ∃ t ∈ l, r.pts ⊆ t.pts

theorem search_lt {lt : ℕ → ℕ → Bool} {e : ℕ} : ∀ {t : RTree} {i : ℕ}, t.search lt e = some i → i < t.size := by
  intro t
  induction t with
  | nil => intro i h; cases h
  | node c a k b iha ihb =>
    intro i h
    simp only [RTree.search] at h
    simp only [RTree.size]
    split at h
    · have := iha h; omega
    · split at h
      · obtain ⟨j, hj, rfl⟩ := Option.map_eq_some_iff.1 h
        have := ihb hj; omega
      · injection h with h; omega

theorem place_le {lt : ℕ → ℕ → Bool} {e : ℕ} : ∀ {t : RTree}, t.place lt e ≤ t.size := by
  intro t
  induction t with
  | nil => simp [RTree.place]
  | node c a k b iha ihb =>
    simp only [RTree.place, RTree.size]
    split <;> omega

theorem naryAbove_mem {h : Heap Unit} {t : RTree} {e a : ℕ} (ha : naryAbove h t e = some a) :
    a ∈ t.inorder := by
  unfold naryAbove at ha
  split at ha
  · cases ha
  · exact List.mem_of_getElem? ha

theorem naryBelow_mem {h : Heap Unit} {t : RTree} {e a : ℕ} (ha : naryBelow h t e = some a) :
    a ∈ t.inorder := by
  unfold naryBelow at ha
  split at ha
  · cases ha
  · cases ha
  · exact List.mem_of_getElem? ha

theorem naryLeft_sound {B : Balancing} {s : NaryState} {e : ℕ} (S : SoundState ε Pt l s)
    (he : e < s.store.heap.count) : SoundState ε Pt l (naryLeft B s e) ∧
      potential ε Pt (naryLeft B s e).store ≤ potential ε Pt s.store := by
  unfold naryLeft
  split
  · exact ⟨S, le_rfl⟩
  dsimp only
  set tree := B.insert s.tree (s.tree.place (naryLineLt s.store.heap) e) e with ht
  have mt : ∀ i ∈ tree.inorder, i < s.store.heap.count := by
    intro i hi
    rw [ht, B.inorder_insert _ _ _ place_le] at hi
    rcases List.eq_or_mem_of_mem_insertIdx hi with rfl | hi
    · exact he
    · exact S.tree i hi
  have fin : ∀ s₁ : Store Unit, Sound ε Pt l s₁ → potential ε Pt s₁ ≤ potential ε Pt s.store →
      s.store.heap.count ≤ s₁.heap.count →
      SoundState ε Pt l ⟨s₁, tree, s.result⟩ ∧ potential ε Pt s₁ ≤ potential ε Pt s.store :=
    fun s₁ S₁ p₁ c₁ => ⟨⟨S₁, fun i hi => (mt i hi).trans_le c₁, S.result⟩, p₁⟩
  have low : ∀ (s₁ : Store Unit) b, b ∈ tree.inorder → Sound ε Pt l s₁ →
      potential ε Pt s₁ ≤ potential ε Pt s.store → s.store.heap.count ≤ s₁.heap.count →
      SoundState ε Pt l ⟨naryDetect s₁ b e, tree, s.result⟩ ∧
        potential ε Pt (naryDetect s₁ b e) ≤ potential ε Pt s.store := by
    intro s₁ b hb S₁ p₁ c₁
    obtain ⟨S₂, p₂, c₂⟩ := S₁.detect ((mt b hb).trans_le c₁) (he.trans_le c₁)
    exact fin _ S₂ (p₂.trans p₁) (c₁.trans c₂)
  cases ha : naryAbove s.store.heap tree e with
  | none =>
    cases hb : naryBelow s.store.heap tree e with
    | none => exact fin _ S.store le_rfl le_rfl
    | some b => exact low _ b (naryBelow_mem hb) S.store le_rfl le_rfl
  | some a =>
    obtain ⟨S₁, p₁, c₁⟩ := S.store.detect he (mt a (naryAbove_mem ha))
    cases hb : naryBelow s.store.heap tree e with
    | none => exact fin _ S₁ p₁ c₁
    | some b => exact low _ b (naryBelow_mem hb) S₁ p₁ c₁

theorem naryRight_sound {B : Balancing} {s : NaryState} {e : ℕ} (S : SoundState ε Pt l s)
    (he : e < s.store.heap.count) : SoundState ε Pt l (naryRight B s e) ∧
      potential ε Pt (naryRight B s e).store ≤ potential ε Pt s.store := by
  unfold naryRight
  split
  · exact ⟨S, le_rfl⟩
  rename_i i hs
  dsimp only
  have fin : ∀ s₁ : Store Unit, Sound ε Pt l s₁ → potential ε Pt s₁ ≤ potential ε Pt s.store →
      s.store.heap.count ≤ s₁.heap.count →
      SoundState ε Pt l ⟨s₁, B.remove s.tree i, s₁.heap.segment e :: s.result⟩ ∧
        potential ε Pt s₁ ≤ potential ε Pt s.store := by
    intro s₁ S₁ p₁ c₁
    have he' := he.trans_le c₁
    refine ⟨⟨S₁, ?_, ?_⟩, p₁⟩
    · intro j hj
      dsimp only at hj
      rw [B.inorder_remove _ _ (search_lt hs)] at hj
      exact (S.tree j (List.mem_of_mem_eraseIdx hj)).trans_le c₁
    · intro r hr
      rcases List.mem_cons.1 hr with rfl | hr
      · have m := S₁.pts.mem e he'
        exact ⟨(S₁.pts.ord.lt_iff m.1 m.2).2 (S₁.pr e he'), m.1, m.2, S₁.par e he'⟩
      · exact S.result r hr
  cases hb : naryBelow s.store.heap s.tree e with
  | none => exact fin _ S.store le_rfl le_rfl
  | some b =>
    cases ha : naryAbove s.store.heap s.tree e with
    | none => exact fin _ S.store le_rfl le_rfl
    | some a =>
      obtain ⟨S₁, p₁, c₁⟩ := S.store.detect (S.tree b (naryBelow_mem hb)) (S.tree a (naryAbove_mem ha))
      exact fin _ S₁ p₁ c₁

/-- The queue gives some event of it. -/
theorem naryPop_mem {tb : TieBreak} {s : Store Unit} {e : Ev} {q : List Ev} (h : naryPop tb s = some (e, q)) :
    e ∈ s.queue ∧ q = s.queue.erase e := by
  unfold naryPop at h
  cases hs : s.queue with
  | nil => rw [hs] at h; cases h
  | cons a r =>
    rw [hs] at h
    dsimp only at h
    simp only [Option.some.injEq, Prod.mk.injEq] at h
    obtain ⟨rfl, rfl⟩ := h
    refine ⟨?_, rfl⟩
    cases hf : (tb.order (a :: r)).find? fun x => (a :: r).all fun b => !naryPrecedes s.heap b x with
    | none => simp
    | some x => exact (tb.perm _).mem_iff.1 (List.mem_of_find?_eq_some hf)

theorem naryPop_none {tb : TieBreak} {s : Store Unit} : naryPop tb s = none ↔ s.queue = [] := by
  unfold naryPop
  cases hs : s.queue <;> simp

/-- One iteration of the loop. -/
theorem naryProcess_sound {B : Balancing} {tb : TieBreak} {s : NaryState} (S : SoundState ε Pt l s) {e : Ev}
    {q : List Ev} (h : naryPop tb s.store = some (e, q)) :
    SoundState ε Pt l (naryProcess B { s with store := { s.store with queue := q } } e) ∧
      potential ε Pt (naryProcess B { s with store := { s.store with queue := q } } e).store <
        potential ε Pt s.store := by
  obtain ⟨he, rfl⟩ := naryPop_mem h
  have S' : SoundState ε Pt l { s with store := { s.store with queue := s.store.queue.erase e } } :=
    ⟨⟨S.store.ok, S.store.pts, S.store.pr, fun f hf => S.store.que f (List.mem_of_mem_erase hf),
      S.store.par⟩, S.tree, S.result⟩
  have hp : potential ε Pt ({ s.store with queue := s.store.queue.erase e } : Store Unit) <
      potential ε Pt s.store := by
    unfold potential
    have := List.length_erase_of_mem he
    have := List.length_pos_of_mem he
    dsimp only
    omega
  have heo := S.store.que e he
  cases e with
  | left i =>
    obtain ⟨a, b⟩ := naryLeft_sound (B := B) S' (e := i) heo
    exact ⟨a, b.trans_lt hp⟩
  | right j =>
    obtain ⟨a, b⟩ := naryRight_sound (B := B) S' (e := (s.store.heap.rights j).left) (S.store.ok.llt j heo)
    exact ⟨a, b.trans_lt hp⟩

/-- An invariant of the steps together with a measure describes the result of the loop. -/
theorem naryLoop_rule {B : Balancing} {tb : TieBreak} (Q : NaryState → Prop) (M : NaryState → ℕ)
    (step : ∀ s e q, Q s → naryPop tb s.store = some (e, q) →
      Q (naryProcess B { s with store := { s.store with queue := q } } e) ∧
      M (naryProcess B { s with store := { s.store with queue := q } } e) < M s) :
    ∀ fuel s, Q s → M s < fuel → ∃ s', naryLoop B tb fuel s = .ok s' ∧ Q s' ∧ s'.store.queue = [] := by
  intro fuel
  induction fuel with
  | zero => intro s _ h; exact absurd h (Nat.not_lt_zero _)
  | succ fuel ih =>
    intro s hs hm
    unfold naryLoop
    cases hp : naryPop tb s.store with
    | none => exact ⟨s, rfl, hs, naryPop_none.1 hp⟩
    | some x =>
      obtain ⟨e, q⟩ := x
      obtain ⟨h1, h2⟩ := step s e q hs hp
      exact ih _ h1 (by omega)

/-- Before the loop. -/
theorem sound_init {l : List Segment} (hl : ∀ s ∈ l, s.Proper) :
    ∃ ε, Sound ε (points l) l (register linearOps.toPayload ⟨Heap.nothing (), []⟩ l true) ∧
      potential ε (points l) (register linearOps.toPayload ⟨Heap.nothing (), []⟩ l true) <
        sweepFuel l.length := by
  have f := (fresh_nothing ()).register (P := linearOps.toPayload) l true
  rw [List.nil_append] at f
  set s := register linearOps.toPayload ⟨Heap.nothing (), []⟩ l true
  set Pt := points l with hPt
  obtain ⟨ε, ho⟩ := exists_orders Pt
  have hk : ∀ k < s.heap.count, ∃ x ∈ l, s.heap.segment k = ⟨x.lo, x.hi⟩ := by
    intro k hk
    rw [f.count, List.length_map] at hk
    exact ⟨_, List.getElem_mem hk, f.segment (x := (l[k], true)) (by simp [List.getElem?_eq_getElem hk])⟩
  have mem : ∀ k < s.heap.count, s.heap.start k ∈ Pt ∧ s.heap.stop k ∈ Pt := by
    intro k hk'
    obtain ⟨x, hx, e⟩ := hk k hk'
    have e1 : s.heap.start k = x.lo := congrArg Segment.start e
    have e2 : s.heap.stop k = x.hi := congrArg Segment.stop e
    rw [e1, e2]
    exact mem_points_end hx
  have lt : ∀ k < s.heap.count, s.heap.start k < s.heap.stop k := by
    intro k hk'
    obtain ⟨x, hx, e⟩ := hk k hk'
    have e1 : s.heap.start k = x.lo := congrArg Segment.start e
    have e2 : s.heap.stop k = x.hi := congrArg Segment.stop e
    rw [e1, e2]
    exact lo_lt_hi (hl x hx)
  have proper : ∀ k < s.heap.count, (absSeg ε s.heap k).a < (absSeg ε s.heap k).b := by
    intro k hk'
    exact ho _ (mem k hk').1 _ (mem k hk').2 (lt k hk')
  refine ⟨ε, ⟨f.heapOk, ⟨ho, mem, ?_⟩, proper, fun e he => (f.mem e).1 he, ?_⟩, ?_⟩
  · intro i hi j hj hc q hq1 hq2
    rw [← sameLine_iff (proper i hi) (proper j hj) (lt i hi) (lt j hj)] at hc
    obtain ⟨x, hx, ei⟩ := hk i hi
    obtain ⟨y, hy, ej⟩ := hk j hj
    rw [ei] at hc hq1
    rw [ej] at hc hq2
    rw [pts_lo_hi] at hq1 hq2
    have hc' : ¬ SameLine x y := by
      intro h
      apply hc
      unfold SameLine at h ⊢
      simpa [Segment.lo, Segment.hi] using h
    obtain ⟨e1, e2⟩ := relation_not_collinear (hl x hx) (hl y hy) hc' hq1 hq2
    rw [e1]
    exact mem_points_cross hx hy e2
  · intro i hi
    obtain ⟨x, hx, ei⟩ := hk i hi
    exact ⟨x, hx, by rw [ei, pts_lo_hi]⟩
  · have hc : s.heap.count = l.length := by rw [f.count, List.length_map]
    have hl : s.queue.length = 2 * l.length := by rw [f.length, List.length_map]
    have ht : total ε Pt s.heap ≤ l.length * (2 * l.length + l.length * l.length) := by
      unfold total
      refine (Finset.sum_le_card_nsmul _ _ (2 * l.length + l.length * l.length) fun i _ => ?_).trans ?_
      · exact (List.length_filter_le _ _).trans (points_length l)
      · rw [Finset.card_range, hc, smul_eq_mul]
    unfold potential sweepFuel
    omega

/-- The run ends for any segments, and its result is a part of them. -/
theorem nary_ends (B : Balancing) (tb : TieBreak) {l : List Segment} (hl : ∀ s ∈ l, s.Proper) :
    ∃ r, mergeSegments B tb l = .ok r ∧
      ∀ x ∈ r, x.start < x.stop ∧ Vertex l x.start ∧ Vertex l x.stop ∧ ∃ t ∈ l, x.pts ⊆ t.pts := by
  obtain ⟨ε, S, hp⟩ := sound_init hl
  obtain ⟨s, e, S', -⟩ := naryLoop_rule (B := B) (tb := tb) (SoundState ε (points l) l)
    (fun s => potential ε (points l) s.store) (fun s e q hs h => naryProcess_sound hs h)
    (sweepFuel l.length) ⟨register linearOps.toPayload ⟨Heap.nothing (), []⟩ l true, .nil, []⟩ ⟨S, by simp [RTree.inorder], by simp⟩ hp
  refine ⟨_, by unfold mergeSegments; dsimp only; rw [e], ?_⟩
  intro x hx
  rw [(sortEndpoints_perm _).mem_iff] at hx
  have := (groupRuns_keys (key := id) s.result.reverse).subset hx
  rw [List.map_id, List.mem_reverse] at this
  obtain ⟨h1, h2, h3, h4⟩ := S'.result x this
  exact ⟨h1, points_vertex hl h2, points_vertex hl h3, h4⟩

end Clipping.Nary

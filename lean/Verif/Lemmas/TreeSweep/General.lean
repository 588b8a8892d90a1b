import Verif.Lemmas.Nary.General
import Verif.Model.TreeSweep

/-!
# What a sweep keeps for any segments, also if those of one operand overlap
-/

namespace Clipping.TreeSweep

open Sweep Nary

variable {α : Type} {ε : ℚ} {Pt : List Point} {l : List (Segment × Bool)}

/-- The events are consistent, end at given points, and every segment is a part of a segment of its operand. -/
structure Sound (ε : ℚ) (Pt : List Point) (l : List (Segment × Bool)) (s : Store α) : Prop where
  ok : HeapOk s.heap
  pts : PtsOk ε Pt s.heap
  pr : ∀ i < s.heap.count, (absSeg ε s.heap i).a < (absSeg ε s.heap i).b
  que : ∀ e ∈ s.queue, EvOk s.heap e
  par : ∀ i < s.heap.count, ∃ x ∈ l, s.heap.first i = x.2 ∧ (s.heap.segment i).pts ⊆ x.1.pts

theorem evOk_mono {h h' : Heap α} (hc : h.count ≤ h'.count) {e : Ev} (he : EvOk h e) : EvOk h' e := by
  cases e <;> exact lt_of_lt_of_le he hc

/-- Changes of the payload. -/
theorem Sound.geo {s s' : Store α} (S : Sound ε Pt l s) (g : SameGeo s.heap s'.heap) (hq : s'.queue = s.queue) :
    Sound ε Pt l s' ∧ potential ε Pt s' = potential ε Pt s ∧ s'.heap.count = s.heap.count := by
  refine ⟨⟨g.ok S.ok, g.ptsOk S.pts, ?_, ?_, ?_⟩, ?_, g.count⟩
  · rw [g.count]; simp only [g.absSeg]; exact S.pr
  · rw [hq]; exact fun e he => evOk_mono g.count.ge (S.que e he)
  · rw [g.count]; simp only [g.segment, g.first]; exact S.par
  · unfold potential; rw [hq, g.total]

variable {O : Ops α}

/-- Dividing a segment strictly inside. -/
theorem Sound.divide {s : Store α} (S : Sound ε Pt l s) {i : ℕ} {q : Point} (hi : i < s.heap.count)
    (h1 : (absSeg ε s.heap i).a < sx ε q) (h2 : sx ε q < (absSeg ε s.heap i).b)
    (hy : (absSeg ε s.heap i).y (sx ε q) = q.y) (hq : q ∈ Pt) :
    Sound ε Pt l (divideSegment O.toPayload s i q) ∧
      potential ε Pt (divideSegment O.toPayload s i q) ≤ potential ε Pt s := by
  have hqs : q ∈ (s.heap.segment i).pts := (mem_segment (h1.trans h2)).2 ⟨h1.le, h2.le, hy⟩
  have hsub := (sub_divide (O := O) S.ok hi hqs).1
  refine ⟨⟨S.ok.divide hi, S.pts.divide S.ok (fun _ _ => rfl) hi h1 h2 hy hq S.pr, ?_, ?_, ?_⟩, ?_⟩
  · intro j hj
    rcases Nat.lt_succ_iff_lt_or_eq.1 hj with hj | rfl
    · by_cases e : j = i
      · subst e
        have : absSeg ε (divideSegment O.toPayload s j q).heap j = _ := abs_divide_self hi h1 hy
        rw [this]; exact h1
      · have : absSeg ε (divideSegment O.toPayload s i q).heap j = _ :=
          abs_divide_other S.ok hi hj e
        rw [this]; exact S.pr j hj
    · have : absSeg ε (divideSegment O.toPayload s i q).heap s.heap.count = _ :=
        abs_divide_new S.ok hi h1 h2 hy
      rw [this]; exact h2
  · intro e he
    simp only [divideSegment, List.mem_append, List.mem_cons, List.not_mem_nil, or_false] at he
    rcases he with he | rfl | rfl
    · exact evOk_mono (Nat.le_succ _) (S.que e he)
    · exact Nat.lt_succ_self _
    · exact Nat.lt_succ_self _
  · intro j hj
    obtain ⟨k, hk, pk⟩ := hsub j hj
    obtain ⟨t, ht, hf, h⟩ := S.par k hk
    exact ⟨t, ht, pk.first.trans hf, pk.pts.trans h⟩
  · have td := total_divide (P := O.toPayload) S.ok hi h1 h2 hy hq
    unfold potential
    have : (divideSegment O.toPayload s i q).queue.length = s.queue.length + 2 := by
      simp [divideSegment]
    rw [this]
    omega

/-- Any divisions at the given points. -/
theorem Sound.divs {s s' : Store α} {u v : ℕ} (S : Sound ε Pt l s) (hu : u < s.heap.count)
    (hv : v < s.heap.count) (d : Divs O.toPayload ε u v (· ∈ Pt) s s') :
    Sound ε Pt l s' ∧ potential ε Pt s' ≤ potential ε Pt s ∧ s.heap.count ≤ s'.heap.count := by
  induction d with
  | refl => exact ⟨S, le_rfl, le_rfl⟩
  | @data s₁ s₂ _ g hq _ ih =>
    obtain ⟨S', hp, hc⟩ := ih
    obtain ⟨S'', hp', hc'⟩ := S'.geo g hq
    exact ⟨S'', hp'.trans_le hp, hc'.symm ▸ hc⟩
  | @step s₁ i q _ hi h1 h2 hy hG ih =>
    obtain ⟨S', hp, hc⟩ := ih
    have hin : i < s₁.heap.count := by
      rcases hi with rfl | rfl
      · exact hu.trans_le hc
      · exact hv.trans_le hc
    obtain ⟨S'', hp'⟩ := S'.divide (O := O) hin h1 h2 hy hG
    exact ⟨S'', hp'.trans hp, hc.trans (Nat.le_succ _)⟩

/-- An overlap within one operand. -/
theorem detect_error {P : Payload α} {s : Store α} {u v : ℕ}
    (hl : (segmentsRelation (s.heap.segment u) (s.heap.segment v)).Linear) (hf : s.heap.first u = s.heap.first v) :
    detectIntersection P s u v = .error .sameOperandOverlap := by
  unfold detectIntersection
  dsimp only
  cases hr : segmentsRelation (s.heap.segment u) (s.heap.segment v) <;> rw [hr] at hl <;> dsimp only
  all_goals first
    | exact absurd hl id
    | exact if_pos hf

theorem relation_linear_of_col {s : Store α} {u v : ℕ} (hu : u < s.heap.count) (hv : v < s.heap.count)
    (pts : PtsOk ε Pt s.heap) (pu : (absSeg ε s.heap u).a < (absSeg ε s.heap u).b)
    (pv : (absSeg ε s.heap v).a < (absSeg ε s.heap v).b) (hc : Col (absSeg ε s.heap u) (absSeg ε s.heap v))
    (h1 : (absSeg ε s.heap u).a < (absSeg ε s.heap v).b) (h2 : (absSeg ε s.heap v).a < (absSeg ε s.heap u).b) :
    (segmentsRelation (s.heap.segment u) (s.heap.segment v)).Linear := by
  have mu := pts.mem u hu
  have mv := pts.mem v hv
  have lu : s.heap.start u < s.heap.stop u := (pts.ord.lt_iff mu.1 mu.2).2 pu
  have lv : s.heap.start v < s.heap.stop v := (pts.ord.lt_iff mv.1 mv.2).2 pv
  have pru : (s.heap.segment u).Proper := lu.ne
  have prv : (s.heap.segment v).Proper := lv.ne
  have hm := relation_spec pru prv
  have sl := (sameLine_iff pu pv lu lv).2 hc
  obtain ⟨x, y, hxy, x1, y1, x2, y2⟩ := two_common prv sl (s := s.heap.segment u) (by
    rw [segment_lo lu, segment_hi lu, segment_lo lv, segment_hi lv, max_lt_iff, lt_min_iff,
      lt_min_iff]
    exact ⟨⟨lu, (pts.ord.lt_iff mu.1 mv.2).2 h1⟩, (pts.ord.lt_iff mv.1 mu.2).2 h2, lv⟩)
  cases hr : segmentsRelation (s.heap.segment u) (s.heap.segment v) <;> rw [hr] at hm
  · exact absurd x2 (hm x x1)
  · obtain ⟨p, -, -, p3, -⟩ := hm
    exact absurd ((p3 x x1 x2).trans (p3 y y1 y2).symm) hxy
  · obtain ⟨⟨p, -, -, p3, -⟩, -⟩ := hm
    exact absurd ((p3 x x1 x2).trans (p3 y y1 y2).symm) hxy
  all_goals trivial

/-- Looking for an intersection of any two segments either reports an overlap within an operand or divides them. -/
theorem Sound.detect {s : Store α} {u v : ℕ} (S : Sound ε Pt l s) (hu : u < s.heap.count) (hv : v < s.heap.count) :
    detectIntersection O.toPayload s u v = .error .sameOperandOverlap ∨
    ∃ s' b, detectIntersection O.toPayload s u v = .ok (s', b) ∧
      Sound ε Pt l s' ∧ potential ε Pt s' ≤ potential ε Pt s ∧ s.heap.count ≤ s'.heap.count := by
  by_cases hf : (segmentsRelation (s.heap.segment u) (s.heap.segment v)).Linear ∧ s.heap.first u = s.heap.first v
  · exact Or.inl (detect_error hf.1 hf.2)
  · right
    have pu := S.pr u hu
    have pv := S.pr v hv
    have lin := relation_linear_of_col hu hv S.pts pu pv
    have huv : u ≠ v := by
      rintro rfl
      exact hf ⟨lin ⟨rfl, rfl⟩ pu pu, rfl⟩
    obtain ⟨s', b, e, d, -⟩ := detect_divs (P := O.toPayload) S.ok hu hv huv pu pv S.pts.ord (S.pts.mem u hu) (S.pts.mem v hv)
      (S.pts.cross u hu v hv) (fun hc h1 h2 e => hf ⟨lin hc h1 h2, e⟩)
    exact ⟨s', b, e, S.divs hu hv (d.mono (fun _ h => h) fun q hq => hq.2.2)⟩

theorem treeAbove_mem {h : Heap α} {t : RTree} {e a : ℕ} (ha : treeAbove h t e = some a) : a ∈ t.inorder := by
  unfold treeAbove at ha
  split at ha
  · cases ha
  · exact List.mem_of_getElem? ha

theorem treeBelow_mem {h : Heap α} {t : RTree} {e a : ℕ} (ha : treeBelow h t e = some a) : a ∈ t.inorder := by
  unfold treeBelow at ha
  split at ha
  · cases ha
  · cases ha
  · exact List.mem_of_getElem? ha

theorem treeAdd_mem {B : Balancing} {h : Heap α} {t : RTree} {e i : ℕ} (hi : i ∈ (treeAdd B h t e).inorder) :
    i = e ∨ i ∈ t.inorder := by
  unfold treeAdd at hi
  split at hi
  · exact Or.inr hi
  · rw [B.inorder_insert _ _ _ place_le] at hi
    exact List.eq_or_mem_of_mem_insertIdx hi

/-- The same for the whole state. -/
structure SoundState (ε : ℚ) (Pt : List Point) (l : List (Segment × Bool)) (s : TreeState α) : Prop where
  store : Sound ε Pt l s.store
  tree : ∀ i ∈ s.tree.inorder, i < s.store.heap.count

/-- A step raises the error or keeps everything. -/
def Good (ε : ℚ) (Pt : List Point) (l : List (Segment × Bool)) (s : Store α) (r : Except Err (Store α)) : Prop :=
  r = .error .sameOperandOverlap ∨
    ∃ s', r = .ok s' ∧ Sound ε Pt l s' ∧ potential ε Pt s' ≤ potential ε Pt s ∧ s.heap.count ≤ s'.heap.count

theorem compute_sound {s : Store α} (S : Sound ε Pt l s) (i : ℕ) (b : Option ℕ) :
    Sound ε Pt l (computeFields O s i b) ∧ potential ε Pt (computeFields O s i b) ≤ potential ε Pt s ∧
      s.heap.count ≤ (computeFields O s i b).heap.count := by
  obtain ⟨g, q⟩ := computeFields_geo O s i b
  obtain ⟨a, b, c⟩ := S.geo g q
  exact ⟨a, b.le, c.ge⟩

theorem compute₂_sound {s s₀ : Store α} (S : Sound ε Pt l s) (hp : potential ε Pt s ≤ potential ε Pt s₀)
    (hc : s₀.heap.count ≤ s.heap.count) (i j : ℕ) (b c : Option ℕ) :
    Good ε Pt l s₀ (.ok (computeFields O (computeFields O s i b) j c)) := by
  obtain ⟨S1, p1, c1⟩ := compute_sound (O := O) S i b
  obtain ⟨S2, p2, c2⟩ := compute_sound (O := O) S1 j c
  exact Or.inr ⟨_, rfl, S2, p2.trans (p1.trans hp), hc.trans (c1.trans c2)⟩

theorem checkAbove_good {s : Store α} (S : Sound ε Pt l s) {e : ℕ} (he : e < s.heap.count) {above below : Option ℕ}
    (ha : ∀ a, above = some a → a < s.heap.count) : Good ε Pt l s (checkAbove O s e above below) := by
  cases above with
  | none => exact Or.inr ⟨s, rfl, S, le_rfl, le_rfl⟩
  | some a =>
    unfold checkAbove
    dsimp only
    rcases S.detect (O := O) he (ha a rfl) with h | ⟨s', b, h, S', p', c'⟩
    · rw [h]; exact Or.inl rfl
    · rw [h]
      cases b with
      | false => exact Or.inr ⟨s', rfl, S', p', c'⟩
      | true => exact compute₂_sound S' p' c' _ _ _ _

theorem treeCheckBelow_good {t : RTree} {s : Store α} (S : Sound ε Pt l s) {e : ℕ} (he : e < s.heap.count) {below : Option ℕ}
    (ha : ∀ a, below = some a → a < s.heap.count) : Good ε Pt l s (treeCheckBelow O t s e below) := by
  cases below with
  | none => exact Or.inr ⟨s, rfl, S, le_rfl, le_rfl⟩
  | some a =>
    unfold treeCheckBelow
    dsimp only
    rcases S.detect (O := O) (ha a rfl) he with h | ⟨s', b, h, S', p', c'⟩
    · rw [h]; exact Or.inl rfl
    · rw [h]
      cases b with
      | false => exact Or.inr ⟨s', rfl, S', p', c'⟩
      | true => exact compute₂_sound S' p' c' _ _ _ _

/-- The same for states. -/
def GoodState (ε : ℚ) (Pt : List Point) (l : List (Segment × Bool)) (s : TreeState α) (r : Except Err (TreeState α)) : Prop :=
  r = .error .sameOperandOverlap ∨
    ∃ s', r = .ok s' ∧ SoundState ε Pt l s' ∧ potential ε Pt s'.store ≤ potential ε Pt s.store ∧ s.store.heap.count ≤ s'.store.heap.count

theorem treeLeft_good {B : Balancing} {s : TreeState α} {e : ℕ} (S : SoundState ε Pt l s) (he : e < s.store.heap.count) :
    GoodState ε Pt l s (treeLeft B O s e) := by
  unfold treeLeft
  split
  · exact Or.inr ⟨s, rfl, S, le_rfl, le_rfl⟩
  dsimp only
  set tree := treeAdd B s.store.heap s.tree e with ht
  have mt : ∀ i ∈ tree.inorder, i < s.store.heap.count := by
    intro i hi
    rcases treeAdd_mem hi with rfl | hi
    · exact he
    · exact S.tree i hi
  obtain ⟨S1, p1, c1⟩ := compute_sound (O := O) S.store e (treeBelow s.store.heap tree e)
  rcases checkAbove_good (O := O) S1 (he.trans_le c1) (above := treeAbove s.store.heap tree e) (below := treeBelow s.store.heap tree e)
    (fun a ha => (mt a (treeAbove_mem ha)).trans_le c1) with h | ⟨s2, h, S2, p2, c2⟩
  · rw [h]; exact Or.inl rfl
  · rw [h]
    dsimp only
    rcases treeCheckBelow_good (O := O) (t := tree) S2 (he.trans_le (c1.trans c2)) (below := treeBelow s.store.heap tree e)
      (fun a ha => (mt a (treeBelow_mem ha)).trans_le (c1.trans c2)) with h | ⟨s3, h, S3, p3, c3⟩
    · rw [h]; exact Or.inl rfl
    · rw [h]
      have c := c1.trans (c2.trans c3)
      exact Or.inr ⟨_, rfl, ⟨S3, fun i hi => (mt i hi).trans_le c⟩, p3.trans (p2.trans p1), c⟩

theorem treeRight_good {B : Balancing} {s : TreeState α} {e : ℕ} (S : SoundState ε Pt l s) :
    GoodState ε Pt l s (treeRight B O s e) := by
  unfold treeRight
  split
  · exact Or.inr ⟨s, rfl, S, le_rfl, le_rfl⟩
  rename_i i hs
  dsimp only
  have mt : ∀ j ∈ (B.remove s.tree i).inorder, j < s.store.heap.count := by
    intro j hj
    rw [B.inorder_remove _ _ (search_lt hs)] at hj
    exact S.tree j (List.mem_of_mem_eraseIdx hj)
  cases hb : treeBelow s.store.heap s.tree e with
  | none => exact Or.inr ⟨_, rfl, ⟨S.store, mt⟩, le_rfl, le_rfl⟩
  | some b =>
    cases ha : treeAbove s.store.heap s.tree e with
    | none => exact Or.inr ⟨_, rfl, ⟨S.store, mt⟩, le_rfl, le_rfl⟩
    | some a =>
      dsimp only
      rcases S.store.detect (O := O) (S.tree b (treeBelow_mem hb)) (S.tree a (treeAbove_mem ha)) with h | ⟨s', c, h, S', p', c'⟩
      · rw [h]; exact Or.inl rfl
      · rw [h]; exact Or.inr ⟨_, rfl, ⟨S', fun j hj => (mt j hj).trans_le c'⟩, p', c'⟩

/-- The events of the log exist. -/
def LogSound (h : Heap α) (log : List (Ev × ℕ)) : Prop := ∀ x ∈ log, EvOk h x.1 ∧ x.2 < h.count

/-- The loop ends, or raises the error. -/
theorem treeLoop_good {B : Balancing} {tb : TieBreak} {stop : Point → Bool} : ∀ (fuel : ℕ) (s : TreeState α) (log : List (Ev × ℕ)),
    SoundState ε Pt l s → LogSound s.store.heap log → potential ε Pt s.store < fuel →
    treeLoop B O tb stop fuel s log = .error .sameOperandOverlap ∨
      ∃ s' log', treeLoop B O tb stop fuel s log = .ok (s', log') ∧ SoundState ε Pt l s' ∧ LogSound s'.store.heap log' := by
  intro fuel
  induction fuel with
  | zero => intro s log _ _ h; exact absurd h (Nat.not_lt_zero _)
  | succ fuel ih =>
    intro s log S hl hp
    have hr : LogSound s.store.heap log.reverse := fun x hx => hl x (List.mem_reverse.1 hx)
    unfold treeLoop
    cases hpop : pop tb s.store with
    | none => exact Or.inr ⟨s, _, rfl, S, hr⟩
    | some x =>
      obtain ⟨e, q⟩ := x
      dsimp only
      split
      · exact Or.inr ⟨s, _, rfl, S, hr⟩
      · obtain ⟨he, rfl, -⟩ := (pop_spec tb S.store.ok S.store.pts S.store.pr S.store.que).2 e q hpop
        have S' : SoundState ε Pt l { s with store := { s.store with queue := s.store.queue.erase e } } :=
          ⟨⟨S.store.ok, S.store.pts, S.store.pr, fun f hf => S.store.que f (List.mem_of_mem_erase hf),
            S.store.par⟩, S.tree⟩
        have hp' : potential ε Pt ({ s.store with queue := s.store.queue.erase e } : Store α) <
            potential ε Pt s.store := by
          unfold potential
          have := List.length_erase_of_mem he
          have := List.length_pos_of_mem he
          dsimp only
          omega
        have heo := S.store.que e he
        have key : GoodState ε Pt l { s with store := { s.store with queue := s.store.queue.erase e } }
            (treeProcess B O { s with store := { s.store with queue := s.store.queue.erase e } } e) := by
          cases e with
          | left i => exact treeLeft_good S' heo
          | right j => exact treeRight_good S'
        rcases key with h | ⟨s₁, h, S₁, p₁, c₁⟩
        · rw [h]; exact Or.inl rfl
        · rw [h]
          dsimp only at p₁ c₁ ⊢
          refine ih s₁ _ S₁ ?_ (by
            have := p₁.trans_lt hp'
            omega)
          intro x hx
          rcases List.mem_cons.1 hx with rfl | hx
          · have he' : EvOk s₁.store.heap e := evOk_mono c₁ heo
            refine ⟨he', ?_⟩
            cases e with
            | left i => exact he'
            | right j => exact S₁.store.ok.llt j he'
          · exact ⟨evOk_mono c₁ (hl x hx).1, (hl x hx).2.trans_le c₁⟩

end Clipping.TreeSweep

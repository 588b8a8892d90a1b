import Verif.Lemmas.Shaped.Tracing

/-!
# Two sets of events with the same segments are traced in the same way
-/

namespace Clipping

open Sweep

theorem groupRuns_image {β γ κ : Type} [DecidableEq κ] (key : γ → κ) (f : β → γ) (l : List β) :
    groupRuns key (l.map f) = (groupRuns (fun x => key (f x)) l).map fun g => (g.1, g.2.map f) := by
  induction l with
  | nil => rfl
  | cons x l ih =>
    rw [List.map_cons, groupRuns, groupRuns, ih]
    cases groupRuns (fun x => key (f x)) l with
    | nil => rfl
    | cons g rest =>
      obtain ⟨k, g⟩ := g
      simp only [List.map_cons]
      split_ifs <;> rfl

/-- `events_to_connectivity` for directed segments -/
def segConnectivity : ℕ → List (Point × List Segment) → List ℕ
  | _, [] => []
  | index, (_, g) :: rest =>
    let rights := (g.takeWhile fun s => !decide (s.start < s.stop)).length
    groupConnectivity index rights (g.length - rights) ++ segConnectivity (index + g.length) rest

namespace Selected

variable {h h' : Heap ShapedData} {events events' : List Ev}

theorem isLeft_eq (S : Selected h events) {e : Ev} (he : e ∈ events) :
    Heap.isLeft e = decide ((evSeg h e).start < (evSeg h e).stop) := by
  have oe := S.evOk e he
  cases e with
  | left i =>
    have : h.start i < h.stop i := S.lt i he
    exact (decide_eq_true (p := (evSeg h (.left i)).start < (evSeg h (.left i)).stop) this).symm
  | right j =>
    have : h.start (h.rights j).left < h.stop (h.rights j).left := S.lt _ (S.opposite _ he)
    symm
    change decide _ = false
    rw [decide_eq_false_iff_not]
    unfold evSeg
    rw [evStart_right S.ok oe, evStop_right]
    exact this.asymm

theorem evSeg_inj (S : Selected h events) {e f : Ev} (he : e ∈ events) (hf : f ∈ events) (hs : evSeg h e = evSeg h f) :
    e = f := by
  by_contra hne
  have h1 : h.evStart e = h.evStart f := congrArg Segment.start hs
  have h2 : h.evStop e = h.evStop f := congrArg Segment.stop hs
  refine S.det_ne he hf hne h1 (by rw [S.isLeft_eq he, S.isLeft_eq hf, hs]) ?_
  unfold evDir
  rw [h1, h2]
  unfold det
  ring

theorem evSeg_opposite (S : Selected h events) {e : Ev} (he : e ∈ events) :
    evSeg h (h.opposite e) = (evSeg h e).swap := by
  have h1 : h.evStop (h.opposite e) = h.evStart e := by
    change h.evStart (h.opposite (h.opposite e)) = _
    rw [S.opposite_opposite he]
  unfold evSeg
  rw [h1]
  rfl

/-- the order of directed segments -/
def SegBefore (s t : Segment) : Prop :=
  s.start < t.start ∨ s.start = t.start ∧
    ((decide (s.start < s.stop) = false ∧ decide (t.start < t.stop) = true) ∨
      (decide (s.start < s.stop) = false ∧ decide (t.start < t.stop) = false ∧
        det (vec s.start s.stop) (vec t.start t.stop) < 0) ∨
      (decide (s.start < s.stop) = true ∧ decide (t.start < t.stop) = true ∧
        0 < det (vec s.start s.stop) (vec t.start t.stop)))

theorem before_iff (S : Selected h events) {e f : Ev} (he : e ∈ events) (hf : f ∈ events) :
    Before h e f ↔ SegBefore (evSeg h e) (evSeg h f) := by
  unfold Before SegBefore
  rw [S.isLeft_eq he, S.isLeft_eq hf]
  rfl

theorem segBefore_asymm {s t : Segment} (h1 : SegBefore s t) : ¬ SegBefore t s := by
  intro h2
  unfold SegBefore at h1 h2
  have sw := det_swap (vec s.start s.stop) (vec t.start t.stop)
  rcases h1 with h1 | ⟨e1, h1⟩
  · rcases h2 with h2 | ⟨e2, -⟩
    · exact lt_asymm h1 h2
    · rw [e2] at h1; exact lt_irrefl _ h1
  · rcases h2 with h2 | ⟨-, h2⟩
    · rw [e1] at h2; exact lt_irrefl _ h2
    · rcases h1 with ⟨a1, a2⟩ | ⟨a1, a2, a3⟩ | ⟨a1, a2, a3⟩ <;> rcases h2 with ⟨b1, b2⟩ | ⟨b1, b2, b3⟩ | ⟨b1, b2, b3⟩ <;>
        first
        | linarith
        | exact Bool.noConfusion (a2.symm.trans b1)
        | exact Bool.noConfusion (a1.symm.trans b2)

/-- Events of two sweeps with the same segments. -/
structure Twin (S : Selected h events) (S' : Selected h' events') : Prop where
  segs : (sortEvents h events).map (evSeg h) = (sortEvents h' events').map (evSeg h')

theorem map_nodup (S : Selected h events) : ((sortEvents h events).map (evSeg h)).Nodup := by
  refine List.Nodup.map_on ?_ S.sort_nodup
  intro e he f hf
  exact S.evSeg_inj (sort_perm.mem_iff.1 he) (sort_perm.mem_iff.1 hf)

theorem map_sorted (S : Selected h events) : ((sortEvents h events).map (evSeg h)).Pairwise SegBefore := by
  rw [List.pairwise_map]
  refine List.Pairwise.imp_of_mem ?_ S.sorted
  intro e f he hf hb
  exact (S.before_iff (sort_perm.mem_iff.1 he) (sort_perm.mem_iff.1 hf)).1 hb

theorem mem_segs (S : Selected h events) (t : Segment) :
    t ∈ (sortEvents h events).map (evSeg h) ↔ t ∈ leftEdges h events ∨ t.swap ∈ leftEdges h events := by
  rw [leftEdges_eq, List.mem_map, List.mem_map, List.mem_map]
  constructor
  · rintro ⟨e, he, rfl⟩
    have he := sort_perm.mem_iff.1 he
    cases hl : Heap.isLeft e with
    | true => exact Or.inl ⟨_, S.primary_mem he, (evSeg_left hl).symm⟩
    | false => exact Or.inr ⟨_, S.primary_mem he, by rw [S.evSeg_right he hl]; rfl⟩
  · rintro (⟨i, hi, rfl⟩ | ⟨i, hi, hs⟩)
    · exact ⟨.left i, sort_perm.mem_iff.2 (mem_leftIds.1 hi), rfl⟩
    · have he := mem_leftIds.1 hi
      refine ⟨_, sort_perm.mem_iff.2 (S.opposite _ he), ?_⟩
      rw [S.evSeg_opposite he]
      change (h.segment i).swap = t
      rw [hs]; rfl

theorem twin (S : Selected h events) (S' : Selected h' events')
    (he : ∀ t, t ∈ leftEdges h events ↔ t ∈ leftEdges h' events') : Twin S S' where
  segs := by
    refine List.Perm.eq_of_pairwise (le := SegBefore) ?_ S.map_sorted S'.map_sorted
      ((List.perm_ext_iff_of_nodup S.map_nodup S'.map_nodup).2 ?_)
    · intro a b _ _ h1 h2
      exact absurd h2 (segBefore_asymm h1)
    · intro t
      rw [S.mem_segs, S'.mem_segs, he, he]

variable {S : Selected h events} {S' : Selected h' events'}

theorem Twin.length (T : Twin S S') : (sortEvents h events).length = (sortEvents h' events').length := by
  have := congrArg List.length T.segs
  rwa [List.length_map, List.length_map] at this

theorem Twin.n_eq (T : Twin S S') : S.darts.n = S'.darts.n := T.length

theorem Twin.seg_eq (T : Twin S S') {x : ℕ} (hx : x < S.darts.n) :
    evSeg h (ev h events x) = evSeg h' (ev h' events' x) := by
  have hx' : x < (sortEvents h events).length := hx
  have hx'' : x < (sortEvents h' events').length := by rw [← T.length]; exact hx
  have := congrArg (fun l => l[x]?) T.segs
  simp only [List.getElem?_map] at this
  rw [List.getElem?_eq_getElem hx', List.getElem?_eq_getElem hx''] at this
  unfold ev
  rw [List.getD_eq_getElem _ _ hx', List.getD_eq_getElem _ _ hx'']
  simpa using this

theorem Twin.start_eq (T : Twin S S') {x : ℕ} (hx : x < S.darts.n) :
    h.evStart (ev h events x) = h'.evStart (ev h' events' x) := congrArg Segment.start (T.seg_eq hx)

theorem Twin.stop_eq (T : Twin S S') {x : ℕ} (hx : x < S.darts.n) :
    h.evStop (ev h events x) = h'.evStop (ev h' events' x) := congrArg Segment.stop (T.seg_eq hx)

theorem Twin.left_eq (T : Twin S S') {x : ℕ} (hx : x < S.darts.n) :
    Heap.isLeft (ev h events x) = Heap.isLeft (ev h' events' x) := by
  rw [S.isLeft_eq (ev_mem hx), S'.isLeft_eq (ev_mem (T.length ▸ hx)), T.seg_eq hx]

theorem opp_seg (S : Selected h events) {x : ℕ} (hx : x < S.darts.n) :
    evSeg h (ev h events (S.darts.opp x)) = (evSeg h (ev h events x)).swap := by
  have he := ev_mem hx
  rw [darts_opp, ← S.evSeg_opposite he]
  have : ev h events (eventId (sortEvents h events) (h.opposite (ev h events x))) = h.opposite (ev h events x) :=
    getD_eventId (sort_perm.mem_iff.2 (S.opposite _ he))
  rw [this]

theorem Twin.opp_eq (T : Twin S S') {x : ℕ} (hx : x < S.darts.n) : S.darts.opp x = S'.darts.opp x := by
  have hx' : x < S'.darts.n := T.n_eq ▸ hx
  have ho := S.darts.opp_lt x hx
  have ho' := S'.darts.opp_lt x hx'
  have h1 := S.opp_seg hx
  have h2 := S'.opp_seg hx'
  have ho'' : S.darts.opp x < S'.darts.n := T.n_eq ▸ ho
  rw [T.seg_eq ho, T.seg_eq hx, ← h2] at h1
  have := S'.evSeg_inj (ev_mem ho'') (ev_mem ho') h1
  rw [← S'.opp_eventId ho'', this, S'.opp_eventId ho']

theorem Twin.key_eq (T : Twin S S') {x : ℕ} (hx : x < S.darts.n) : S.darts.key x = S'.darts.key x := T.start_eq hx

theorem connectivity_eq (S : Selected h events) : eventsToConnectivity h (sortEvents h events) =
    segConnectivity 0 (groupRuns Segment.start ((sortEvents h events).map (evSeg h))) := by
  rw [groupRuns_image]
  unfold eventsToConnectivity
  change connectivityFrom 0 (groupRuns h.evStart _) = segConnectivity 0 ((groupRuns h.evStart _).map _)
  have hm : ∀ g ∈ groupRuns h.evStart (sortEvents h events), ∀ e ∈ g.2, e ∈ events := by
    intro g hg e he
    have hf : e ∈ (groupRuns h.evStart (sortEvents h events)).flatMap Prod.snd := List.mem_flatMap.2 ⟨g, hg, he⟩
    rw [groupRuns_flatMap] at hf
    exact sort_perm.mem_iff.1 hf
  generalize groupRuns h.evStart (sortEvents h events) = gs at hm
  generalize 0 = index
  induction gs generalizing index with
  | nil => rfl
  | cons g gs ih =>
    obtain ⟨k, g⟩ := g
    rw [List.map_cons, connectivityFrom, segConnectivity, ih fun g' hg' => hm g' (by simp [hg'])]
    have key : (g.takeWhile fun e => !Heap.isLeft e).length =
        ((g.map (evSeg h)).takeWhile fun s => !decide (s.start < s.stop)).length := by
      rw [List.takeWhile_map, List.length_map]
      have : ∀ e ∈ g, (!Heap.isLeft e) = ((fun s : Segment => !decide (s.start < s.stop)) ∘ evSeg h) e := by
        intro e he
        rw [S.isLeft_eq (hm _ List.mem_cons_self e he)]; rfl
      clear ih hm
      induction g with
      | nil => rfl
      | cons e g ihg =>
        rw [List.takeWhile_cons, List.takeWhile_cons, this e (by simp)]
        split
        · simp only [List.length_cons]
          rw [ihg fun e' he' => this e' (by simp [he'])]
        · rfl
    dsimp only
    rw [key, List.length_map]

theorem Twin.connectivity (T : Twin S S') : eventsToConnectivity h (sortEvents h events) =
    eventsToConnectivity h' (sortEvents h' events') := by
  rw [S.connectivity_eq, S'.connectivity_eq, T.segs]

/-- `_to_next_event_id` gives numbers of events. -/
theorem next_lt (S : Selected h events) {processed : ℕ → Bool} {i : ℕ} :
    ∀ (fuel c : ℕ), c < S.darts.n → ∀ j, nextEventId (eventsToConnectivity h (sortEvents h events)) processed i fuel c =
      .ok (some j) → j < S.darts.n := by
  obtain ⟨pos, size, R⟩ := S.rotation
  intro fuel
  induction fuel with
  | zero => intro c _ j hj; simp [nextEventId] at hj
  | succ fuel ih =>
    intro c hc j hj
    rw [nextEventId] at hj
    have := R.lt c hc
    split_ifs at hj
    · simp only [Except.ok.injEq, Option.some.injEq] at hj
      rw [← hj]; exact this
    · cases hj
    · exact ih _ this j hj

theorem opp_ev (S : Selected h events) (x : ℕ) :
    eventId (sortEvents h events) (h.opposite (ev h events x)) = S.darts.opp x := rfl

/-- The inner loop of `events_to_regions`. -/
theorem Twin.traceRegion (T : Twin S S') (p : Point) (fuel : ℕ) :
    ∀ (x : ℕ) (processed : ℕ → Bool) (vs : List Point), x < S.darts.n →
    Clipping.traceRegion h (sortEvents h events) (eventsToConnectivity h (sortEvents h events)) p fuel (ev h events x)
        (S.darts.opp x) processed vs =
      Clipping.traceRegion h' (sortEvents h' events') (eventsToConnectivity h' (sortEvents h' events')) p fuel
        (ev h' events' x) (S'.darts.opp x) processed vs := by
  induction fuel with
  | zero => intros; rfl
  | succ fuel ih =>
    intro x processed vs hx
    rw [Clipping.traceRegion, Clipping.traceRegion, ← T.stop_eq hx, ← T.connectivity, ← T.length, ← T.opp_eq hx]
    dsimp only
    split_ifs
    · rfl
    · cases hn : nextEventId (eventsToConnectivity h (sortEvents h events)) processed (S.darts.opp x)
        (sortEvents h events).length (S.darts.opp x) with
      | error e => rfl
      | ok r =>
        cases r with
        | none => rfl
        | some id =>
          have hid := S.next_lt _ _ (S.darts.opp_lt x hx) id hn
          dsimp only
          have e1 : (sortEvents h events).getD id (.left 0) = ev h events id := rfl
          have e2 : (sortEvents h' events').getD id (.left 0) = ev h' events' id := rfl
          rw [e1, e2, opp_ev S, opp_ev S', ← T.opp_eq hid, ih _ _ _ hid, ← T.connectivity, ← T.opp_eq hid]

/-- The loop of `_to_contour_events`. -/
theorem Twin.loop (T : Twin S S') (processed : ℕ → Bool) (p : Point) (fuel : ℕ) :
    ∀ (x : ℕ) (pos : Point → Option ℕ) (R : List ℕ), x < S.darts.n → (∀ y ∈ R, y < S.darts.n) →
    (∃ er, contourEventsLoop h (sortEvents h events) (eventsToConnectivity h (sortEvents h events)) processed p fuel
        (ev h events x) (S.darts.opp x) pos (R.map (ev h events)) = .error er) ∨
    ∃ R' : List ℕ, (∀ y ∈ R', y < S.darts.n) ∧
      contourEventsLoop h (sortEvents h events) (eventsToConnectivity h (sortEvents h events)) processed p fuel
        (ev h events x) (S.darts.opp x) pos (R.map (ev h events)) = .ok (R'.map (ev h events)) ∧
      contourEventsLoop h' (sortEvents h' events') (eventsToConnectivity h' (sortEvents h' events')) processed p fuel
        (ev h' events' x) (S'.darts.opp x) pos (R.map (ev h' events')) = .ok (R'.map (ev h' events')) := by
  induction fuel with
  | zero => intros; exact Or.inl ⟨_, rfl⟩
  | succ fuel ih =>
    intro x pos R hx hR
    rw [contourEventsLoop, contourEventsLoop, ← T.stop_eq hx, ← T.connectivity, ← T.length, ← T.opp_eq hx]
    split_ifs with hst
    · exact Or.inr ⟨R, hR, rfl, rfl⟩
    · have e1 : ∀ id, (sortEvents h events).getD id (.left 0) = ev h events id := fun _ => rfl
      have e2 : ∀ id, (sortEvents h' events').getD id (.left 0) = ev h' events' id := fun _ => rfl
      dsimp only
      cases hp : pos (h.evStop (ev h events x)) with
      | none =>
        dsimp only
        cases hn : nextEventId (eventsToConnectivity h (sortEvents h events)) processed (S.darts.opp x)
          (sortEvents h events).length (S.darts.opp x) with
        | error e => exact Or.inl ⟨_, rfl⟩
        | ok r =>
          cases r with
          | none => exact Or.inr ⟨R, hR, rfl, rfl⟩
          | some id =>
            have hid := S.next_lt _ _ (S.darts.opp_lt x hx) id hn
            dsimp only
            rw [e1, e2, opp_ev S, opp_ev S', List.length_map, List.length_map]
            have := ih id (Function.update pos (h.evStop (ev h events x)) (some R.length)) (R ++ [id]) hid (by
              intro y hy
              rcases List.mem_append.1 hy with hy | hy
              · exact hR y hy
              · rw [List.mem_singleton.1 hy]; exact hid)
            simpa only [List.map_append, List.map_cons, List.map_nil, ← T.connectivity] using this
      | some k =>
        cases k with
        | zero => exact Or.inl ⟨_, rfl⟩
        | succ k =>
          dsimp only
          have hR' : ∀ y ∈ R.take (k + 1), y < S.darts.n := fun y hy => hR y (List.mem_of_mem_take hy)
          cases hn : nextEventId (eventsToConnectivity h (sortEvents h events)) processed (S.darts.opp x)
            (sortEvents h events).length (S.darts.opp x) with
          | error e => exact Or.inl ⟨_, rfl⟩
          | ok r =>
            cases r with
            | none => exact Or.inr ⟨R.take (k + 1), hR', by rw [List.map_take], by rw [List.map_take]⟩
            | some id =>
              have hid := S.next_lt _ _ (S.darts.opp_lt x hx) id hn
              dsimp only
              rw [e1, e2, opp_ev S, opp_ev S', ← List.map_take, ← List.map_take]
              have := ih id pos (R.take (k + 1) ++ [id]) hid (by
                intro y hy
                rcases List.mem_append.1 hy with hy | hy
                · exact hR' y hy
                · rw [List.mem_singleton.1 hy]; exact hid)
              simpa only [List.map_append, List.map_cons, List.map_nil, ← T.connectivity] using this

theorem map_ev_inj (S : Selected h events) {R R' : List ℕ} (hR : ∀ y ∈ R, y < S.darts.n) (hR' : ∀ y ∈ R', y < S.darts.n)
    (e : R.map (ev h events) = R'.map (ev h events)) : R = R' := by
  have key : ∀ R : List ℕ, (∀ y ∈ R, y < S.darts.n) → (R.map (ev h events)).map (eventId (sortEvents h events)) = R := by
    intro R hR
    rw [List.map_map]
    conv_rhs => rw [← List.map_id R]
    exact List.map_congr_left fun y hy => S.opp_eventId (hR y hy)
  rw [← key R hR, e, key R' hR']

theorem Twin.processContour (T : Twin S S') (R : List ℕ) (hR : ∀ y ∈ R, y < S.darts.n) : ∀ processed : ℕ → Bool,
    Clipping.processContour h (sortEvents h events) processed (R.map (ev h events)) =
      Clipping.processContour h' (sortEvents h' events') processed (R.map (ev h' events')) := by
  unfold Clipping.processContour
  induction R with
  | nil => intro; rfl
  | cons x R ih =>
    intro processed
    have hx := hR x List.mem_cons_self
    simp only [List.map_cons, List.foldl_cons]
    rw [ih fun y hy => hR y (List.mem_cons_of_mem _ hy), S.opp_eventId hx, S'.opp_eventId (T.n_eq ▸ hx), opp_ev S, opp_ev S',
      T.opp_eq hx]

/-- The events below of both sets of events have the same places. -/
def SameBelow (h : Heap ShapedData) (events : List Ev) (h' : Heap ShapedData) (events' : List Ev) : Prop :=
  ∀ x < (sortEvents h events).length, ∀ i i', ev h events x = .left i → ev h' events' x = .left i' →
    ((h.lefts i).data.below = none ∧ (h'.lefts i').data.below = none) ∨
    ∃ y < (sortEvents h events).length, ∃ b b', ev h events y = .left b ∧ ev h' events' y = .left b' ∧ (h.lefts i).data.below = some b ∧
      (h'.lefts i').data.below = some b'

/-- The events of both sets have the same marks. -/
def SameMarks (h : Heap ShapedData) (events : List Ev) (h' : Heap ShapedData) (events' : List Ev) (m m' : Marks) : Prop :=
  ∀ y < (sortEvents h events).length, ∀ b b', ev h events y = .left b → ev h' events' y = .left b' →
    m.contourId b = m'.contourId b' ∧ m.fromInToOut b = m'.fromInToOut b'

theorem Twin.ev_inj (S : Selected h events) {x y : ℕ} (hx : x < S.darts.n) (hy : y < S.darts.n)
    (e : ev h events x = ev h events y) : x = y := by
  rw [← S.opp_eventId hx, e, S.opp_eventId hy]

theorem Twin.update (T : Twin S S') {m m' : Marks} (M : SameMarks h events h' events' m m') {x i i' : ℕ} (hx : x < S.darts.n)
    (hi : ev h events x = .left i) (hi' : ev h' events' x = .left i') (c : Option ℕ) (f : Bool) :
    SameMarks h events h' events' ⟨Function.update m.contourId i c, Function.update m.fromInToOut i f⟩
      ⟨Function.update m'.contourId i' c, Function.update m'.fromInToOut i' f⟩ := by
  intro y hy b b' hb hb'
  by_cases e : y = x
  · subst e
    rw [hi] at hb
    rw [hi'] at hb'
    cases hb
    cases hb'
    simp
  · have h1 : b ≠ i := by
      rintro rfl
      exact e (Twin.ev_inj S hy hx (hb.trans hi.symm))
    have h2 : b' ≠ i' := by
      rintro rfl
      exact e (Twin.ev_inj S' (T.n_eq ▸ hy) (T.n_eq ▸ hx) (hb'.trans hi'.symm))
    dsimp only
    rw [Function.update_of_ne h1, Function.update_of_ne h1, Function.update_of_ne h2, Function.update_of_ne h2]
    exact M y hy b b' hb hb'

theorem ev_opp (S : Selected h events) {x : ℕ} (hx : x < S.darts.n) :
    ev h events (S.darts.opp x) = h.opposite (ev h events x) := by
  rw [darts_opp]
  exact getD_eventId (sort_perm.mem_iff.2 (S.opposite _ (ev_mem hx)))

theorem Twin.markContour (T : Twin S S') (c : ℕ) (R : List ℕ) (hR : ∀ y ∈ R, y < S.darts.n) : ∀ m m' : Marks,
    SameMarks h events h' events' m m' →
    SameMarks h events h' events' (Clipping.markContour c m (R.map (ev h events)) h)
      (Clipping.markContour c m' (R.map (ev h' events')) h') := by
  unfold Clipping.markContour
  induction R with
  | nil => intro m m' M; exact M
  | cons x R ih =>
    intro m m' M
    have hx := hR x List.mem_cons_self
    simp only [List.map_cons, List.foldl_cons]
    refine ih (fun y hy => hR y (List.mem_cons_of_mem _ hy)) _ _ ?_
    have hl := T.left_eq hx
    cases he : ev h events x with
    | left i =>
      cases he' : ev h' events' x with
      | left i' => exact T.update M hx he he' _ _
      | right j' => rw [he, he'] at hl; cases hl
    | right j =>
      cases he' : ev h' events' x with
      | left i' => rw [he, he'] at hl; cases hl
      | right j' =>
        have ho := S.darts.opp_lt x hx
        refine T.update M ho (x := S.darts.opp x) ?_ ?_ _ _
        · rw [ev_opp S hx, he]; rfl
        · rw [T.opp_eq hx, ev_opp S' (T.n_eq ▸ hx), he']; rfl

theorem Twin.contourVertices (T : Twin S S') {R : List ℕ} (hR : ∀ y ∈ R, y < S.darts.n) :
    Clipping.contourVertices h (R.map (ev h events)) = Clipping.contourVertices h' (R.map (ev h' events')) := by
  unfold Clipping.contourVertices
  congr 2
  · cases R with
    | nil => rfl
    | cons x R => simp [T.start_eq (hR x List.mem_cons_self)]
  · rw [← List.map_dropLast, ← List.map_dropLast, List.map_map, List.map_map]
    exact List.map_congr_left fun y hy => T.stop_eq (hR y (List.mem_of_mem_dropLast hy))

theorem SameMarks.computeRelations {m m' : Marks} (M : SameMarks h events h' events' m m')
    (H : SameBelow h events h' events') {x i i' : ℕ} (hx : x < (sortEvents h events).length) (hi : ev h events x = .left i)
    (hi' : ev h' events' x = .left i') (c : ℕ) (r : Relations) :
    Clipping.computeRelations h m i c r = Clipping.computeRelations h' m' i' c r := by
  unfold Clipping.computeRelations
  rcases H x hx i i' hi hi' with ⟨h1, h2⟩ | ⟨y, hy, b, b', hb, hb', h1, h2⟩
  · rw [h1, h2]
  · obtain ⟨m1, m2⟩ := M y hy b b' hb hb'
    rw [h1, h2]
    dsimp only
    rw [m1, m2]

/-- Both sets of events are traced in the same way. -/
theorem Twin.traceContours (T : Twin S S') (H : SameBelow h events h' events') (B : BelowOk h events)
    (B' : BelowOk h' events') (k : ℕ) :
    ∀ (a : ℕ) (processed : ℕ → Bool) (m m' : Marks) (r : Relations) (contours : List Contour)
      (Rs : List (List ℕ)) (F F' : Finset ℕ) (ptr ptr' : ℕ → Option (ℕ × Bool)), a + k = S.darts.n →
      (∀ i < a, processed i = true) → TraceInv S processed m r contours Rs F ptr →
      TraceInv S' processed m' r contours Rs F' ptr' → SameMarks h events h' events' m m' →
        Clipping.traceContours h (sortEvents h events) (eventsToConnectivity h (sortEvents h events)) (List.range' a k)
          processed m r contours =
        Clipping.traceContours h' (sortEvents h' events') (eventsToConnectivity h' (sortEvents h' events'))
          (List.range' a k) processed m' r contours := by
  induction k with
  | zero =>
    intro a processed m m' r contours Rs F F' ptr ptr' ha hdone I I' M
    rfl
  | succ k ih =>
    intro a processed m m' r contours Rs F F' ptr ptr' ha hdone I I' M
    rw [List.range'_succ]
    simp only [Clipping.traceContours]
    cases hp : processed a with
    | true =>
      rw [if_pos rfl, if_pos rfl]
      refine ih (a + 1) processed m m' r contours Rs F F' ptr ptr' (by omega) ?_ I I' M
      intro i hi
      rcases Nat.lt_succ_iff_lt_or_eq.1 hi with h1 | h1
      · exact hdone i h1
      · rw [h1]; exact hp
    | false =>
      rw [if_neg (by simp), if_neg (by simp)]
      have han : a < S.darts.n := by omega
      have han' : a < S'.darts.n := T.n_eq ▸ han
      obtain ⟨i, r₂, R, F₂, ptr₂, h1, h2, h3, h4, h5, h6⟩ := I.step S B (d := a) han hp hdone
      obtain ⟨i', r₂', R', F₂', ptr₂', h1', h2', h3', h4', h5', h6'⟩ := I'.step S' B' (d := a) han' hp hdone
      have hrr : r₂ = r₂' := by
        rw [M.computeRelations H han h1 h1', h2'] at h2
        cases h2; rfl
      subst hrr
      have g1 : (sortEvents h events).getD a (.left 0) = .left i := h1
      have g1' : (sortEvents h' events').getD a (.left 0) = .left i' := h1'
      rw [g1, g1']
      dsimp only
      rw [h2, h2']
      dsimp only
      rw [h3, h3']
      dsimp only
      have lt : ∀ y ∈ R, y < S.darts.n := by
        have := (Darts.Traced₀.mk S.darts_start h4.traces).loop (j := Rs.length) (by simp)
        simpa [Darts.nth] using this.lt
      have lt' : ∀ y ∈ R', y < S'.darts.n := by
        have := (Darts.Traced₀.mk S'.darts_start h4'.traces).loop (j := Rs.length) (by simp)
        simpa [Darts.nth] using this.lt
      have hRR : R = R' := by
        unfold toContourEvents at h3 h3'
        rw [← h1, opp_ev S] at h3
        rw [← h1', opp_ev S', ← T.start_eq han, ← T.length] at h3'
        rcases T.loop processed (h.evStart (ev h events a)) (sortEvents h events).length a
          (Function.update (fun _ => none) (h.evStart (ev h events a)) (some 0)) [a] han (by simpa using han)
          with ⟨er, g⟩ | ⟨Q, hQ, g, g'⟩
        · rw [List.map_singleton, h3] at g
          cases g
        · rw [List.map_singleton, h3, Except.ok.injEq] at g
          rw [List.map_singleton, h3', Except.ok.injEq] at g'
          rw [S.map_ev_inj lt hQ g]
          exact (S'.map_ev_inj lt' (fun y hy => T.n_eq ▸ hQ y hy) g').symm
      subst hRR
      rw [← T.processContour R lt, ← T.contourVertices lt] at h4' ⊢
      refine ih (a + 1) _ _ _ _ _ _ F₂ F₂' ptr₂ ptr₂' (by omega) ?_ h4 h4' (T.markContour _ R lt _ _ M)
      intro x hx
      rcases Nat.lt_succ_iff_lt_or_eq.1 hx with h7 | h7
      · exact h6 x (by omega) (hdone x h7)
      · rw [h7]; exact h5

theorem Twin.tracing (T : Twin S S') (H : SameBelow h events h' events') (B : BelowOk h events) (B' : BelowOk h' events') :
    Clipping.traceContours h (sortEvents h events) (eventsToConnectivity h (sortEvents h events))
        (List.range (sortEvents h events).length) (fun _ => false) ⟨fun _ => none, fun _ => false⟩ ⟨[], [], [], []⟩ [] =
      Clipping.traceContours h' (sortEvents h' events') (eventsToConnectivity h' (sortEvents h' events'))
        (List.range (sortEvents h' events').length) (fun _ => false) ⟨fun _ => none, fun _ => false⟩ ⟨[], [], [], []⟩ [] := by
  rw [← T.length, List.range_eq_range']
  exact T.traceContours H B B' S.darts.n 0 (fun _ => false) ⟨fun _ => none, fun _ => false⟩ ⟨fun _ => none, fun _ => false⟩
    ⟨[], [], [], []⟩ [] [] (Finset.range S.darts.n) (Finset.range S'.darts.n) (fun _ => none)
    (fun _ => none) (by omega) (by simp) ⟨.nil, by simp, RelOk.nil _, rfl, by simp, by simp, by simp⟩
    ⟨.nil, by simp, RelOk.nil _, rfl, by simp, by simp, by simp⟩ fun _ _ _ _ _ _ => ⟨rfl, rfl⟩

/-- Events below with the same segments have the same places. -/
theorem Twin.sameBelow (T : Twin S S') (B : BelowOk h events) (B' : BelowOk h' events')
    (H : ∀ i i', Ev.left i ∈ events → Ev.left i' ∈ events' → h'.segment i' = h.segment i →
      ((h.lefts i).data.below).map h.segment = ((h'.lefts i').data.below).map h'.segment) : SameBelow h events h' events' := by
  intro x hx i i' hi hi'
  have m : Ev.left i ∈ events := by rw [← hi]; exact ev_mem hx
  have m' : Ev.left i' ∈ events' := by rw [← hi']; exact ev_mem (T.length ▸ hx)
  have es := T.seg_eq hx
  rw [hi, hi'] at es
  have := H i i' m m' es.symm
  cases hb : (h.lefts i).data.below with
  | none =>
    rw [hb] at this
    cases hb' : (h'.lefts i').data.below with
    | none => exact Or.inl ⟨rfl, rfl⟩
    | some b' => rw [hb'] at this; cases this
  | some b =>
    rw [hb] at this
    cases hb' : (h'.lefts i').data.below with
    | none => rw [hb'] at this; cases this
    | some b' =>
      rw [hb', Option.map_some, Option.map_some, Option.some.injEq] at this
      have mb := (B i m b hb).1
      have mb' := (B' i' m' b' hb').1
      have hy : eventId (sortEvents h events) (.left b) < S.darts.n :=
        List.idxOf_lt_length_of_mem (sort_perm.mem_iff.2 mb)
      have ey : ev h events (eventId (sortEvents h events) (.left b)) = .left b := getD_eventId (sort_perm.mem_iff.2 mb)
      refine Or.inr ⟨eventId (sortEvents h events) (.left b), hy, b, b', ey, ?_, rfl, rfl⟩
      have e2 := T.seg_eq hy
      rw [ey] at e2
      exact S'.evSeg_inj (ev_mem (T.length ▸ hy)) mb' (e2.symm.trans this)

theorem Twin.traceRegions (T : Twin S S') (ids : List ℕ) : ∀ (processed : ℕ → Bool), (∀ x ∈ ids, x < S.darts.n) →
    Clipping.traceRegions h (sortEvents h events) (eventsToConnectivity h (sortEvents h events)) ids processed =
      Clipping.traceRegions h' (sortEvents h' events') (eventsToConnectivity h' (sortEvents h' events')) ids processed := by
  induction ids with
  | nil => intros; rfl
  | cons x ids ih =>
    intro processed hx
    have hx1 := hx x List.mem_cons_self
    have ih := fun p => ih p fun y hy => hx y (List.mem_cons_of_mem _ hy)
    rw [Clipping.traceRegions, Clipping.traceRegions]
    split_ifs
    · exact ih _
    · have e1 : (sortEvents h events).getD x (.left 0) = ev h events x := rfl
      have e2 : (sortEvents h' events').getD x (.left 0) = ev h' events' x := rfl
      dsimp only
      rw [e1, e2, opp_ev S, opp_ev S', ← T.start_eq hx1, T.traceRegion _ _ _ _ _ hx1, ← T.opp_eq hx1, ← T.length,
        ← T.connectivity]
      split
      · rfl
      · rw [ih, ← T.connectivity]

end Selected

/-- `events_to_regions` depends on the segments of the result only. -/
theorem eventsToRegions_twin {h h' : Heap ShapedData} {events events' : List Ev}
    {S : Selected h (events.filter (fromResult h))} {S' : Selected h' (events'.filter (fromResult h'))}
    (T : Selected.Twin S S') : eventsToRegions h events = eventsToRegions h' events' := by
  unfold eventsToRegions
  dsimp only
  have := T.traceRegions (List.range (sortEvents h (events.filter (fromResult h))).length) (fun _ => false)
    fun x hx => List.mem_range.1 hx
  rw [this, T.length]

/-- `events_to_polygons` depends on the segments of the result and of the recorded events below only. -/
theorem eventsToPolygons_twin {h h' : Heap ShapedData} {events events' : List Ev}
    {S : Selected h (events.filter (fromResult h))} {S' : Selected h' (events'.filter (fromResult h'))}
    (T : Selected.Twin S S') (B : Selected.BelowOk h (events.filter (fromResult h)))
    (B' : Selected.BelowOk h' (events'.filter (fromResult h')))
    (H : ∀ i i', Ev.left i ∈ events.filter (fromResult h) → Ev.left i' ∈ events'.filter (fromResult h') →
      h'.segment i' = h.segment i → ((h.lefts i).data.below).map h.segment = ((h'.lefts i').data.below).map h'.segment) :
    eventsToPolygons h events = eventsToPolygons h' events' := by
  unfold eventsToPolygons
  dsimp only
  rw [T.tracing (T.sameBelow B B' H) B B']

end Clipping

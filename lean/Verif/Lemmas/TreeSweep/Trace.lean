import Verif.Model.TreeShaped
import Verif.Lemmas.Shaped.Connectivity
import Verif.Lemmas.Region.Shrink

/-!
# Contours of any events

If events are linked around their starts and every event is the opposite of its opposite, then following links ends.
-/

namespace Clipping.TreeSweep

open Sweep

/-- It ends, with the given property or with a failed assertion or index. -/
def Ends {α : Type} (r : Except Err α) (Q : α → Prop) : Prop := r = .error .assertion ∨ ∃ x, r = .ok x ∧ Q x

/-- What following the links needs. -/
structure Linked (h : Heap ShapedData) (events : List Ev) (conn : List ℕ) (pos : ℕ → ℕ) (size : Point → ℕ) (Q : Point → Prop) : Prop where
  nodup : events.Nodup
  inv : ∀ e ∈ events, h.opposite (h.opposite e) = e
  rot : IsRotation conn (startAt h events) events.length (leftAt events) pos size
  starts : ∀ e ∈ events, Q (h.evStart e)
  stops : ∀ e ∈ events, Q (h.evStop e)

variable {h : Heap ShapedData} {events : List Ev} {conn : List ℕ} {pos : ℕ → ℕ} {size : Point → ℕ} {Q : Point → Prop}

/-- the position of the opposite event -/
def opp (h : Heap ShapedData) (events : List Ev) (i : ℕ) : ℕ := eventId events (h.opposite (events.getD i (.left 0)))

/-- the event at a position -/
theorem getD_mem {i : ℕ} (hi : i < events.length) : events.getD i (.left 0) ∈ events := by
  rw [List.getD_eq_getElem _ _ hi]
  exact List.getElem_mem hi

theorem getD_eventId {e : Ev} (he : eventId events e < events.length) : events.getD (eventId events e) (.left 0) = e := by
  rw [List.getD_eq_getElem _ _ he]
  exact List.getElem_idxOf he

namespace Linked

variable (L : Linked h events conn pos size Q)

include L

theorem eventId_getD {i : ℕ} (hi : i < events.length) : eventId events (events.getD i (.left 0)) = i := by
  rw [List.getD_eq_getElem _ _ hi]
  exact L.nodup.idxOf_getElem i hi

theorem opp_opp {i : ℕ} (hi : i < events.length) (ho : opp h events i < events.length) : opp h events (opp h events i) = i := by
  unfold opp at *
  rw [getD_eventId ho, L.inv _ (getD_mem hi), L.eventId_getD hi]

theorem opp_inj {i j : ℕ} (hi : i < events.length) (hj : j < events.length) (ho : opp h events i < events.length)
    (e : opp h events i = opp h events j) : i = j := by
  rw [← L.opp_opp hi ho, e, L.opp_opp hj (e ▸ ho)]

/-- the next event -/
theorem next (processed : ℕ → Bool) {o : ℕ} (pos : 0 < events.length) :
    nextEventIdChecked conn processed o events.length o = .error .assertion ∨
    (nextEventIdChecked conn processed o events.length o = .ok none) ∨
    ∃ m, 0 < m ∧ o < events.length ∧ nextEventIdChecked conn processed o events.length o = .ok (some ((fun i => conn.getD i 0)^[m] o)) ∧
      processed ((fun i => conn.getD i 0)^[m] o) = false ∧
      ∀ m', 0 < m' → m' < m → processed ((fun i => conn.getD i 0)^[m'] o) = true := by
  by_cases ho : o < events.length
  · have eq : ∀ fuel c, c < events.length → nextEventIdChecked conn processed o fuel c = nextEventId conn processed o fuel c := by
      intro fuel
      induction fuel with
      | zero => intro c _; rfl
      | succ fuel ih =>
        intro c hc
        have hg : conn[c]? = some (conn.getD c 0) := by
          rw [List.getD_eq_getElem _ _ (by rw [L.rot.length]; exact hc)]
          exact List.getElem?_eq_getElem _
        unfold nextEventIdChecked nextEventId
        rw [hg]
        dsimp only
        rw [ih _ (L.rot.lt c hc)]
    rw [eq _ _ ho]
    have hs := L.rot.pos_lt o ho
    rcases L.rot.next_aux processed ho events.length 0 (by omega) (by have := L.rot.size_le o ho; omega) (by intro m h1 h2; omega) with
      ⟨m, h1, h2, h3, h4, h5⟩ | ⟨h1, -⟩
    · exact Or.inr (Or.inr ⟨m, h1, ho, h3, h4, h5⟩)
    · exact Or.inr (Or.inl h1)
  · left
    obtain ⟨n, hn⟩ : ∃ n, events.length = n + 1 := ⟨events.length - 1, by omega⟩
    rw [hn]
    unfold nextEventIdChecked
    rw [List.getElem?_eq_none (by rw [L.rot.length]; omega)]

end Linked

/-- the number of events which have not been processed -/
def remaining (n : ℕ) (processed : ℕ → Bool) : ℕ := ((Finset.range n).filter fun i => processed i = false).card

theorem remaining_mark {n : ℕ} {processed : ℕ → Bool} {i j : ℕ} (hi : i < n) (hp : processed i = false) :
    remaining n (markProcessed processed i j) < remaining n processed := by
  unfold remaining
  apply Finset.card_lt_card
  rw [Finset.ssubset_iff_of_subset]
  · refine ⟨i, by simp [hi, hp], ?_⟩
    simp only [Finset.mem_filter, not_and]
    intro _
    simp [markProcessed]
  · intro x hx
    simp only [Finset.mem_filter, Finset.mem_range] at hx ⊢
    refine ⟨hx.1, ?_⟩
    have := hx.2
    unfold markProcessed at this
    by_cases h1 : x = i
    · subst h1; simp at this
    · rw [Function.update_of_ne h1] at this
      by_cases h2 : x = j
      · subst h2; simp at this
      · rwa [Function.update_of_ne h2] at this

theorem remaining_le (n : ℕ) (processed : ℕ → Bool) : remaining n processed ≤ n := by
  unfold remaining
  exact (Finset.card_filter_le _ _).trans (by simp)

theorem mark_cases {n : ℕ} {processed : ℕ → Bool} {i j : ℕ} :
    markChecked n processed i j = .error .assertion ∨ i < n ∧ j < n ∧ markChecked n processed i j = .ok (markProcessed processed i j) := by
  unfold markChecked
  split
  · rename_i hh; exact Or.inr ⟨hh.1, hh.2, rfl⟩
  · exact Or.inl rfl

namespace Linked

variable (L : Linked h events conn pos size Q)

include L

theorem iter_lt {o : ℕ} (ho : o < events.length) (m : ℕ) : (fun i => conn.getD i 0)^[m] o < events.length := (L.rot.iter ho m).1

/-- Regions: every step marks an event. -/
theorem region (start : Point) : ∀ (fuel : ℕ) (cursor : Ev) (o : ℕ) (processed : ℕ → Bool) (vertices : List Point), cursor ∈ events →
    remaining events.length processed < fuel → (∀ v ∈ vertices, Q v) →
    Ends (traceRegionChecked h events conn start fuel cursor o processed vertices) fun r => ∀ v ∈ r.1, Q v := by
  intro fuel
  induction fuel with
  | zero => intro _ _ _ _ _ hf; exact absurd hf (Nat.not_lt_zero _)
  | succ fuel ih =>
    intro cursor o processed vertices hc hf hv
    unfold traceRegionChecked
    split
    · exact Or.inr ⟨_, rfl, hv⟩
    · have hv' : ∀ v ∈ vertices ++ [h.evStop cursor], Q v := by
        intro v hm
        rcases List.mem_append.1 hm with hm | hm
        · exact hv v hm
        · rw [List.mem_singleton.1 hm]; exact L.stops _ hc
      dsimp only
      rcases L.next processed (o := o) (List.length_pos_of_mem hc) with hn | hn | ⟨m, -, ho, hn, hp, -⟩
      · rw [hn]; exact Or.inl rfl
      · rw [hn]; exact Or.inr ⟨_, rfl, hv'⟩
      · rw [hn]
        dsimp only
        have hi := L.iter_lt ho m
        rcases mark_cases (n := events.length) (processed := processed) (i := (fun i => conn.getD i 0)^[m] o)
          (j := eventId events (h.opposite (events.getD ((fun i => conn.getD i 0)^[m] o) (.left 0)))) with hm | ⟨-, -, hm⟩
        · rw [hm]; exact Or.inl rfl
        · rw [hm]
          exact ih _ _ _ _ (getD_mem hi) (by have := remaining_mark (j := eventId events (h.opposite (events.getD ((fun i => conn.getD i 0)^[m] o) (.left 0)))) hi hp; omega) hv'

theorem regions : ∀ (ids : List ℕ) (processed : ℕ → Bool), (∀ i ∈ ids, i < events.length) →
    Ends (traceRegionsChecked h events conn ids processed) fun cs => ∀ c ∈ cs, ∀ v ∈ c.vertices, Q v := by
  intro ids
  induction ids with
  | nil => intro _ _; exact Or.inr ⟨_, rfl, by simp⟩
  | cons id ids ih =>
    intro processed hl
    have hid := hl id (by simp)
    have hl' : ∀ i ∈ ids, i < events.length := fun i hi => hl i (List.mem_cons_of_mem _ hi)
    unfold traceRegionsChecked
    split
    · exact ih _ hl'
    · rename_i hp
      dsimp only
      have hp' : processed id = false := by simpa using hp
      rcases mark_cases (n := events.length) (processed := processed) (i := id)
        (j := eventId events (h.opposite (events.getD id (.left 0)))) with hm | ⟨-, -, hm⟩
      · rw [hm]; exact Or.inl rfl
      · rw [hm]
        dsimp only
        rcases L.region (h.evStart (events.getD id (.left 0))) events.length (events.getD id (.left 0))
          (eventId events (h.opposite (events.getD id (.left 0)))) (markProcessed processed id (eventId events (h.opposite (events.getD id (.left 0)))))
          [h.evStart (events.getD id (.left 0))] (getD_mem hid)
          (lt_of_lt_of_le (remaining_mark hid hp') (remaining_le _ _))
          (by intro v hv; rw [List.mem_singleton.1 hv]; exact L.starts _ (getD_mem hid)) with e | ⟨⟨vs, p⟩, e, hq⟩
        · rw [e]; exact Or.inl rfl
        · rw [e]
          dsimp only
          rcases ih p hl' with e' | ⟨cs, e', hq'⟩
          · rw [e']; exact Or.inl rfl
          · rw [e']
            refine Or.inr ⟨_, rfl, ?_⟩
            intro c hc
            rcases List.mem_cons.1 hc with rfl | hc
            · intro v hv
              exact hq v ((shrinkCollinearVertices_drops vs).2.subset hv)
            · exact hq' c hc

/-- the step from an event to the next one -/
def Step (_ : Linked h events conn pos size Q) (processed : ℕ → Bool) (i j : ℕ) : Prop :=
  opp h events i < events.length ∧ ∃ m, 0 < m ∧ (fun i => conn.getD i 0)^[m] (opp h events i) = j ∧ processed j = false ∧
    ∀ m', 0 < m' → m' < m → processed ((fun i => conn.getD i 0)^[m'] (opp h events i)) = true

/-- Links are injective. -/
theorem conn_inj {i j : ℕ} (hi : i < events.length) (hj : j < events.length) (e : conn.getD i 0 = conn.getD j 0) : i = j := by
  have k : startAt h events i = startAt h events j := by rw [← L.rot.same i hi, ← L.rot.same j hj, e]
  apply L.rot.pos_inj i hi j hj k
  have h1 := L.rot.pos_next i hi
  have h2 := L.rot.pos_next j hj
  rw [e, h2, ← k] at h1
  have b1 := L.rot.pos_lt i hi
  have b2 := L.rot.pos_lt j hj
  rw [← k] at b2
  clear * - h1 b1 b2
  by_cases c1 : pos i + 1 = size (startAt h events i) <;> by_cases c2 : pos j + 1 = size (startAt h events i)
  · omega
  · rw [c1, Nat.mod_self, Nat.mod_eq_of_lt (by omega)] at h1; omega
  · rw [c2, Nat.mod_self, Nat.mod_eq_of_lt (by omega)] at h1; omega
  · rw [Nat.mod_eq_of_lt (by omega), Nat.mod_eq_of_lt (by omega)] at h1; omega

theorem iter_inj : ∀ (m : ℕ) {i j : ℕ}, i < events.length → j < events.length →
    (fun i => conn.getD i 0)^[m] i = (fun i => conn.getD i 0)^[m] j → i = j := by
  intro m
  induction m with
  | zero => intro i j _ _ e; exact e
  | succ m ih =>
    intro i j hi hj e
    rw [Function.iterate_succ_apply', Function.iterate_succ_apply'] at e
    exact ih hi hj (L.conn_inj (L.iter_lt hi m) (L.iter_lt hj m) e)

/-- Opposite events are both processed or not. -/
def Closed (_ : Linked h events conn pos size Q) (processed : ℕ → Bool) : Prop :=
  ∀ i < events.length, opp h events i < events.length → processed (opp h events i) = processed i

theorem Closed.mark {processed : ℕ → Bool} (C : L.Closed processed) {i : ℕ} (hi : i < events.length) (ho : opp h events i < events.length) :
    L.Closed (markProcessed processed i (opp h events i)) := by
  have key : ∀ x, markProcessed processed i (opp h events i) x = (processed x || decide (x = i) || decide (x = opp h events i)) := by
    intro x
    unfold markProcessed
    by_cases h1 : x = i
    · subst h1; simp
    · by_cases h2 : x = opp h events i
      · rw [Function.update_of_ne h1]; subst h2; simp
      · rw [Function.update_of_ne h1, Function.update_of_ne h2]; simp [h1, h2]
  intro x hx hox
  rw [key, key, C x hx hox]
  have h1 : opp h events x = i ↔ x = opp h events i := by
    constructor
    · intro e; rw [← e, L.opp_opp hx hox]
    · intro e; rw [e, L.opp_opp hi ho]
  have h2 : opp h events x = opp h events i ↔ x = i := by
    constructor
    · intro e; exact L.opp_inj hx hi hox e
    · intro e; rw [e]
  simp only [h1, h2]
  cases processed x <;> simp
  rw [Bool.or_comm]

/-- Steps are injective. -/
theorem step_inj {processed : ℕ → Bool} (C : L.Closed processed) {i i' j : ℕ} (hi : i < events.length) (hi' : i' < events.length)
    (p : processed i = false) (p' : processed i' = false) (s : L.Step processed i j) (s' : L.Step processed i' j) : i = i' := by
  have aux : ∀ {i i' : ℕ}, i < events.length → i' < events.length → processed i = false → processed i' = false →
      opp h events i < events.length → opp h events i' < events.length → ∀ {m m' : ℕ}, 0 < m → m ≤ m' →
      (fun i => conn.getD i 0)^[m] (opp h events i) = (fun i => conn.getD i 0)^[m'] (opp h events i') →
      (∀ k, 0 < k → k < m' → processed ((fun i => conn.getD i 0)^[k] (opp h events i')) = true) → i = i' := by
    intro i i' hi hi' p p' ho ho' m m' m0 hm e all
    obtain ⟨d, rfl⟩ := Nat.exists_eq_add_of_le hm
    rw [Function.iterate_add_apply] at e
    have e' := L.iter_inj m ho (L.iter_lt ho' d) e
    rcases Nat.eq_zero_or_pos d with rfl | hd
    · exact L.opp_inj hi hi' ho e'
    · have := all d hd (by omega)
      rw [← e', C i hi ho, p] at this
      cases this
  obtain ⟨ho, m, m0, e, -, all⟩ := s
  obtain ⟨ho', m', m0', e', -, all'⟩ := s'
  rcases le_total m m' with hm | hm
  · exact aux hi hi' p p' ho ho' m0 hm (e.trans e'.symm) all'
  · exact (aux hi' hi p' p ho' ho m0' hm (e'.trans e.symm) all).symm

end Linked

theorem setPosition_cases {positions : List (Option ℕ)} {id p : Option ℕ} :
    setPosition positions id p = .error .assertion ∨ ∃ ps, setPosition positions id p = .ok ps := by
  unfold setPosition
  split
  · exact Or.inl rfl
  · split
    · exact Or.inr ⟨_, rfl⟩
    · exact Or.inl rfl

theorem getPosition_cases {positions : List (Option ℕ)} {id : Option ℕ} :
    getPosition positions id = .error .assertion ∨ ∃ p, getPosition positions id = .ok p := by
  unfold getPosition
  split
  · exact Or.inl rfl
  · exact Or.inr ⟨_, rfl⟩

theorem clearPositions_cases : ∀ (ids : List (Option ℕ)) (positions : List (Option ℕ)),
    clearPositions positions ids = .error .assertion ∨ ∃ ps, clearPositions positions ids = .ok ps := by
  intro ids
  induction ids with
  | nil =>
    intro positions
    unfold clearPositions
    split
    · exact Or.inr ⟨_, rfl⟩
    · exact Or.inl rfl
  | cons id ids ih =>
    intro positions
    unfold clearPositions
    rcases setPosition_cases (positions := positions) (id := id) (p := none) with e | ⟨ps, e⟩
    · rw [e]; exact Or.inl rfl
    · rw [e]; exact ih ps

theorem computeRelations_cases {m : Marks} {i c : ℕ} {r : Relations} :
    computeRelations h m i c r = .error .assertion ∨ ∃ r', computeRelations h m i c r = .ok r' := by
  unfold computeRelations
  repeat' split
  all_goals first | exact Or.inl rfl | exact Or.inr ⟨_, rfl⟩

namespace Linked

variable (L : Linked h events conn pos size Q)

include L

/-- Contours: no event is reached twice, because steps are injective. -/
theorem contour (number : Ev → Option ℕ) {processed : ℕ → Bool} (C : L.Closed processed) {d : ℕ} (hd : d < events.length) :
    ∀ (fuel : ℕ) (c : ℕ) (V : List ℕ) (positions visited : List (Option ℕ)) (result : List Ev), c ∈ V → V.Nodup →
    V.length + fuel = events.length + 1 → (∀ i ∈ V, i < events.length ∧ processed i = false) →
    (∀ y ∈ V, y = d ∨ ∃ x ∈ V, x ≠ c ∧ L.Step processed x y) → (∀ e ∈ result, e ∈ events) →
    Ends (contourEventsLoopChecked h number events conn processed (startAt h events d) fuel (events.getD c (.left 0)) (opp h events c)
      positions visited result) fun r => ∀ e ∈ r.1, e ∈ events := by
  intro fuel
  induction fuel with
  | zero =>
    intro c V _ _ _ hc nd hl hV _ _
    exfalso
    have h2 : V.toFinset ⊆ Finset.range events.length := by
      intro x hx
      exact Finset.mem_range.2 (hV x (List.mem_toFinset.1 hx)).1
    have h3 := Finset.card_le_card h2
    rw [List.toFinset_card_of_nodup nd, Finset.card_range] at h3
    omega
  | succ fuel ih =>
    intro c V positions visited result hc nd hl hV chain hr
    obtain ⟨hcl, hcp⟩ := hV c hc
    unfold contourEventsLoopChecked
    dsimp only
    split
    · rcases clearPositions_cases visited positions with e | ⟨ps, e⟩
      · rw [e]; exact Or.inl rfl
      · rw [e]; exact Or.inr ⟨_, rfl, hr⟩
    · rename_i hstop
      have next : ∀ (positions visited : List (Option ℕ)) (result : List Ev), (∀ e ∈ result, e ∈ events) →
          Ends (match nextEventIdChecked conn processed (opp h events c) events.length (opp h events c) with
            | .error e => .error e
            | .ok none => match clearPositions positions visited with
              | .error e => .error e
              | .ok positions => .ok (result, positions)
            | .ok (some id) => contourEventsLoopChecked h number events conn processed (startAt h events d) fuel (events.getD id (.left 0))
                (eventId events (h.opposite (events.getD id (.left 0)))) positions visited (result ++ [events.getD id (.left 0)]))
            fun r => ∀ e ∈ r.1, e ∈ events := by
        intro positions visited result hr
        rcases L.next processed (o := opp h events c) (by omega) with hn | hn | ⟨m, m0, ho, hn, hp, all⟩
        · rw [hn]; exact Or.inl rfl
        · rw [hn]
          dsimp only
          rcases clearPositions_cases visited positions with e | ⟨ps, e⟩
          · rw [e]; exact Or.inl rfl
          · rw [e]; exact Or.inr ⟨_, rfl, hr⟩
        · rw [hn]
          dsimp only
          generalize hy : (fun i => conn.getD i 0)^[m] (opp h events c) = y at *
          have hyl : y < events.length := by rw [← hy]; exact L.iter_lt ho m
          have hs : L.Step processed c y := ⟨ho, m, m0, hy, hp, all⟩
          have hyV : y ∉ V := by
            intro hyV
            rcases chain y hyV with rfl | ⟨x, hx, hxc, hxs⟩
            · apply hstop
              have := (L.rot.iter ho m).2.1
              rw [hy] at this
              rw [this]
              unfold startAt opp
              rw [getD_eventId ho]
              rfl
            · exact hxc (L.step_inj C (hV x hx).1 hcl (hV x hx).2 hcp hxs hs)
          apply ih y (y :: V) positions visited _ (by simp) (List.nodup_cons.2 ⟨hyV, nd⟩) (by rw [List.length_cons]; omega)
          · intro i hi
            rcases List.mem_cons.1 hi with rfl | hi
            · exact ⟨hyl, hp⟩
            · exact hV i hi
          · intro z hz
            rcases List.mem_cons.1 hz with rfl | hz
            · exact Or.inr ⟨c, List.mem_cons_of_mem _ hc, fun e => hyV (e ▸ hc), hs⟩
            · rcases chain z hz with e | ⟨x, hx, -, hxs⟩
              · exact Or.inl e
              · exact Or.inr ⟨x, List.mem_cons_of_mem _ hx, fun e => hyV (e ▸ hx), hxs⟩
          · intro e he
            rcases List.mem_append.1 he with he | he
            · exact hr e he
            · rw [List.mem_singleton.1 he]; exact getD_mem hyl
      rcases getPosition_cases (positions := positions) (id := number (h.opposite (events.getD c (.left 0)))) with e | ⟨p, e⟩
      · rw [e]; exact Or.inl rfl
      · rw [e]
        rcases p with _ | _ | p
        · dsimp only
          rcases setPosition_cases (positions := positions) (id := number (h.opposite (events.getD c (.left 0)))) (p := some result.length) with
            e | ⟨ps, e⟩
          · rw [e]; exact Or.inl rfl
          · rw [e]
            exact next ps _ result hr
        · exact Or.inl rfl
        · exact next positions _ _ fun e he => hr e (List.mem_of_mem_take he)

theorem contourEvents (number : Ev → Option ℕ) {processed : ℕ → Bool} (C : L.Closed processed) {d : ℕ} (hd : d < events.length)
    (hp : processed d = false) (positions : List (Option ℕ)) :
    Ends (toContourEventsChecked h number events conn processed (events.getD d (.left 0)) positions) fun r => ∀ e ∈ r.1, e ∈ events := by
  unfold toContourEventsChecked
  rcases setPosition_cases (positions := positions) (id := number (events.getD d (.left 0))) (p := some 0) with e | ⟨ps, e⟩
  · rw [e]; exact Or.inl rfl
  · rw [e]
    exact L.contour number C hd events.length d [d] ps _ _ (by simp) (by simp) (by simp; omega) (by intro i hi; rw [List.mem_singleton.1 hi]; exact ⟨hd, hp⟩)
      (by intro y hy; exact Or.inl (List.mem_singleton.1 hy)) (by intro e he; rw [List.mem_singleton.1 he]; exact getD_mem hd)

theorem processContour : ∀ (es : List Ev) (processed : ℕ → Bool), L.Closed processed → (∀ e ∈ es, e ∈ events) →
    Ends (processContourChecked h events processed es) L.Closed := by
  intro es
  induction es with
  | nil => intro p C _; exact Or.inr ⟨_, rfl, C⟩
  | cons e es ih =>
    intro p C hl
    unfold processContourChecked
    rcases mark_cases (n := events.length) (processed := p) (i := eventId events e) (j := eventId events (h.opposite e)) with hm | ⟨h1, h2, hm⟩
    · rw [hm]; exact Or.inl rfl
    · rw [hm]
      apply ih _ _ fun f hf => hl f (List.mem_cons_of_mem _ hf)
      have ho : opp h events (eventId events e) = eventId events (h.opposite e) := by
        unfold opp; rw [getD_eventId h1]
      rw [← ho] at h2 ⊢
      exact Closed.mark L C h1 h2

theorem contourVertices {es : List Ev} (he : ∀ e ∈ es, e ∈ events) : ∀ v ∈ contourVertices h es, Q v := by
  intro v hv
  unfold Clipping.contourVertices at hv
  have := (shrinkCollinearVertices_drops _).2.subset hv
  rcases List.mem_append.1 this with hm | hm
  · cases es with
    | nil => simp at hm
    | cons e es =>
      simp at hm
      rw [hm]
      exact L.starts e (he e (by simp))
  · obtain ⟨e, hm', rfl⟩ := List.mem_map.1 hm
    exact L.stops e (he e (List.mem_of_mem_dropLast hm'))

theorem contours (number : Ev → Option ℕ) : ∀ (ids : List ℕ) (processed : ℕ → Bool) (m : Marks) (r : Relations) (contours : List Contour)
    (positions : List (Option ℕ)), (∀ i ∈ ids, i < events.length) → L.Closed processed → (∀ c ∈ contours, ∀ v ∈ c.vertices, Q v) →
    Ends (traceContoursChecked h number events conn ids processed m r contours positions) fun x => ∀ c ∈ x.2, ∀ v ∈ c.vertices, Q v := by
  intro ids
  induction ids with
  | nil => intro _ _ _ _ _ _ _ hc; exact Or.inr ⟨_, rfl, hc⟩
  | cons id ids ih =>
    intro processed m r contours positions hl C hc
    have hid := hl id (by simp)
    have hl' : ∀ i ∈ ids, i < events.length := fun i hi => hl i (List.mem_cons_of_mem _ hi)
    unfold traceContoursChecked
    split
    · exact ih _ _ _ _ _ hl' C hc
    · rename_i hp
      have hp' : processed id = false := by simpa using hp
      cases hev : events.getD id (.left 0) with
      | right j => exact Or.inl rfl
      | left i =>
        dsimp only
        rcases computeRelations_cases (h := h) (m := m) (i := i) (c := contours.length) (r := r) with e | ⟨r', e⟩
        · rw [e]; exact Or.inl rfl
        · rw [e]
          dsimp only
          rw [← hev]
          rcases L.contourEvents number C hid hp' positions with e | ⟨⟨es, ps⟩, e, hes⟩
          · rw [e]; exact Or.inl rfl
          · rw [e]
            dsimp only at hes ⊢
            rcases L.processContour es processed C hes with e | ⟨p', e, C'⟩
            · rw [e]; exact Or.inl rfl
            · rw [e]
              apply ih _ _ _ _ _ hl' C'
              intro c hm
              rcases List.mem_append.1 hm with hm | hm
              · exact hc c hm
              · rw [List.mem_singleton.1 hm]
                intro v hv
                dsimp only at hv
                split at hv
                · unfold reverseVertices at hv
                  rcases List.mem_append.1 hv with hv | hv
                  · exact L.contourVertices hes v (List.mem_of_mem_take hv)
                  · exact L.contourVertices hes v (List.mem_of_mem_drop (List.mem_reverse.1 hv))
                · exact L.contourVertices hes v hv

end Linked

end Clipping.TreeSweep

import Verif.Lemmas.TreeSweep.Trace
import Verif.Lemmas.Shaped.Numbered

/-!
# Contours of events of valid operands

If the opposites of all events are among the events, then nothing is out of range and the checks do nothing.
-/

namespace Clipping.TreeSweep

open Sweep

variable {h : Heap ShapedData} {events : List Ev} {conn : List ℕ}

theorem nextEventIdChecked_eq (len : conn.length = events.length) (hc : ∀ i < events.length, conn.getD i 0 < events.length)
    (processed : ℕ → Bool) (o : ℕ) :
    ∀ fuel c, c < events.length → nextEventIdChecked conn processed o fuel c = nextEventId conn processed o fuel c := by
  intro fuel
  induction fuel with
  | zero => intro c _; rfl
  | succ fuel ih =>
    intro c hcl
    have hg : conn[c]? = some (conn.getD c 0) := by
      rw [List.getD_eq_getElem _ _ (by rw [len]; exact hcl)]
      exact List.getElem?_eq_getElem _
    unfold nextEventIdChecked nextEventId
    rw [hg]
    dsimp only
    rw [ih _ (hc c hcl)]

theorem eventId_lt {e : Ev} (he : e ∈ events) : eventId events e < events.length := List.idxOf_lt_length_of_mem he

section
variable (op : ∀ e ∈ events, h.opposite e ∈ events) (len : conn.length = events.length)
  (hc : ∀ i < events.length, conn.getD i 0 < events.length)

include op len hc

theorem traceRegionChecked_eq (start : Point) : ∀ (fuel : ℕ) (cursor : Ev) (processed : ℕ → Bool) (vertices : List Point),
    cursor ∈ events →
    traceRegionChecked h events conn start fuel cursor (eventId events (h.opposite cursor)) processed vertices =
      traceRegion h events conn start fuel cursor (eventId events (h.opposite cursor)) processed vertices := by
  intro fuel
  induction fuel with
  | zero => intros; rfl
  | succ fuel ih =>
    intro cursor processed vertices hcur
    have ho := eventId_lt (op _ hcur)
    unfold traceRegionChecked traceRegion
    rw [nextEventIdChecked_eq len hc _ _ _ _ ho]
    split
    · rfl
    · dsimp only
      cases hn : nextEventId conn processed (eventId events (h.opposite cursor)) events.length (eventId events (h.opposite cursor)) with
      | error e => rfl
      | ok x =>
        cases x with
        | none => rfl
        | some id =>
          have hid := nextEventId_lt hc _ _ _ ho hn
          have hm := getD_mem hid
          dsimp only
          unfold markChecked
          rw [if_pos ⟨hid, eventId_lt (op _ hm)⟩]
          exact ih _ _ _ hm

theorem traceRegionsChecked_eq : ∀ (ids : List ℕ) (processed : ℕ → Bool), (∀ i ∈ ids, i < events.length) →
    traceRegionsChecked h events conn ids processed = traceRegions h events conn ids processed := by
  intro ids
  induction ids with
  | nil => intros; rfl
  | cons id ids ih =>
    intro processed hl
    have hid := hl id (by simp)
    have hl' : ∀ i ∈ ids, i < events.length := fun i hi => hl i (List.mem_cons_of_mem _ hi)
    have hm := getD_mem hid
    unfold traceRegionsChecked traceRegions
    dsimp only
    unfold markChecked
    rw [if_pos (⟨hid, eventId_lt (op _ hm)⟩ : id < events.length ∧ _), ih _ hl']
    dsimp only
    rw [traceRegionChecked_eq op len hc _ _ _ _ _ hm]
    split
    · rfl
    · cases traceRegion h events conn (h.evStart (events.getD id (.left 0))) events.length (events.getD id (.left 0))
        (eventId events (h.opposite (events.getD id (.left 0))))
        (markProcessed processed id (eventId events (h.opposite (events.getD id (.left 0))))) [h.evStart (events.getD id (.left 0))] with
      | error e => rfl
      | ok x => dsimp only; rw [ih _ hl']; rfl

theorem contourEventsLoopChecked_eq (number : Ev → Option ℕ) (processed : ℕ → Bool) (start : Point) :
    ∀ (fuel : ℕ) (cursor : Ev) (positions visited : List (Option ℕ)) (result : List Ev), cursor ∈ events →
    contourEventsLoopChecked h number events conn processed start fuel cursor (eventId events (h.opposite cursor)) positions visited result =
      contourEventsLoopNumbered h number events conn processed start fuel cursor (eventId events (h.opposite cursor)) positions visited
        result := by
  intro fuel
  induction fuel with
  | zero => intros; rfl
  | succ fuel ih =>
    intro cursor positions visited result hcur
    have ho := eventId_lt (op _ hcur)
    unfold contourEventsLoopChecked contourEventsLoopNumbered
    rw [nextEventIdChecked_eq len hc _ _ _ _ ho]
    dsimp only
    cases hn : nextEventId conn processed (eventId events (h.opposite cursor)) events.length (eventId events (h.opposite cursor)) with
    | error e => rfl
    | ok x =>
      cases x with
      | none => rfl
      | some id =>
        have hm := getD_mem (nextEventId_lt hc _ _ _ ho hn)
        dsimp only
        simp only [ih _ _ _ _ hm]
        rfl

theorem contourEventsLoopNumbered_mem (number : Ev → Option ℕ) (processed : ℕ → Bool) (start : Point) :
    ∀ (fuel : ℕ) (cursor : Ev) (positions visited : List (Option ℕ)) (result R : List Ev) (ps : List (Option ℕ)), cursor ∈ events →
    (∀ e ∈ result, e ∈ events) →
    contourEventsLoopNumbered h number events conn processed start fuel cursor (eventId events (h.opposite cursor)) positions visited
      result = .ok (R, ps) → ∀ e ∈ R, e ∈ events := by
  intro fuel
  induction fuel with
  | zero => intro _ _ _ _ _ _ _ _ h; cases h
  | succ fuel ih =>
    intro cursor positions visited result R ps hcur hr e
    have ho := eventId_lt (op _ hcur)
    have fin : ∀ positions visited (result : List Ev), (∀ e ∈ result, e ∈ events) →
        (match clearPositions positions visited with
          | .error e => (.error e : Except Err (List Ev × List (Option ℕ)))
          | .ok positions => .ok (result, positions)) = .ok (R, ps) → ∀ e ∈ R, e ∈ events := by
      intro positions visited result hr e
      split at e
      · cases e
      · cases e; exact hr
    unfold contourEventsLoopNumbered at e
    dsimp only at e
    split at e
    · exact fin _ _ _ hr e
    · cases hn : nextEventId conn processed (eventId events (h.opposite cursor)) events.length (eventId events (h.opposite cursor)) with
      | error x =>
        rw [hn] at e
        dsimp only at e
        repeat' split at e
        all_goals cases e
      | ok x =>
        rw [hn] at e
        cases x with
        | none =>
          dsimp only at e
          split at e
          · cases e
          · split at e
            · cases e
            · exact fin _ _ _ hr e
          · cases e
          · exact fin _ _ _ (fun f hf => hr f (List.mem_of_mem_take hf)) e
        | some id =>
          have hm := getD_mem (nextEventId_lt hc _ _ _ ho hn)
          have app : ∀ (result : List Ev), (∀ e ∈ result, e ∈ events) → ∀ f ∈ result ++ [events.getD id (.left 0)], f ∈ events := by
            intro result hr f hf
            rcases List.mem_append.1 hf with hf | hf
            · exact hr f hf
            · rw [List.mem_singleton.1 hf]; exact hm
          dsimp only at e
          split at e
          · cases e
          · split at e
            · cases e
            · exact ih _ _ _ _ _ _ hm (app _ hr) e
          · cases e
          · exact ih _ _ _ _ _ _ hm (app _ (fun f hf => hr f (List.mem_of_mem_take hf))) e

omit len hc in
theorem processContourChecked_eq : ∀ (es : List Ev) (processed : ℕ → Bool), (∀ e ∈ es, e ∈ events) →
    processContourChecked h events processed es = .ok (processContour h events processed es) := by
  intro es
  induction es with
  | nil => intros; rfl
  | cons e es ih =>
    intro processed he
    have hm := he e (by simp)
    unfold processContourChecked markChecked
    rw [if_pos ⟨eventId_lt hm, eventId_lt (op _ hm)⟩]
    exact ih _ fun f hf => he f (List.mem_cons_of_mem _ hf)

theorem traceContoursChecked_eq (number : Ev → Option ℕ) : ∀ (ids : List ℕ) (processed : ℕ → Bool) (m : Marks) (r : Relations)
    (contours : List Contour) (positions : List (Option ℕ)), (∀ i ∈ ids, i < events.length) →
    traceContoursChecked h number events conn ids processed m r contours positions =
      traceContoursNumbered h number events conn ids processed m r contours positions := by
  intro ids
  induction ids with
  | nil => intros; rfl
  | cons id ids ih =>
    intro processed m r contours positions hl
    have hid := hl id (by simp)
    have hl' : ∀ i ∈ ids, i < events.length := fun i hi => hl i (List.mem_cons_of_mem _ hi)
    have hm := getD_mem hid
    unfold traceContoursChecked traceContoursNumbered
    split
    · exact ih _ _ _ _ _ hl'
    · cases he : events.getD id (.left 0) with
      | right j => rfl
      | left i =>
        rw [he] at hm
        dsimp only
        cases computeRelations h m i contours.length r with
        | error x => rfl
        | ok r' =>
          dsimp only
          have e1 : toContourEventsChecked h number events conn processed (.left i) positions =
              toContourEventsNumbered h number events conn processed (.left i) positions := by
            unfold toContourEventsChecked toContourEventsNumbered
            simp only [contourEventsLoopChecked_eq op len hc number processed _ _ _ _ _ _ hm]
            rfl
          rw [e1]
          cases e2 : toContourEventsNumbered h number events conn processed (.left i) positions with
          | error x => rfl
          | ok x =>
            obtain ⟨es, ps⟩ := x
            have mem : ∀ e ∈ es, e ∈ events := by
              unfold toContourEventsNumbered at e2
              split at e2
              · cases e2
              · exact contourEventsLoopNumbered_mem op len hc number processed _ _ _ _ _ _ _ _ hm (by
                  intro e he; rw [List.mem_singleton.1 he]; exact hm) e2
            dsimp only
            rw [processContourChecked_eq op _ _ mem]
            exact ih _ _ _ _ _ hl'

end

/-- The comparison orders the events of a result. -/
theorem selected_distinguished {es : List Ev} (S : Selected h es) : Distinguished h es := by
  constructor
  · intro e he f hf hne
    have h1 := S.queue_iff he hf hne
    have h2 := S.queue_iff hf he hne.symm
    rcases S.before_total he hf hne with g | g
    · have k1 := h1.2 g
      have k2 : queueLt h f e ≠ true := fun k => Selected.before_asymm g (h2.1 k)
      rw [k1, Bool.eq_false_iff.2 k2]; rfl
    · have k1 := h2.2 g
      have k2 : queueLt h e f ≠ true := fun k => Selected.before_asymm g (h1.1 k)
      rw [k1, Bool.eq_false_iff.2 k2]; rfl
  · intro e he f hf g hg h1 h2 h3 k1 k2
    rw [S.queue_iff he hg h3]
    exact S.before_trans he hf hg ((S.queue_iff he hf h1).1 k1) ((S.queue_iff hf hg h2).1 k2)

theorem eventsToRegionsChecked_eq (S : EventSort) {es : List Ev} (sel : Selected h (es.filter (fromResult h))) :
    eventsToRegionsChecked S h es = eventsToRegions h es := by
  unfold eventsToRegionsChecked eventsToRegions
  dsimp only
  rw [S.order _ _ (selected_distinguished sel)]
  obtain ⟨pos, size, R⟩ := sel.rotation
  have mem : ∀ e, e ∈ sortEvents h (es.filter (fromResult h)) ↔ e ∈ es.filter (fromResult h) := fun e => Selected.sort_perm.mem_iff
  exact traceRegionsChecked_eq (fun e he => (mem _).2 (sel.opposite e ((mem e).1 he))) R.length R.lt _ _ (fun i hi => List.mem_range.1 hi)

theorem eventsToPolygonsChecked_eq (S : EventSort) (number : Ev → Option ℕ) {es : List Ev} (sel : Selected h (es.filter (fromResult h))) :
    eventsToPolygonsChecked S h number es = eventsToPolygonsNumbered h number es := by
  unfold eventsToPolygonsChecked eventsToPolygonsNumbered
  dsimp only
  rw [S.order _ _ (selected_distinguished sel)]
  obtain ⟨pos, size, R⟩ := sel.rotation
  have mem : ∀ e, e ∈ sortEvents h (es.filter (fromResult h)) ↔ e ∈ es.filter (fromResult h) := fun e => Selected.sort_perm.mem_iff
  simp only [traceContoursChecked_eq (fun e he => (mem _).2 (sel.opposite e ((mem e).1 he))) R.length R.lt number _ _ _ _ _ _
    (fun i hi => List.mem_range.1 hi)]
  rfl

/-- The comparison orders all events of a sweep. -/
theorem end_distinguished {op : Bool → Bool → Bool} {es : List Ev} {stop : Point → Bool} {A B : List Segment}
    (E : ShapedEnd op h es stop A B) : Distinguished h es := by
  have ev : ∀ e ∈ es, EvOk h e := fun e he => ((E.mem e).1 he).1
  have asym : ∀ e ∈ es, ∀ f ∈ es, e ≠ f → NotAfter h e f → NotAfter h f e → False := by
    intro e he f hf hne h1 h2
    have sw := det_swap (evDir h e) (evDir h f)
    unfold NotAfter at h1 h2
    rcases h1 with h1 | ⟨s1, h1⟩
    · rcases h2 with h2 | ⟨s2, -⟩
      · exact lt_asymm h1 h2
      · rw [s2] at h1; exact lt_irrefl _ h1
    · rcases h2 with h2 | ⟨-, h2⟩
      · rw [s1] at h2; exact lt_irrefl _ h2
      · have fn := E.first_ne (ev e he) (ev f hf) hne s1
        rcases h1 with ⟨a1, a2⟩ | ⟨a1, a2, a3⟩ | ⟨a1, a2, a3⟩ <;> rcases h2 with ⟨b1, b2⟩ | ⟨b1, b2, b3⟩ | ⟨b1, b2, b3⟩
        all_goals try (rw [a1] at b2; cases b2)
        all_goals try (rw [a2] at b1; cases b1)
        all_goals
          rcases a3 with a3 | ⟨a3, a4⟩ <;> rcases b3 with b3 | ⟨b3, b4⟩
          · linarith
          · linarith
          · linarith
          · exact fn (by rw [a1, a2]) a3 (by rw [a4, b4])
  have tot : ∀ e ∈ es, ∀ f ∈ es, e ≠ f → NotAfter h e f ∨ NotAfter h f e := by
    intro a ha b hb hne
    unfold NotAfter
    rcases lt_trichotomy (h.evStart a) (h.evStart b) with h1 | h1 | h1
    · exact Or.inl (Or.inl h1)
    · have hd := E.first_ne (ev a ha) (ev b hb) hne h1
      have sw := det_swap (evDir h a) (evDir h b)
      cases l1 : Heap.isLeft a <;> cases l2 : Heap.isLeft b
      · rw [l1, l2] at hd
        rcases lt_trichotomy (det (evDir h a) (evDir h b)) 0 with h2 | h2 | h2
        · left; right; exact ⟨h1, Or.inr (Or.inl ⟨rfl, rfl, Or.inl h2⟩)⟩
        · have := hd rfl h2
          cases f1 : h.evFirst a
          · left; right; exact ⟨h1, Or.inr (Or.inl ⟨rfl, rfl, Or.inr ⟨h2, rfl⟩⟩)⟩
          · right; right; exact ⟨h1.symm, Or.inr (Or.inl ⟨rfl, rfl, Or.inr ⟨by linarith, by rw [f1] at this; simpa using this.symm⟩⟩)⟩
        · right; right; exact ⟨h1.symm, Or.inr (Or.inl ⟨rfl, rfl, Or.inl (by linarith)⟩)⟩
      · left; right; exact ⟨h1, Or.inl ⟨rfl, rfl⟩⟩
      · right; right; exact ⟨h1.symm, Or.inl ⟨rfl, rfl⟩⟩
      · rw [l1, l2] at hd
        rcases lt_trichotomy (det (evDir h a) (evDir h b)) 0 with h2 | h2 | h2
        · right; right; exact ⟨h1.symm, Or.inr (Or.inr ⟨rfl, rfl, Or.inl (by linarith)⟩)⟩
        · have := hd rfl h2
          cases f1 : h.evFirst a
          · left; right; exact ⟨h1, Or.inr (Or.inr ⟨rfl, rfl, Or.inr ⟨h2, rfl⟩⟩)⟩
          · right; right; exact ⟨h1.symm, Or.inr (Or.inr ⟨rfl, rfl, Or.inr ⟨by linarith, by rw [f1] at this; simpa using this.symm⟩⟩)⟩
        · left; right; exact ⟨h1, Or.inr (Or.inr ⟨rfl, rfl, Or.inl h2⟩)⟩
    · exact Or.inr (Or.inl h1)
  have part : ∀ e ∈ es, ∀ f ∈ es, e ≠ f → queueLt h e f = !queueLt h f e := by
    intro e he f hf hne
    rcases tot e he f hf hne with g | g
    · have k : queueLt h e f ≠ false := fun k => asym e he f hf hne g (queueLt_false_iff.1 k)
      rw [queueLt_false_iff.2 g, Bool.not_eq_false _ |>.mp k]; rfl
    · have k : queueLt h f e ≠ false := fun k => asym e he f hf hne (queueLt_false_iff.1 k) g
      rw [queueLt_false_iff.2 g, Bool.not_eq_false _ |>.mp k]; rfl
  refine ⟨part, ?_⟩
  intro e he f hf g hg h1 h2 h3 k1 k2
  rw [part e he g hg h3]
  rw [part e he f hf h1] at k1
  rw [part f hf g hg h2] at k2
  have := notAfter_trans E.ok E.fin.lt (ev e he) (ev f hf) (ev g hg) (queueLt_false_iff.1 (by simpa using k1))
    (queueLt_false_iff.1 (by simpa using k2))
  rw [queueLt_false_iff.2 this]; rfl

end Clipping.TreeSweep

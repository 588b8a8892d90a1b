import Verif.Model.Numbered
import Verif.Lemmas.Shaped.Normal

/-!
# The numbers of end points
-/

namespace Clipping

open Sweep Darts

/-! ## The numbers -/

theorem startIdsFrom_length (h : Heap ShapedData) (es : List Ev) : ∀ (p : Point) (id : ℕ),
    (startIdsFrom h p id es).length = es.length := by
  induction es with
  | nil => intros; rfl
  | cons e es ih =>
    intro p id
    unfold startIdsFrom
    split_ifs <;> simp [ih]

theorem startIds_length (h : Heap ShapedData) (es : List Ev) : (startIds h es).length = es.length := by
  cases es with
  | nil => rfl
  | cons e es => simp [startIds, startIdsFrom_length]

theorem startIdsFrom_spec (h : Heap ShapedData) (es : List Ev)
    (sorted : es.Pairwise fun e f => h.evStart e ≤ h.evStart f) : ∀ (p : Point) (id : ℕ), (∀ e ∈ es, p ≤ h.evStart e) →
      (∀ x ∈ es.zip (startIdsFrom h p id es), id ≤ x.2 ∧ (x.2 = id ↔ h.evStart x.1 = p)) ∧
      ∀ x ∈ es.zip (startIdsFrom h p id es), ∀ y ∈ es.zip (startIdsFrom h p id es),
        x.2 ≤ y.2 ↔ h.evStart x.1 ≤ h.evStart y.1 := by
  induction es with
  | nil => intro p id _; simp
  | cons e es ih =>
    intro p id hp
    obtain ⟨s1, s2⟩ := List.pairwise_cons.1 sorted
    unfold startIdsFrom
    split_ifs with he
    · obtain ⟨i1, i2⟩ := ih s2 (h.evStart e) (id + 1) s1
      rw [List.zip_cons_cons]
      have hlt : p < h.evStart e := lt_of_le_of_ne (hp e (by simp)) (Ne.symm he)
      refine ⟨?_, ?_⟩
      · intro x hx
        rcases List.mem_cons.1 hx with rfl | hx
        · exact ⟨by simp, by simp [he]⟩
        · obtain ⟨h1, -⟩ := i1 x hx
          have hm := s1 x.1 (List.of_mem_zip hx).1
          refine ⟨by omega, ⟨fun h => by omega, fun h => ?_⟩⟩
          rw [h] at hm
          exact absurd hm (not_le.2 hlt)
      · intro x hx y hy
        rcases List.mem_cons.1 hx with rfl | hx <;> rcases List.mem_cons.1 hy with rfl | hy
        · simp
        · exact ⟨fun _ => s1 _ (List.of_mem_zip hy).1, fun _ => (i1 y hy).1⟩
        · obtain ⟨h1, h2⟩ := i1 x hx
          have hm := s1 _ (List.of_mem_zip hx).1
          constructor
          · intro h; exact (h2.1 (le_antisymm h h1)).le
          · intro h; exact (h2.2 (le_antisymm h hm)).le
        · exact i2 x hx y hy
    · rw [not_not] at he
      obtain ⟨i1, i2⟩ := ih s2 p id (fun f hf => hp f (by simp [hf]))
      rw [List.zip_cons_cons]
      refine ⟨?_, ?_⟩
      · intro x hx
        rcases List.mem_cons.1 hx with rfl | hx
        · simp [he]
        · exact i1 x hx
      · intro x hx y hy
        rcases List.mem_cons.1 hx with rfl | hx <;> rcases List.mem_cons.1 hy with rfl | hy
        · simp
        · exact ⟨fun _ => s1 _ (List.of_mem_zip hy).1, fun _ => (i1 y hy).1⟩
        · obtain ⟨h1, h2⟩ := i1 x hx
          have hm := s1 _ (List.of_mem_zip hx).1
          rw [he] at hm ⊢
          constructor
          · intro h; exact (h2.1 (le_antisymm h h1)).le
          · intro h; exact (h2.2 (le_antisymm h hm)).le
        · exact i2 x hx y hy

theorem startIds_spec (h : Heap ShapedData) {es : List Ev} (sorted : es.Pairwise fun e f => h.evStart e ≤ h.evStart f) :
    ∀ x ∈ es.zip (startIds h es), ∀ y ∈ es.zip (startIds h es), x.2 ≤ y.2 ↔ h.evStart x.1 ≤ h.evStart y.1 := by
  cases es with
  | nil => simp
  | cons e es =>
    have key := (startIdsFrom_spec h (e :: es) sorted (h.evStart e) 0 (by
      intro f hf
      rcases List.mem_cons.1 hf with rfl | hf
      · exact le_refl _
      · exact (List.pairwise_cons.1 sorted).1 f hf)).2
    have : startIdsFrom h (h.evStart e) 0 (e :: es) = startIds h (e :: es) := by
      rw [startIdsFrom, if_neg (by simp)]; rfl
    rwa [this] at key

/-- The numbers of processed events are in the order of their starts. -/
theorem startId_spec (h : Heap ShapedData) {es : List Ev} (sorted : es.Pairwise fun e f => h.evStart e ≤ h.evStart f) :
    (∀ e ∈ es, ∃ i, startId h es e = some i) ∧
    ∀ e f i j, startId h es e = some i → startId h es f = some j → (i ≤ j ↔ h.evStart e ≤ h.evStart f) := by
  have get : ∀ e i, startId h es e = some i → (e, i) ∈ es.zip (startIds h es) := by
    intro e i hi
    unfold startId at hi
    obtain ⟨hlt, hi⟩ := List.getElem?_eq_some_iff.1 hi
    have hlt' : es.idxOf e < es.length := by rwa [startIds_length] at hlt
    rw [List.mem_iff_getElem]
    refine ⟨es.idxOf e, by simp [startIds_length, hlt'], ?_⟩
    rw [List.getElem_zip, List.getElem_idxOf, hi]
  refine ⟨?_, ?_⟩
  · intro e he
    have : es.idxOf e < (startIds h es).length := by rw [startIds_length]; exact List.idxOf_lt_length_of_mem he
    exact ⟨_, List.getElem?_eq_getElem this⟩
  · intro e f i j hi hj
    exact startIds_spec h sorted _ (get e i hi) _ (get f j hj)

/-! ## Positions -/

/-- Numbers less than `n` distinguish the starts of events. -/
structure Numbers (h : Heap ShapedData) (number : Ev → Option ℕ) (L : List Ev) (n : ℕ) : Prop where
  lt : ∀ e ∈ L, ∃ i < n, number e = some i
  eq : ∀ e ∈ L, ∀ f ∈ L, number e = number f ↔ h.evStart e = h.evStart f
  opposite : ∀ e ∈ L, h.opposite e ∈ L

/-- The list of positions agrees with positions of points. -/
structure SamePositions (h : Heap ShapedData) (number : Ev → Option ℕ) (L : List Ev) (n : ℕ) (ps : List (Option ℕ))
    (pos : Point → Option ℕ) (visited : List (Option ℕ)) : Prop where
  length : ps.length = n
  get : ∀ e ∈ L, ∀ i, number e = some i → ps[i]? = some (pos (h.evStart e))
  mem : ∀ i p, ps[i]? = some (some p) → some i ∈ visited
  lt : ∀ x ∈ visited, ∃ i < n, x = some i

theorem clearPositions_ok {n : ℕ} : ∀ (visited ps : List (Option ℕ)), ps.length = n →
    (∀ i p, ps[i]? = some (some p) → some i ∈ visited) → (∀ x ∈ visited, ∃ i < n, x = some i) →
    clearPositions ps visited = .ok (List.replicate n none) := by
  intro visited
  induction visited with
  | nil =>
    intro ps hl hv _
    have all : ∀ p ∈ ps, p = none := by
      intro p hp
      obtain ⟨i, hi, e⟩ := List.mem_iff_getElem.1 hp
      cases p with
      | none => rfl
      | some p =>
        have := hv i p (by rw [List.getElem?_eq_getElem hi, e])
        simp at this
    have : ps = List.replicate n none := List.eq_replicate_iff.2 ⟨hl, all⟩
    simp [clearPositions, this]
  | cons x visited ih =>
    intro ps hl hv hlt
    obtain ⟨i, hi, rfl⟩ := hlt x (by simp)
    unfold clearPositions setPosition
    dsimp only
    rw [if_pos (by omega)]
    dsimp only
    refine ih _ (by simp [hl]) ?_ (fun y hy => hlt y (by simp [hy]))
    intro j p hj
    by_cases hij : i = j
    · subst hij
      rw [List.getElem?_set_self (by omega)] at hj
      cases hj
    · rw [List.getElem?_set_ne hij] at hj
      have := hv j p hj
      rw [List.mem_cons] at this
      rcases this with e | e
      · exact absurd (Option.some.inj e).symm hij
      · exact e

section

variable {h : Heap ShapedData} {number : Ev → Option ℕ} {L : List Ev} {n : ℕ}

theorem SamePositions.set (N : Numbers h number L n) {ps : List (Option ℕ)} {pos : Point → Option ℕ} {visited : List (Option ℕ)}
    (S : SamePositions h number L n ps pos visited) {e : Ev} (he : e ∈ L) (p : ℕ) :
    ∃ ps', setPosition ps (number e) (some p) = .ok ps' ∧
      SamePositions h number L n ps' (Function.update pos (h.evStart e) (some p)) (visited ++ [number e]) := by
  obtain ⟨i, hi, ei⟩ := N.lt e he
  refine ⟨ps.set i (some p), ?_, by simp [S.length], ?_, ?_, ?_⟩
  · rw [ei, setPosition, if_pos (by rw [S.length]; exact hi)]
  · intro f hf j ej
    by_cases hij : i = j
    · subst hij
      have := (N.eq e he f hf).1 (ei.trans ej.symm)
      rw [List.getElem?_set_self (by rw [S.length]; exact hi), this, Function.update_self]
    · have : h.evStart f ≠ h.evStart e := by
        intro hc
        have := (N.eq f hf e he).2 hc
        rw [ei, ej] at this
        exact hij (Option.some.inj this).symm
      rw [List.getElem?_set_ne hij, Function.update_of_ne this]
      exact S.get f hf j ej
  · intro j q hj
    rw [List.mem_append]
    by_cases hij : i = j
    · right; rw [ei, hij]; simp
    · rw [List.getElem?_set_ne hij] at hj
      exact Or.inl (S.mem j q hj)
  · intro x hx
    rcases List.mem_append.1 hx with hx | hx
    · exact S.lt x hx
    · exact ⟨i, hi, (List.mem_singleton.1 hx).trans ei⟩

theorem SamePositions.visit (N : Numbers h number L n) {ps : List (Option ℕ)} {pos : Point → Option ℕ} {visited : List (Option ℕ)}
    (S : SamePositions h number L n ps pos visited) {e : Ev} (he : e ∈ L) :
    SamePositions h number L n ps pos (visited ++ [number e]) := by
  obtain ⟨i, hi, ei⟩ := N.lt e he
  refine ⟨S.length, S.get, fun j p hj => List.mem_append_left _ (S.mem j p hj), ?_⟩
  intro x hx
  rcases List.mem_append.1 hx with hx | hx
  · exact S.lt x hx
  · exact ⟨i, hi, (List.mem_singleton.1 hx).trans ei⟩

theorem nextEventId_lt {conn : List ℕ} {n : ℕ} (hc : ∀ i < n, conn.getD i 0 < n) {processed : ℕ → Bool} {eid : ℕ} :
    ∀ (fuel c id : ℕ), c < n → nextEventId conn processed eid fuel c = .ok (some id) → id < n := by
  intro fuel
  induction fuel with
  | zero => intro c id _ e; cases e
  | succ fuel ih =>
    intro c id hcn e
    simp only [nextEventId] at e
    split_ifs at e with h1 h2
    · cases e; exact hc c hcn
    · cases e
    · exact ih _ _ (hc c hcn) e

theorem contourEventsLoopNumbered_eq (N : Numbers h number L n) {conn : List ℕ} (hc : ∀ i < L.length, conn.getD i 0 < L.length)
    {processed : ℕ → Bool} {start : Point} :
    ∀ (fuel : ℕ) (cursor : Ev) (ps : List (Option ℕ)) (pos : Point → Option ℕ) (visited : List (Option ℕ)) (result R : List Ev),
      cursor ∈ L → SamePositions h number L n ps pos visited →
      contourEventsLoop h L conn processed start fuel cursor (eventId L (h.opposite cursor)) pos result = .ok R →
      contourEventsLoopNumbered h number L conn processed start fuel cursor (eventId L (h.opposite cursor)) ps visited result =
        .ok (R, List.replicate n none) := by
  intro fuel
  induction fuel with
  | zero => intro cursor ps pos visited result R _ _ e; cases e
  | succ fuel ih =>
    intro cursor ps pos visited result R hm S e
    have ho := N.opposite _ hm
    have clear : ∀ ps pos visited, SamePositions h number L n ps pos visited →
        clearPositions ps visited = .ok (List.replicate n none) := fun ps pos visited S =>
      clearPositions_ok _ _ S.length S.mem S.lt
    unfold contourEventsLoop at e
    unfold contourEventsLoopNumbered
    dsimp only at e ⊢
    split_ifs at e ⊢ with h1
    · cases e
      rw [clear _ _ _ S]
    obtain ⟨i, hi, ei⟩ := N.lt _ ho
    have hget : getPosition ps (number (h.opposite cursor)) = .ok (pos (h.evStop cursor)) := by
      unfold getPosition
      rw [ei, Option.bind_some, S.get _ ho i ei]
      rfl
    rw [hget]
    -- what follows
    have next : ∀ ps' pos' result', SamePositions h number L n ps' pos' (visited ++ [number (h.opposite cursor)]) →
        (match nextEventId conn processed (eventId L (h.opposite cursor)) L.length (eventId L (h.opposite cursor)) with
        | .error e => .error e
        | .ok none => .ok result'
        | .ok (some id) =>
          contourEventsLoop h L conn processed start fuel (L.getD id (.left 0))
            (eventId L (h.opposite (L.getD id (.left 0)))) pos' (result' ++ [L.getD id (.left 0)])) = Except.ok R →
        (match nextEventId conn processed (eventId L (h.opposite cursor)) L.length (eventId L (h.opposite cursor)) with
        | .error e => .error e
        | .ok none =>
          match clearPositions ps' (visited ++ [number (h.opposite cursor)]) with
          | .error e => .error e
          | .ok positions => .ok (result', positions)
        | .ok (some id) =>
          contourEventsLoopNumbered h number L conn processed start fuel (L.getD id (.left 0))
            (eventId L (h.opposite (L.getD id (.left 0)))) ps' (visited ++ [number (h.opposite cursor)])
            (result' ++ [L.getD id (.left 0)])) = Except.ok (R, List.replicate n none) := by
      intro ps' pos' result' S' e'
      cases hx : nextEventId conn processed (eventId L (h.opposite cursor)) L.length (eventId L (h.opposite cursor)) with
      | error err => rw [hx] at e'; cases e'
      | ok x =>
        rw [hx] at e'
        cases x with
        | none =>
          dsimp only at e' ⊢
          cases e'
          rw [clear _ _ _ S']
        | some id =>
          dsimp only at e' ⊢
          have hid := nextEventId_lt hc _ _ _ (List.idxOf_lt_length_of_mem ho) hx
          refine ih _ _ _ _ _ _ ?_ S' e'
          rw [List.getD_eq_getElem _ _ hid]
          exact List.getElem_mem hid
    cases hp : pos (h.evStop cursor) with
    | none =>
      rw [hp] at e
      dsimp only at e ⊢
      obtain ⟨ps', e', S'⟩ := S.set N ho result.length
      rw [e']
      exact next _ _ _ S' e
    | some p =>
      rw [hp] at e
      cases p with
      | zero => cases e
      | succ p =>
        dsimp only at e ⊢
        exact next _ _ _ (S.visit N ho) e

theorem toContourEventsNumbered_eq (N : Numbers h number L n) {conn : List ℕ} (hc : ∀ i < L.length, conn.getD i 0 < L.length)
    {processed : ℕ → Bool} {e : Ev} (he : e ∈ L) {R : List Ev} (hR : toContourEvents h L conn processed e = .ok R) :
    toContourEventsNumbered h number L conn processed e (List.replicate n none) = .ok (R, List.replicate n none) := by
  have S0 : SamePositions h number L n (List.replicate n none) (fun _ => none) [] := by
    refine ⟨by simp, ?_, ?_, by simp⟩
    · intro f hf i ei
      obtain ⟨j, hj, ej⟩ := N.lt f hf
      rw [ei] at ej
      rw [Option.some.inj ej, List.getElem?_replicate, if_pos hj]
    · intro i p hi
      rw [List.getElem?_replicate] at hi
      split_ifs at hi
      cases hi
  obtain ⟨ps, e1, S1⟩ := S0.set N he 0
  unfold toContourEventsNumbered
  rw [e1]
  exact contourEventsLoopNumbered_eq N hc _ _ _ _ _ _ _ he S1 hR

theorem traceContoursNumbered_eq (N : Numbers h number L n) {conn : List ℕ} (hc : ∀ i < L.length, conn.getD i 0 < L.length) :
    ∀ (ids : List ℕ) (processed : ℕ → Bool) (m : Marks) (r : Relations) (contours : List Contour) (x : Relations × List Contour),
      (∀ i ∈ ids, i < L.length) → traceContours h L conn ids processed m r contours = .ok x →
      traceContoursNumbered h number L conn ids processed m r contours (List.replicate n none) = .ok x := by
  intro ids
  induction ids with
  | nil => intro processed m r contours x _ e; exact e
  | cons id ids ih =>
    intro processed m r contours x hids e
    have hid := hids id (by simp)
    have ih' := fun processed m r contours => ih processed m r contours x (fun i hi => hids i (by simp [hi]))
    unfold traceContours at e
    unfold traceContoursNumbered
    by_cases hp : processed id = true
    · rw [if_pos hp] at e ⊢
      exact ih' _ _ _ _ e
    rw [if_neg hp] at e ⊢
    have hm : L.getD id (.left 0) ∈ L := by
      rw [List.getD_eq_getElem _ _ hid]; exact List.getElem_mem hid
    cases he : L.getD id (.left 0) with
    | right j => rw [he] at e; cases e
    | left i =>
      rw [he] at e hm
      dsimp only at e ⊢
      cases hr : computeRelations h m i contours.length r with
      | error err => rw [hr] at e; cases e
      | ok r' =>
        rw [hr] at e
        dsimp only at e ⊢
        cases ht : toContourEvents h L conn processed (.left i) with
        | error err => rw [ht] at e; cases e
        | ok R =>
          rw [ht] at e
          rw [toContourEventsNumbered_eq N hc hm ht]
          exact ih' _ _ _ _ e

/-- If the events are listed in the order of their starts, the numbers are right for the tracing. -/
theorem eventsToPolygonsNumbered_eq {events listed : List Ev} (S : Selected h (listed.filter (fromResult h)))
    (sorted : events.Pairwise fun e f => h.evStart e ≤ h.evStart f) (perm : ∀ e ∈ listed, e ∈ events)
    (sorted' : listed.Pairwise fun e f => h.evStart e ≤ h.evStart f) {ps : List Polygon}
    (e : eventsToPolygons h listed = .ok ps) :
    eventsToPolygonsNumbered h (startId h events) listed = .ok ps := by
  obtain ⟨i1, i2⟩ := startId_spec h sorted
  unfold eventsToPolygonsNumbered
  unfold eventsToPolygons at e
  dsimp only at e ⊢
  have sel : ∀ f ∈ listed.filter (fromResult h), f ∈ events := fun f hf => perm f (List.mem_filter.1 hf).1
  have sorted'' := sorted'.sublist (List.filter_sublist (p := fromResult h))
  generalize listed.filter (fromResult h) = es at S e sel sorted''
  rcases es.eq_nil_or_concat with rfl | ⟨es', last, rfl⟩
  · cases e
    rfl
  rw [List.concat_eq_append] at S e sel sorted'' ⊢
  rw [List.getLast?_append]
  simp only [List.getLast?_singleton, Option.some_or]
  obtain ⟨maxId, hmax⟩ := i1 last (sel last (by simp))
  rw [hmax]
  dsimp only
  have le : ∀ f ∈ es' ++ [last], ∃ i ≤ maxId, startId h events f = some i := by
    intro f hf
    obtain ⟨i, hi⟩ := i1 f (sel f hf)
    refine ⟨i, (i2 f last i maxId hi hmax).2 ?_, hi⟩
    rcases List.mem_append.1 hf with hf | hf
    · exact (List.pairwise_append.1 sorted'').2.2 f hf last (by simp)
    · rw [List.mem_singleton.1 hf]
  have hall : ((es' ++ [last]).all fun f => notBeyond maxId (startId h events f)) = true := by
    rw [List.all_eq_true]
    intro f hf
    obtain ⟨i, hi, ei⟩ := le f hf
    rw [ei]
    simpa [notBeyond] using hi
  rw [hall, Bool.not_true, if_neg (by simp)]
  have mem : ∀ f, f ∈ sortEvents h (es' ++ [last]) ↔ f ∈ es' ++ [last] := fun f => (Selected.sort_perm (h := h)).mem_iff
  have N : Numbers h (startId h events) (sortEvents h (es' ++ [last])) (maxId + 1) := by
    refine ⟨?_, ?_, ?_⟩
    · intro f hf
      obtain ⟨i, hi, ei⟩ := le f ((mem f).1 hf)
      exact ⟨i, by omega, ei⟩
    · intro f hf g hg
      obtain ⟨i, hi, ei⟩ := le f ((mem f).1 hf)
      obtain ⟨j, hj, ej⟩ := le g ((mem g).1 hg)
      rw [ei, ej, Option.some.injEq]
      have h1 := i2 f g i j ei ej
      have h2 := i2 g f j i ej ei
      constructor
      · intro hij; exact le_antisymm (h1.1 hij.le) (h2.1 hij.ge)
      · intro hs; exact le_antisymm (h1.2 hs.le) (h2.2 hs.ge)
    · intro f hf
      exact (mem _).2 (S.opposite _ ((mem f).1 hf))
  obtain ⟨pos, size, R⟩ := S.rotation
  cases ht : traceContours h (sortEvents h (es' ++ [last])) (eventsToConnectivity h (sortEvents h (es' ++ [last])))
      (List.range (sortEvents h (es' ++ [last])).length) (fun _ => false) ⟨fun _ => none, fun _ => false⟩ ⟨[], [], [], []⟩ [] with
  | error err => rw [ht] at e; cases e
  | ok x =>
    rw [ht] at e
    rw [traceContoursNumbered_eq N R.lt _ _ _ _ _ x (fun i hi => List.mem_range.1 hi) ht]
    exact e

end

/-! ## The sweep -/

theorem sweepFirst_eq {α : Type} (O : Ops α) (d : α) (tb : TieBreak) (stop : Point → Bool) {A B : List Segment}
    (ok : OperandsOk (marked A B)) (mono : ∀ p q, p ≤ q → stop p = true → stop q = true)
    (some_event : ∃ s ∈ A ++ B, stop s.lo = false) : sweepFirst O d tb stop A B = sweep O d tb stop A B := by
  obtain ⟨s, log, e, -, -, -, -, -, hlog⟩ := sweep_final O d tb stop ok mono
  have fr := fresh_init O.toPayload d A B
  have nonempty : ∀ s' log', sweep O d tb stop A B = .ok (s', log') → s' = initState O.toPayload d A B → log' ≠ [] := by
    rintro s' log' e' hs rfl
    rw [e] at e'
    simp only [Except.ok.injEq, Prod.mk.injEq] at e'
    obtain ⟨rfl, e2⟩ := e'
    have hnil : log = [] := List.reverse_eq_nil_iff.1 e2
    subst hnil
    obtain ⟨t, ht, hst⟩ := some_event
    have : ∃ x ∈ marked A B, x.1 = t := by
      rcases List.mem_append.1 ht with ht | ht
      · exact ⟨(t, true), by simp [marked, ht], rfl⟩
      · exact ⟨(t, false), by simp [marked, ht], rfl⟩
    obtain ⟨x, hx, rfl⟩ := this
    obtain ⟨k, hk, ek⟩ := List.mem_iff_getElem.1 hx
    obtain ⟨g1, -⟩ := fr.get k x (by rw [List.getElem?_eq_getElem hk, ek])
    have := (hlog (.left k)).2 ⟨by
      rw [hs]
      change k < (initStore O.toPayload d A B).heap.count
      rw [fr.count]
      exact hk, by
      rw [hs]
      change stop ((initStore O.toPayload d A B).heap.start k) = false
      rw [g1]
      exact hst⟩
    simp at this
  have hfuel : sweepFuel (A.length + B.length) = (sweepFuel (A.length + B.length) - 1) + 1 := by
    unfold sweepFuel; omega
  have hsw : sweep O d tb stop A B = sweepLoop O tb stop (sweepFuel (A.length + B.length) - 1 + 1)
      (initState O.toPayload d A B) [] := by
    rw [← hfuel]; rfl
  rw [sweepLoop] at hsw
  unfold sweepFirst
  change (match pop tb (initState O.toPayload d A B).store with | _ => _) = _
  dsimp only
  change (match pop tb (initState O.toPayload d A B).store with
    | none => Except.error Err.emptyOperand
    | some (e, queue) =>
      match processEvent O { initState O.toPayload d A B with
        store := { (initState O.toPayload d A B).store with queue := queue } } e with
      | .error err => .error err
      | .ok s' =>
        sweepLoop O tb stop (sweepFuel (A.length + B.length) - 1) s' [(e, s'.store.heap.primary e)]) = _
  cases hp : pop tb (initState O.toPayload d A B).store with
  | none =>
    rw [hp] at hsw
    exact absurd rfl (nonempty _ _ hsw rfl)
  | some x =>
    obtain ⟨x, q⟩ := x
    rw [hp] at hsw
    dsimp only at hsw ⊢
    split_ifs at hsw with hstop
    · exact absurd rfl (nonempty _ _ hsw rfl)
    · exact hsw.symm

theorem shapedSweep_ordered {O : Ops ShapedData} {tb : TieBreak} {xmax : Option ℚ} {A B : List Segment} (na : NoOverlap A)
    (nb : NoOverlap B) {h : Heap ShapedData} {events : List Ev} (e : shapedSweep O tb xmax A B = .ok (h, events)) :
    events.Pairwise fun e f => h.evStart e ≤ h.evStart f := by
  obtain ⟨s, log, e', r, -⟩ := sweep_final O ⟨false, false, .none, false, none⟩ tb (stopAt xmax) (operandsOk_marked na nb)
    (stopAt_mono xmax)
  unfold shapedSweep at e
  rw [e'] at e
  simp only [Except.ok.injEq, Prod.mk.injEq] at e
  obtain ⟨rfl, rfl⟩ := e
  rw [List.pairwise_map, List.pairwise_reverse]
  obtain ⟨ε, Pt, Y, h, -⟩ := reach_ok O ⟨false, false, .none, false, none⟩ tb (operandsOk_marked na nb)
  obtain ⟨F, p, S, l, -⟩ := h s log r
  exact l.sorted

theorem Selected.of_perm {h : Heap ShapedData} {es es' : List Ev} (S : Selected h es) (perm : es.Perm es') : Selected h es' := by
  have pe : (leftEdges h es).Perm (leftEdges h es') := perm.filterMap _
  refine ⟨S.ok, perm.nodup_iff.1 S.nodup, fun e he => S.evOk e (perm.mem_iff.2 he), fun i hi => S.lt i (perm.mem_iff.2 hi),
    fun e he => perm.mem_iff.1 (S.opposite e (perm.mem_iff.2 he)), S.endsOnly.perm pe, fun q => ?_⟩
  rw [← degree_perm pe]
  exact S.even q

theorem holeySweep_numbered {rule : ShapedRule} {op : Bool → Bool → Bool} (hr : RuleOk rule) (hop : RuleFor rule op) (tb : TieBreak)
    {xmax : Option ℚ} {P Q : List Polygon} (hP : ValidPolygons P) (hQ : ValidPolygons Q)
    (hst : StopOk op xmax (P.flatMap polygonEdges) (Q.flatMap polygonEdges))
    (some_event : ∃ s ∈ P.flatMap polygonEdges ++ Q.flatMap polygonEdges, stopAt xmax s.lo = false) :
    ∃ h events ps, holeySweep rule tb xmax P Q = .ok (h, events) ∧ holeySweepNumbered rule tb xmax P Q = .ok (h, events) ∧
      eventsToPolygons h events = .ok ps ∧ eventsToPolygonsNumbered h (startId h events) events = .ok ps ∧
      eventsToPolygons h (sortEvents h events) = .ok ps ∧
      eventsToPolygonsNumbered h (startId h events) (sortEvents h events) = .ok ps := by
  obtain ⟨h, events, e, E⟩ := holeySweep_end hr hop tb hP hQ hst
  have bok := holey_belowOk hr hP.isBoundary hQ.isBoundary e E
  obtain ⟨ps, e', -⟩ := eventsToPolygons_outline E.selected bok
  have perm : (sortEvents h events).Perm events := Selected.sort_perm
  have e'' : eventsToPolygons h (sortEvents h events) = .ok ps := by
    rw [← e']
    unfold eventsToPolygons
    rw [E.selected.sort_eq (perm.filter _)]
  have sorted := shapedSweep_ordered hP.isBoundary.noOverlap hQ.isBoundary.noOverlap e
  refine ⟨h, events, ps, e, ?_, e', ?_, e'', ?_⟩
  · unfold holeySweepNumbered
    rw [sweepFirst_eq _ _ _ _ (operandsOk_marked hP.isBoundary.noOverlap hQ.isBoundary.noOverlap) (stopAt_mono xmax) some_event]
    exact e
  · exact eventsToPolygonsNumbered_eq E.selected sorted (fun _ he => he) sorted e'
  · refine eventsToPolygonsNumbered_eq (E.selected.of_perm (perm.symm.filter _)) sorted (fun f hf => perm.mem_iff.1 hf) ?_ e''
    refine E.all_sorted.imp ?_
    intro a b hab
    rcases hab with hab | hab
    · exact hab.le
    · exact hab.1.le

theorem exists_edge {P : List Polygon} (hP : ValidPolygons P) (ne : P ≠ []) : ∃ s, s ∈ P.flatMap polygonEdges := by
  obtain ⟨p, hp⟩ := List.exists_mem_of_ne_nil _ ne
  have h3 := (hP.valid p hp).border.three
  have hl : (contourEdges p.border false).length = p.border.vertices.length := by
    unfold contourEdges
    dsimp only
    split_ifs <;> simp
  obtain ⟨s, hs⟩ := List.exists_mem_of_length_pos (l := contourEdges p.border false) (by omega)
  exact ⟨s, List.mem_flatMap.2 ⟨p, hp, List.mem_append_left _ hs⟩⟩

theorem exists_event_min {P Q : List Polygon} (hP : ValidPolygons P) (hQ : ValidPolygons Q) (nP : P ≠ []) (nQ : Q ≠ []) {m n : ℚ}
    (hm : ∀ q ∈ segsPts (P.flatMap polygonEdges), q.x ≤ m) (hn : ∀ q ∈ segsPts (Q.flatMap polygonEdges), q.x ≤ n) :
    ∃ s ∈ P.flatMap polygonEdges ++ Q.flatMap polygonEdges, stopAt (some (min m n)) s.lo = false := by
  rcases le_total m n with h | h
  · obtain ⟨s, hs⟩ := exists_edge hP nP
    refine ⟨s, List.mem_append_left _ hs, ?_⟩
    have := hm s.lo ⟨s, hs, Segment.lo_mem s⟩
    simpa [stopAt, min_eq_left h] using this
  · obtain ⟨s, hs⟩ := exists_edge hQ nQ
    refine ⟨s, List.mem_append_right _ hs, ?_⟩
    have := hn s.lo ⟨s, hs, Segment.lo_mem s⟩
    simpa [stopAt, min_eq_right h] using this

theorem exists_event_first {P Q : List Polygon} (hP : ValidPolygons P) (nP : P ≠ []) {m : ℚ}
    (hm : ∀ q ∈ segsPts (P.flatMap polygonEdges), q.x ≤ m) :
    ∃ s ∈ P.flatMap polygonEdges ++ Q.flatMap polygonEdges, stopAt (some m) s.lo = false := by
  obtain ⟨s, hs⟩ := exists_edge hP nP
  refine ⟨s, List.mem_append_left _ hs, ?_⟩
  have := hm s.lo ⟨s, hs, Segment.lo_mem s⟩
  simpa [stopAt] using this

theorem exists_event {P Q : List Polygon} (hP : ValidPolygons P) (nP : P ≠ []) :
    ∃ s ∈ P.flatMap polygonEdges ++ Q.flatMap polygonEdges, stopAt none s.lo = false := by
  obtain ⟨s, hs⟩ := exists_edge hP nP
  exact ⟨s, List.mem_append_left _ hs, rfl⟩

variable {o : Orient} {a b : ShapedOperand} (ha : ShapedOk a) (hb : ShapedOk b)

include ha hb

theorem holeyIntersectionNumbered_eq (tb : TieBreak) : holeyIntersectionNumbered o tb a b = holeyIntersection o tb a b := by
  obtain ⟨ba, bb, h1, h2⟩ := boxes_ok ha hb
  unfold holeyIntersection holeyIntersectionNumbered
  rw [h1, h2]
  simp only [bind, Except.bind, pure, Except.pure]
  split_ifs with hd e1 e2
  · rfl
  · rfl
  · rfl
  have v1 := ha.valid.sublist (toCoupledPolygons_sub o bb a.polygons)
  have v2 := hb.valid.sublist (toCoupledPolygons_sub o ba b.polygons)
  obtain ⟨n₁, x₁, g₁⟩ := polygonsMaxX_spec v1.valid (isEmpty_false e1)
  obtain ⟨n₂, x₂, g₂⟩ := polygonsMaxX_spec v2.valid (isEmpty_false e2)
  obtain ⟨h, events, ps, f1, f2, f3, f4, -⟩ := holeySweep_numbered intersectionRule_ok intersectionRule_for tb v1 v2
    (stopOk_min (v1.edges_x g₁) (v2.edges_x g₂) (by simp) (by simp))
    (exists_event_min v1 v2 (isEmpty_false e1) (isEmpty_false e2) (v1.edges_x g₁) (v2.edges_x g₂))
  simp only [x₁, x₂, f1, f2, f3, f4]

theorem holeyCompleteIntersectionNumbered_eq (tb : TieBreak) :
    holeyCompleteIntersectionNumbered o tb a b = holeyCompleteIntersection o tb a b := by
  obtain ⟨ba, bb, h1, h2⟩ := boxes_ok ha hb
  unfold holeyCompleteIntersection holeyCompleteIntersectionNumbered
  rw [h1, h2]
  simp only [bind, Except.bind, pure, Except.pure]
  split_ifs with hd e1 e2
  · rfl
  · rfl
  · rfl
  have v1 := ha.valid.sublist (toIntersectingPolygons_sub o bb a.polygons)
  have v2 := hb.valid.sublist (toIntersectingPolygons_sub o ba b.polygons)
  obtain ⟨n₁, x₁, g₁⟩ := polygonsMaxX_spec v1.valid (isEmpty_false e1)
  obtain ⟨n₂, x₂, g₂⟩ := polygonsMaxX_spec v2.valid (isEmpty_false e2)
  obtain ⟨h, events, ps, f1, f2, -, -, f3, f4⟩ := holeySweep_numbered intersectionRule_ok intersectionRule_for tb v1 v2
    (stopOk_min (v1.edges_x g₁) (v2.edges_x g₂) (by simp) (by simp))
    (exists_event_min v1 v2 (isEmpty_false e1) (isEmpty_false e2) (v1.edges_x g₁) (v2.edges_x g₂))
  simp only [x₁, x₂, f1, f2, f3, f4]

theorem holeyDifferenceNumbered_eq (tb : TieBreak) : holeyDifferenceNumbered o tb a b = holeyDifference o tb a b := by
  obtain ⟨ba, bb, h1, h2⟩ := boxes_ok ha hb
  unfold holeyDifference holeyDifferenceNumbered
  rw [h1, h2]
  simp only [bind, Except.bind, pure, Except.pure]
  split_ifs with hd e2
  · rfl
  · rfl
  have v2 := hb.valid.sublist (toCoupledPolygons_sub o ba b.polygons)
  obtain ⟨n₁, x₁, g₁⟩ := polygonsMaxX_spec ha.valid.valid ha.ne
  obtain ⟨h, events, ps, f1, f2, f3, f4, -⟩ := holeySweep_numbered differenceRule_ok differenceRule_for tb ha.valid v2
    (stopOk_first (ha.valid.edges_x g₁) (by simp)) (exists_event_first ha.valid ha.ne (ha.valid.edges_x g₁))
  simp only [x₁, f1, f2, f3, f4]

theorem holeySymmetricDifferenceNumbered_eq (tb : TieBreak) :
    holeySymmetricDifferenceNumbered tb a b = holeySymmetricDifference tb a b := by
  obtain ⟨ba, bb, h1, h2⟩ := boxes_ok ha hb
  unfold holeySymmetricDifference holeySymmetricDifferenceNumbered
  rw [h1, h2]
  simp only [bind, Except.bind, pure, Except.pure]
  split_ifs with hd
  · rfl
  obtain ⟨h, events, ps, f1, f2, f3, f4, -⟩ := holeySweep_numbered symmetricDifferenceRule_ok symmetricDifferenceRule_for tb
    ha.valid hb.valid (stopOk_none _ _ _) (exists_event ha.valid ha.ne)
  simp only [f1, f2, f3, f4]

theorem holeyUnionNumbered_eq (tb : TieBreak) : holeyUnionNumbered tb a b = holeyUnion tb a b := by
  obtain ⟨ba, bb, h1, h2⟩ := boxes_ok ha hb
  unfold holeyUnion holeyUnionNumbered
  rw [h1, h2]
  simp only [bind, Except.bind, pure, Except.pure]
  split_ifs with hd
  · rfl
  obtain ⟨h, events, ps, f1, f2, f3, f4, -⟩ := holeySweep_numbered unionRule_ok unionRule_for tb
    ha.valid hb.valid (stopOk_none _ _ _) (exists_event ha.valid ha.ne)
  simp only [f1, f2, f3, f4]

end Clipping

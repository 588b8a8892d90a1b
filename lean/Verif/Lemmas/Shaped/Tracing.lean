import Verif.Lemmas.Shaped.Contours

/-!
# The loop over events which traces contours
-/

namespace Clipping

open Sweep Darts

namespace Selected

variable {h : Heap ShapedData} {events : List Ev}

theorem isLeft_iff (S : Selected h events) {i : ℕ} (hi : i < S.darts.n) :
    S.darts.key i < S.darts.key (S.darts.opp i) ↔ Heap.isLeft (ev h events i) = true := by
  have hm := ev_mem hi
  rw [S.darts_stop hi, S.darts_key]
  have oe := S.evOk _ hm
  cases he : ev h events i with
  | left k =>
    rw [he] at hm
    exact iff_of_true (S.lt k hm) rfl
  | right j =>
    rw [he] at hm oe
    rw [evStart_right S.ok oe, evStop_right]
    exact iff_of_false (lt_asymm (S.lt _ (S.opposite _ hm))) (by simp [Heap.isLeft])

theorem darts_sorted (S : Selected h events) : S.darts.Sorted where
  key i j hij hj := by
    rcases S.before_of_lt hij hj with h1 | ⟨h1, -⟩
    · exact h1.le
    · exact h1.le
  slope i j hij hj hk hl := by
    have hi : i < S.darts.n := hij.trans hj
    rw [S.isLeft_iff hi] at hl
    rw [S.isLeft_iff hj]
    have di := S.rawDarts_dir (sort_perm (h := h)) hi
    have dj := S.rawDarts_dir (sort_perm (h := h)) hj
    change S.darts.dir i = evDir h (ev h events i) at di
    change S.darts.dir j = evDir h (ev h events j) at dj
    rw [di, dj]
    rcases S.before_of_lt hij hj with h1 | ⟨-, h1⟩
    · rw [S.darts_key, S.darts_key] at hk
      rw [hk] at h1; exact absurd h1 (lt_irrefl _)
    · rcases h1 with ⟨h1, -⟩ | ⟨h1, -, -⟩ | ⟨-, h1, h2⟩
      · rw [hl] at h1; cases h1
      · rw [hl] at h1; cases h1
      · exact ⟨h1, h2⟩

theorem closed_range (S : Selected h events) : S.darts.Closed (Finset.range S.darts.n) where
  lt _ hi := Finset.mem_range.1 hi
  opp i hi := Finset.mem_range.2 (S.darts.opp_lt i (Finset.mem_range.1 hi))

theorem edges_perm (S : Selected h events) :
    (S.darts.edges (Finset.range S.darts.n)).Perm (leftEdges h events) := by
  rw [leftEdges_eq]
  unfold Darts.edges
  have e1 : ((Finset.range S.darts.n).filter fun i => S.darts.key i < S.darts.key (S.darts.opp i)).toList.map S.darts.seg =
      (((Finset.range S.darts.n).filter fun i => S.darts.key i < S.darts.key (S.darts.opp i)).toList.map
        fun i => h.primary (ev h events i)).map h.segment := by
    rw [List.map_map]
    apply List.map_congr_left
    intro i hi
    rw [Finset.mem_toList, Finset.mem_filter, Finset.mem_range] at hi
    have := S.rawDarts_seg (sort_perm (h := h)) hi.1
    change S.darts.seg i = evSeg h (ev h events i) at this
    rw [this, evSeg_left ((S.isLeft_iff hi.1).1 hi.2)]
    rfl
  rw [e1]
  refine List.Perm.map _ ((List.perm_ext_iff_of_nodup ?_ (leftIds_nodup S.nodup)).2 ?_)
  · refine List.Nodup.map_on ?_ (Finset.nodup_toList _)
    intro i hi j hj hij
    rw [Finset.mem_toList, Finset.mem_filter, Finset.mem_range] at hi hj
    have li := (S.isLeft_iff hi.1).1 hi.2
    have lj := (S.isLeft_iff hj.1).1 hj.2
    have : ev h events i = ev h events j := by
      cases h1 : ev h events i with
      | right k => rw [h1] at li; cases li
      | left k =>
        cases h2 : ev h events j with
        | right k => rw [h2] at lj; cases lj
        | left k' =>
          rw [h1, h2] at hij
          exact congrArg Ev.left hij
    have e := congrArg (eventId (sortEvents h events)) this
    unfold ev at e
    rwa [eventId_getD S.sort_nodup hi.1, eventId_getD S.sort_nodup hj.1] at e
  · intro b
    rw [mem_leftIds, List.mem_map]
    constructor
    · rintro ⟨i, hi, rfl⟩
      rw [Finset.mem_toList, Finset.mem_filter, Finset.mem_range] at hi
      have li := (S.isLeft_iff hi.1).1 hi.2
      have hm := ev_mem (h := h) (events := events) hi.1
      cases h1 : ev h events i with
      | right k => rw [h1] at li; cases li
      | left k => rw [h1] at hm; exact hm
    · intro hb
      have hb' := (sort_perm (h := h)).mem_iff.2 hb
      have hlt : eventId (sortEvents h events) (.left b) < S.darts.n := List.idxOf_lt_length_of_mem hb'
      have hev : ev h events (eventId (sortEvents h events) (.left b)) = .left b := getD_eventId hb'
      refine ⟨eventId (sortEvents h events) (.left b), ?_, by rw [hev]; rfl⟩
      rw [Finset.mem_toList, Finset.mem_filter, Finset.mem_range, S.isLeft_iff hlt, hev]
      exact ⟨hlt, rfl⟩

theorem darts_start (S : Selected h events) : S.darts.Start (Finset.range S.darts.n) where
  sorted := S.darts_sorted
  closed := S.closed_range
  even q := by rw [degree_perm S.edges_perm]; exact S.even q

/-! ## The parts of a step -/

theorem opp_eventId (S : Selected h events) {i : ℕ} (hi : i < S.darts.n) :
    eventId (sortEvents h events) (ev h events i) = i := eventId_getD S.sort_nodup hi

theorem processContour_iff (S : Selected h events) (R : List ℕ) (hR : ∀ i ∈ R, i < S.darts.n) (processed : ℕ → Bool) {x : ℕ}
    (hx : x < S.darts.n) : processContour h (sortEvents h events) processed (R.map (ev h events)) x = true ↔
      processed x = true ∨ x ∈ R ∨ S.darts.opp x ∈ R := by
  unfold processContour
  induction R generalizing processed with
  | nil => simp
  | cons i R ih =>
    have hi := hR i (by simp)
    rw [List.map_cons, List.foldl_cons, ih (fun j hj => hR j (by simp [hj])), S.opp_eventId hi, ← S.darts_opp]
    have hox : S.darts.opp x = i ↔ x = S.darts.opp i := by
      constructor
      · intro e; rw [← e, S.darts.opp_opp x hx]
      · intro e; rw [e, S.darts.opp_opp i hi]
    have : markProcessed processed i (S.darts.opp i) x = true ↔ processed x = true ∨ x = i ∨ x = S.darts.opp i := by
      unfold markProcessed Function.update
      by_cases h1 : x = i
      · simp [h1]
      · by_cases h2 : x = S.darts.opp i
        · simp [h2]
        · simp [h1, h2]
    rw [this, List.mem_cons, List.mem_cons, hox]
    tauto

theorem markContour_spec (S : Selected h events) (c : ℕ) (R : List ℕ) (hR : ∀ i ∈ R, i < S.darts.n)
    (hopp : ∀ i ∈ R, S.darts.opp i ∉ R) (m : Marks) {x b : ℕ} (hx : x < S.darts.n) (hb : ev h events x = .left b) :
    (x ∈ R → (markContour c m (R.map (ev h events)) h).contourId b = some c ∧
      (markContour c m (R.map (ev h events)) h).fromInToOut b = false) ∧
    (S.darts.opp x ∈ R → (markContour c m (R.map (ev h events)) h).contourId b = some c ∧
      (markContour c m (R.map (ev h events)) h).fromInToOut b = true) ∧
    (x ∉ R → S.darts.opp x ∉ R → (markContour c m (R.map (ev h events)) h).contourId b = m.contourId b ∧
      (markContour c m (R.map (ev h events)) h).fromInToOut b = m.fromInToOut b) := by
  induction R generalizing m with
  | nil => simp [markContour]
  | cons i R ih =>
    have hi := hR i (by simp)
    have hoi := hopp i (by simp)
    set m₁ : Marks := match ev h events i with
      | .left i => ⟨Function.update m.contourId i (some c), Function.update m.fromInToOut i false⟩
      | .right j => ⟨Function.update m.contourId (h.rights j).left (some c),
          Function.update m.fromInToOut (h.rights j).left true⟩ with hm₁
    have e1 : markContour c m ((i :: R).map (ev h events)) h = markContour c m₁ (R.map (ev h events)) h := by
      rw [hm₁]
      unfold markContour
      rw [List.map_cons, List.foldl_cons]
      cases ev h events i <;> rfl
    have key : (i = x → m₁.contourId b = some c ∧ m₁.fromInToOut b = false) ∧
        (i = S.darts.opp x → m₁.contourId b = some c ∧ m₁.fromInToOut b = true) ∧
        (i ≠ x → i ≠ S.darts.opp x → m₁.contourId b = m.contourId b ∧ m₁.fromInToOut b = m.fromInToOut b) := by
      have evinj : ∀ j < S.darts.n, ev h events i = ev h events j → i = j := by
        intro j hj e
        rw [← S.opp_eventId hi, e, S.opp_eventId hj]
      have hox : ev h events (S.darts.opp x) = .right (h.lefts b).right := by
        have hm := ev_mem (h := h) (events := events) hx
        have := getD_eventId ((sort_perm (h := h)).mem_iff.2 (S.opposite _ hm))
        rw [S.darts_opp]
        unfold ev at this ⊢ hb
        rw [this, hb]
        rfl
      have oxlt := S.darts.opp_lt x hx
      cases hei : ev h events i with
      | left k =>
        rw [hei] at hm₁ evinj
        dsimp only at hm₁
        refine ⟨?_, ?_, ?_⟩
        · intro e
          rw [e, hb] at hei
          have : k = b := (Ev.left.inj hei).symm
          rw [hm₁, this]; simp
        · intro e
          rw [e, hox] at hei; cases hei
        · intro n1 n2
          have : b ≠ k := by
            intro e
            exact n1 (evinj x hx (by rw [hb, e]))
          rw [hm₁]; simp [this]
      | right k =>
        rw [hei] at hm₁ evinj
        dsimp only at hm₁
        have hm := ev_mem (h := h) (events := events) hi
        rw [hei] at hm
        have oe := S.evOk _ hm
        refine ⟨?_, ?_, ?_⟩
        · intro e
          rw [e, hb] at hei; cases hei
        · intro e
          rw [e, hox] at hei
          have ek : k = (h.lefts b).right := (Ev.right.inj hei).symm
          have hmb := ev_mem (h := h) (events := events) hx
          rw [hb] at hmb
          have : (h.rights k).left = b := by rw [ek]; exact S.ok.lr b (S.evOk _ hmb)
          rw [hm₁, this]; simp
        · intro n1 n2
          have : b ≠ (h.rights k).left := by
            intro e
            apply n2 (evinj _ oxlt _)
            rw [hox, e]
            exact congrArg Ev.right (S.ok.rl k oe).symm
          rw [hm₁]; simp [this]
    obtain ⟨i1, i2, i3⟩ := ih (fun j hj => hR j (by simp [hj])) (fun j hj hh => hopp j (by simp [hj]) (by simp [hh])) m₁
    rw [e1]
    clear_value m₁
    clear ih e1 hm₁
    have oxx := S.darts.opp_opp x hx
    refine ⟨?_, ?_, ?_⟩
    · intro hx'
      by_cases hxR : x ∈ R
      · exact i1 hxR
      · have hxi : x = i := by simpa [hxR] using hx'
        subst hxi
        obtain ⟨a, b⟩ := i3 hxR (fun hh => hoi (by simp [hh]))
        rw [a, b]; exact key.1 rfl
    · intro hx'
      by_cases hxR : S.darts.opp x ∈ R
      · exact i2 hxR
      · have hxi : S.darts.opp x = i := by simpa [hxR] using hx'
        obtain ⟨a, b⟩ := i3 (fun hh => hoi (by rw [← hxi, oxx]; simp [hh])) hxR
        rw [a, b]; exact key.2.1 hxi.symm
    · intro n1 n2
      rw [List.mem_cons, not_or] at n1 n2
      obtain ⟨a, b⟩ := i3 n1.2 n2.2
      obtain ⟨a', b'⟩ := key.2.2 (Ne.symm n1.1) (Ne.symm n2.1)
      exact ⟨a.trans a', b.trans b'⟩

theorem way_stops {D : Darts} {v w : Point} {i : ℕ} {l : List ℕ} (hw : D.IsWay v (i :: l) w) :
    (i :: l).dropLast.map (fun j => D.key (D.opp j)) = l.map D.key := by
  induction l generalizing v i with
  | nil => rfl
  | cons j l ih =>
    obtain ⟨h1, h2⟩ := hw
    rw [List.dropLast_cons_cons, List.map_cons, List.map_cons, ih h2]
    rw [h2.1]

theorem contourVertices_eq (S : Selected h events) {R : List ℕ} (hR : S.darts.Loop R) :
    contourVertices h (R.map (ev h events)) = shrinkCollinearVertices (R.map S.darts.key) := by
  unfold contourVertices
  congr 1
  obtain ⟨v, hv⟩ := hR.way
  cases R with
  | nil => exact absurd rfl hR.ne
  | cons i l =>
    rw [List.map_cons, List.head?_cons, Option.map_some, Option.toList_some, List.map_cons, List.singleton_append,
      ← way_stops hv]
    congr 1
    rw [← List.map_cons, ← List.map_dropLast, List.map_map]
    apply List.map_congr_left
    intro j hj
    exact (S.darts_stop (hR.lt j (List.dropLast_subset _ hj))).symm

/-! ## The loop -/

/-- the points of a traced contour, in the order of the tracing -/
def traced (S : Selected h events) (R : List ℕ) : List Point := shrinkCollinearVertices (R.map S.darts.key)

/-- The selected edge below a selected edge is selected, too, and comes first. -/
def BelowOk (h : Heap ShapedData) (events : List Ev) : Prop :=
  ∀ i, Ev.left i ∈ events → ∀ b, (h.lefts i).data.below = some b → Ev.left b ∈ events ∧ Before h (.left b) (.left i)

structure TraceInv (S : Selected h events) (processed : ℕ → Bool) (m : Marks) (r : Relations) (contours : List Contour)
    (Rs : List (List ℕ)) (F : Finset ℕ) (ptr : ℕ → Option (ℕ × Bool)) : Prop where
  traces : S.darts.Traces (Finset.range S.darts.n) Rs F
  proc : ∀ i < S.darts.n, i ∈ F ↔ processed i = false
  rel : RelOk ptr r Rs.length
  len : contours.length = Rs.length
  contour : ∀ j < Rs.length, contours.getD j ⟨[]⟩ =
    ⟨if r.areInternal.getD j false = true then reverseVertices (S.traced (nth Rs j)) else S.traced (nth Rs j)⟩
  marked : ∀ x < S.darts.n, ∀ c < Rs.length, ∀ b, ev h events x = .left b →
    (x ∈ nth Rs c → m.contourId b = some c ∧ m.fromInToOut b = false) ∧
    (S.darts.opp x ∈ nth Rs c → m.contourId b = some c ∧ m.fromInToOut b = true)
  link : ∀ j < Rs.length, ∃ d i, (nth Rs j).head? = some d ∧ ev h events d = .left i ∧
    ((h.lefts i).data.below = none → ptr j = none) ∧
    ∀ b, (h.lefts i).data.below = some b → ∃ c < j, ∃ x < S.darts.n, ev h events x = .left b ∧
      ((ptr j = some (c, false) ∧ x ∈ nth Rs c) ∨ (ptr j = some (c, true) ∧ S.darts.opp x ∈ nth Rs c))

theorem computeRelations_old {m : Marks} {i n : ℕ} {r r' : Relations} (h' : Heap ShapedData)
    (hr : computeRelations h' m i n r = .ok r') (hl : r.areInternal.length = n) {j : ℕ} (hj : j < n) :
    r'.areInternal.getD j false = r.areInternal.getD j false := by
  have push : ∀ (r : Relations) a b c, r.areInternal.length = n →
      (r.push a b c).areInternal.getD j false = r.areInternal.getD j false := by
    intro r a b c hl
    exact (getD_snoc hl).trans (if_neg (by omega))
  unfold computeRelations at hr
  split at hr
  · cases hr; exact push _ _ _ _ hl
  · split at hr
    · cases hr
    · split_ifs at hr
      · cases hr; exact push _ _ _ _ hl
      · cases hr; exact push _ _ _ _ hl
      · split at hr
        · cases hr
        · cases hr; exact push _ _ _ _ hl
      · cases hr; exact push _ _ _ _ hl

theorem TraceInv.step (S : Selected h events) (B : BelowOk h events) {processed : ℕ → Bool} {m : Marks} {r : Relations}
    {contours : List Contour} {Rs : List (List ℕ)} {F : Finset ℕ} {ptr : ℕ → Option (ℕ × Bool)}
    (I : TraceInv S processed m r contours Rs F ptr) {d : ℕ} (hd : d < S.darts.n) (hp : processed d = false)
    (least : ∀ i < d, processed i = true) :
    ∃ i r' R F' ptr', ev h events d = .left i ∧ computeRelations h m i contours.length r = .ok r' ∧
      toContourEvents h (sortEvents h events) (eventsToConnectivity h (sortEvents h events)) processed (.left i) =
        .ok (R.map (ev h events)) ∧
      TraceInv S (processContour h (sortEvents h events) processed (R.map (ev h events)))
        (markContour contours.length m (R.map (ev h events)) h) r'
        (contours ++ [⟨if r'.depths.getD contours.length 0 % 2 = 1 then
          reverseVertices (contourVertices h (R.map (ev h events))) else contourVertices h (R.map (ev h events))⟩])
        (Rs ++ [R]) F' ptr' ∧ processContour h (sortEvents h events) processed (R.map (ev h events)) d = true ∧
      ∀ x < S.darts.n, processed x = true → processContour h (sortEvents h events) processed (R.map (ev h events)) x = true := by
  obtain ⟨closed, even, -, cover, -, -⟩ := I.traces.inv S.darts_start
  have dF : d ∈ F := (I.proc d hd).2 hp
  have dleast : ∀ i ∈ F, d ≤ i := by
    intro i hi
    by_contra hcon
    have := least i (by omega)
    rw [(I.proc i (closed.lt i hi)).1 hi] at this
    cases this
  have first : S.darts.First F d := ⟨S.darts_sorted, closed, even, dF, dleast⟩
  have hl := (S.isLeft_iff hd).1 first.right
  obtain ⟨i, hi⟩ : ∃ i, ev h events d = .left i := by
    cases he : ev h events d with
    | left i => exact ⟨i, rfl⟩
    | right j => rw [he] at hl; cases hl
  have him : Ev.left i ∈ events := by
    have := ev_mem (h := h) (events := events) hd
    rwa [hi] at this
  obtain ⟨R, hR, T⟩ := S.toContourEvents_traced closed even I.proc dF
  rw [hi] at hR
  have hlt : ∀ x ∈ R, x < S.darts.n := T.loop.lt
  -- the edge below
  have hbelow : ∀ b, (h.lefts i).data.below = some b → ∃ c < Rs.length, ∃ x < S.darts.n, ev h events x = .left b ∧
      (x ∈ nth Rs c ∨ S.darts.opp x ∈ nth Rs c) := by
    intro b hb
    obtain ⟨h1, h2⟩ := B i him b hb
    have h1' := (sort_perm (h := h)).mem_iff.2 h1
    have hx : eventId (sortEvents h events) (.left b) < S.darts.n := List.idxOf_lt_length_of_mem h1'
    have hev : ev h events (eventId (sortEvents h events) (.left b)) = .left b := getD_eventId h1'
    generalize eventId (sortEvents h events) (.left b) = x at hx hev
    have hxd : x < d := by
      by_contra hcon
      rcases (not_lt.1 hcon).eq_or_lt with e | hlt'
      · rw [← e, hi] at hev
        rw [hev] at h2
        exact before_asymm h2 h2
      · have := S.before_of_lt hlt' hx
        rw [hi, hev] at this
        exact before_asymm h2 this
    have hxF : x ∉ F := fun hh => by have := dleast x hh; omega
    obtain ⟨c, hc, hcx⟩ := (cover x (Finset.mem_range.2 hx)).resolve_left hxF
    exact ⟨c, hc, x, hx, hev, hcx⟩
  set ptr' : ℕ → Option (ℕ × Bool) := Function.update ptr Rs.length
    ((h.lefts i).data.below.bind fun b => (m.contourId b).map fun c => (c, m.fromInToOut b)) with hptr'
  have pold : ∀ j < Rs.length, ptr j = ptr' j := by
    intro j hj
    rw [hptr', Function.update_of_ne (by omega)]
  obtain ⟨r', hr', Rok⟩ := computeRelations_ok (h := h) (m := m) (i := i) (I.rel.congr pold) (by
      intro b hb
      obtain ⟨c, hc, x, hx, hev, h1⟩ := hbelow b hb
      have := I.marked x hx c hc b hev
      rcases h1 with h1 | h1
      · exact ⟨c, hc, (this.1 h1).1⟩
      · exact ⟨c, hc, (this.2 h1).1⟩) (by rw [hptr', Function.update_self])
  have hlen : (Rs ++ [R]).length = Rs.length + 1 := by simp
  have eqv : contourVertices h (R.map (ev h events)) = S.traced R := S.contourVertices_eq T.loop
  have nthc : ∀ c < (Rs ++ [R]).length, (c < Rs.length ∧ nth (Rs ++ [R]) c = nth Rs c) ∨ (c = Rs.length ∧ nth (Rs ++ [R]) c = R) := by
    intro c hc
    rw [hlen] at hc
    by_cases e : c = Rs.length
    · exact Or.inr ⟨e, by rw [e]; exact nth_append_last⟩
    · exact Or.inl ⟨by omega, nth_append_left (by omega)⟩
  have procn : ∀ x < S.darts.n, processContour h (sortEvents h events) processed (R.map (ev h events)) x = true ↔
      processed x = true ∨ x ∈ R ∨ S.darts.opp x ∈ R := fun x hx => S.processContour_iff R hlt processed hx
  refine ⟨i, r', R, S.darts.rest F R, ptr', hi, by rw [I.len]; exact hr', hR, ?_, ?_, ?_⟩
  · refine ⟨.snoc I.traces dF dleast T, ?_, by rw [hlen]; exact Rok, by simp [I.len], ?_, ?_, ?_⟩
    · intro x hx
      have hpn := procn x hx
      rw [mem_rest, I.proc x hx, ← Bool.not_eq_true, ← Bool.not_eq_true, hpn]
      tauto
    · intro j hj
      rw [getD_snoc I.len]
      rcases nthc j hj with ⟨h1, h2⟩ | ⟨h1, h2⟩
      · rw [if_neg (by omega), h2, I.contour j h1, computeRelations_old h hr' I.rel.lenInternal h1]
      · rw [if_pos h1, h2, I.len, eqv]
        subst h1
        cases hint : r'.areInternal.getD Rs.length false with
        | true => rw [(Rok.internal _ (by omega) hint).1]; simp
        | false => rw [(Rok.external _ (by omega) hint).2]; simp
    · intro x hx c hc b hb
      have spec := S.markContour_spec contours.length R hlt T.loop.opp m hx hb
      rcases nthc c hc with ⟨h1, h2⟩ | ⟨h1, h2⟩
      · rw [h2]
        have old := I.marked x hx c h1 b hb
        have dis : x ∈ nth Rs c ∨ S.darts.opp x ∈ nth Rs c → x ∉ R ∧ S.darts.opp x ∉ R := by
          intro hh
          have notF : x ∉ F ∧ S.darts.opp x ∉ F := by
            obtain ⟨-, -, -, -, used, -⟩ := I.traces.inv S.darts_start
            rcases hh with hh | hh
            · exact (used c h1 x hh).2
            · have := (used c h1 _ hh).2
              rw [S.darts.opp_opp x hx] at this
              exact ⟨this.2, this.1⟩
          exact ⟨fun hh => notF.1 (T.mem _ hh), fun hh => notF.2 (T.mem _ hh)⟩
        constructor
        · intro hh
          obtain ⟨n1, n2⟩ := dis (Or.inl hh)
          obtain ⟨e1, e2⟩ := spec.2.2 n1 n2
          rw [e1, e2]; exact old.1 hh
        · intro hh
          obtain ⟨n1, n2⟩ := dis (Or.inr hh)
          obtain ⟨e1, e2⟩ := spec.2.2 n1 n2
          rw [e1, e2]; exact old.2 hh
      · rw [h2, h1, ← I.len]
        exact ⟨spec.1, spec.2.1⟩
    · intro j hj
      rcases nthc j hj with ⟨h1, h2⟩ | ⟨h1, h2⟩
      · obtain ⟨d', i', a1, a2, a3, a4⟩ := I.link j h1
        rw [h2, ← pold j h1]
        refine ⟨d', i', a1, a2, a3, ?_⟩
        intro b hb
        obtain ⟨c, hc, x, hx, hev, hh⟩ := a4 b hb
        refine ⟨c, hc, x, hx, hev, ?_⟩
        rw [nth_append_left (by omega)]
        exact hh
      · rw [h2]
        subst h1
        refine ⟨d, i, T.head, hi, ?_, ?_⟩
        · intro hb
          rw [hptr', Function.update_self, hb]; rfl
        · intro b hb
          obtain ⟨c, hc, x, hx, hev, h1⟩ := hbelow b hb
          refine ⟨c, hc, x, hx, hev, ?_⟩
          rw [nth_append_left hc, hptr', Function.update_self, hb]
          have := I.marked x hx c hc b hev
          rcases h1 with h1 | h1
          · left
            obtain ⟨e1, e2⟩ := this.1 h1
            exact ⟨by simp [e1, e2], h1⟩
          · right
            obtain ⟨e1, e2⟩ := this.2 h1
            exact ⟨by simp [e1, e2], h1⟩
  · rw [procn d hd]
    exact Or.inr (Or.inl T.start)
  · intro x hx hpx
    rw [procn x hx]; exact Or.inl hpx

theorem traceContours_ok (S : Selected h events) (B : BelowOk h events) (k : ℕ) :
    ∀ (a : ℕ) (processed : ℕ → Bool) (m : Marks) (r : Relations) (contours : List Contour) (Rs : List (List ℕ)) (F : Finset ℕ)
      (ptr : ℕ → Option (ℕ × Bool)), a + k = S.darts.n → (∀ i < a, processed i = true) →
      TraceInv S processed m r contours Rs F ptr →
      ∃ r' contours' processed' m' Rs' F' ptr',
        traceContours h (sortEvents h events) (eventsToConnectivity h (sortEvents h events)) (List.range' a k) processed m r
          contours = .ok (r', contours') ∧
        TraceInv S processed' m' r' contours' Rs' F' ptr' ∧ F' = ∅ := by
  induction k with
  | zero =>
    intro a processed m r contours Rs F ptr ha hdone I
    refine ⟨r, contours, processed, m, Rs, F, ptr, rfl, I, ?_⟩
    rw [Finset.eq_empty_iff_forall_notMem]
    intro x hx
    obtain ⟨closed, -⟩ := I.traces.inv S.darts_start
    have hl := closed.lt x hx
    have := (I.proc x hl).1 hx
    rw [hdone x (by omega)] at this
    cases this
  | succ k ih =>
    intro a processed m r contours Rs F ptr ha hdone I
    rw [List.range'_succ]
    simp only [traceContours]
    cases hp : processed a with
    | true =>
      rw [if_pos rfl]
      refine ih (a + 1) processed m r contours Rs F ptr (by omega) ?_ I
      intro i hi
      rcases Nat.lt_succ_iff_lt_or_eq.1 hi with h1 | h1
      · exact hdone i h1
      · rw [h1]; exact hp
    | false =>
      rw [if_neg (by simp)]
      obtain ⟨i, r', R, F', ptr', h1, h2, h3, h4, h5, h6⟩ := I.step S B (d := a) (by omega) hp hdone
      have h1' : (sortEvents h events).getD a (.left 0) = .left i := h1
      rw [h1']
      dsimp only
      rw [h2]
      dsimp only
      rw [h3]
      dsimp only
      refine ih (a + 1) _ _ _ _ _ F' ptr' (by omega) ?_ h4
      intro x hx
      rcases Nat.lt_succ_iff_lt_or_eq.1 hx with h7 | h7
      · exact h6 x (by omega) (hdone x h7)
      · rw [h7]; exact h5

/-- `events_to_polygons` up to the assembling of the polygons. -/
theorem tracing (S : Selected h events) (B : BelowOk h events) :
    ∃ r contours processed m Rs F ptr,
      traceContours h (sortEvents h events) (eventsToConnectivity h (sortEvents h events))
        (List.range (sortEvents h events).length) (fun _ => false) ⟨fun _ => none, fun _ => false⟩ ⟨[], [], [], []⟩ [] =
          .ok (r, contours) ∧
      TraceInv S processed m r contours Rs F ptr ∧ F = ∅ := by
  have := S.traceContours_ok B S.darts.n 0 (fun _ => false) ⟨fun _ => none, fun _ => false⟩ ⟨[], [], [], []⟩ [] []
    (Finset.range S.darts.n) (fun _ => none) (by omega) (by simp) ⟨.nil, by simp, RelOk.nil _, rfl, by simp, by simp, by simp⟩
  rw [List.range_eq_range']
  exact this

end Selected

end Clipping

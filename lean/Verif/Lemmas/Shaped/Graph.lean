import Verif.Lemmas.Shaped.Select
import Verif.Lemmas.Shaped.Connectivity
import Verif.Lemmas.Plane.Cyclic

/-!
# The events of the result as a plane graph
-/

namespace Clipping

open Sweep

/-- insertion sort of different elements -/
theorem insertionSort_pairwise {β : Type} {r : β → β → Prop} [DecidableRel r] {l : List β} (nd : l.Nodup)
    (total : ∀ a ∈ l, ∀ b ∈ l, a ≠ b → r a b ∨ r b a)
    (trans : ∀ a ∈ l, ∀ b ∈ l, ∀ c ∈ l, a ≠ b → b ≠ c → a ≠ c → r a b → r b c → r a c) :
    (l.insertionSort r).Pairwise r := by
  induction l with
  | nil => simp
  | cons x l ih =>
    rw [List.nodup_cons] at nd
    have ih := ih nd.2 (fun a ha b hb => total a (by simp [ha]) b (by simp [hb]))
      (fun a ha b hb c hc => trans a (by simp [ha]) b (by simp [hb]) c (by simp [hc]))
    rw [List.insertionSort_cons]
    have hmem : ∀ y ∈ l.insertionSort r, y ∈ l := fun y hy => (List.perm_insertionSort r l).mem_iff.1 hy
    have hnd : (l.insertionSort r).Nodup := (List.perm_insertionSort r l).nodup_iff.2 nd.2
    generalize l.insertionSort r = s at ih hmem hnd
    induction s with
    | nil => simp
    | cons y s ihs =>
      rw [List.pairwise_cons] at ih
      rw [List.nodup_cons] at hnd
      have hy := hmem y (by simp)
      have xy : x ≠ y := fun e => nd.1 (e ▸ hy)
      rw [List.orderedInsert_cons]
      split_ifs with hxy
      · rw [List.pairwise_cons, List.pairwise_cons]
        refine ⟨?_, ih⟩
        intro z hz
        rcases List.mem_cons.1 hz with rfl | hz'
        · exact hxy
        · have hz'' := hmem z (by simp [hz'])
          exact trans x (by simp) y (by simp [hy]) z (by simp [hz'']) xy (fun e => hnd.1 (e ▸ hz'))
            (fun e => nd.1 (e ▸ hz'')) hxy (ih.1 z hz')
      · rw [List.pairwise_cons]
        refine ⟨?_, ihs ih.2 (fun z hz => hmem z (by simp [hz])) hnd.2⟩
        intro z hz
        rw [List.mem_orderedInsert] at hz
        rcases hz with rfl | hz
        · exact (total z (by simp) y (by simp [hy]) xy).resolve_left hxy
        · exact ih.1 z hz

/-- the directed segment of an event -/
def evSeg (h : Heap ShapedData) (e : Ev) : Segment := ⟨h.evStart e, h.evStop e⟩

/-- the direction of an event -/
def evDir (h : Heap ShapedData) (e : Ev) : Point := vec (h.evStart e) (h.evStop e)

/-- The events are sorted by starts, right events before left events, clockwise or counterclockwise. -/
def Before (h : Heap ShapedData) (e f : Ev) : Prop :=
  h.evStart e < h.evStart f ∨ h.evStart e = h.evStart f ∧
    ((Heap.isLeft e = false ∧ Heap.isLeft f = true) ∨
      (Heap.isLeft e = false ∧ Heap.isLeft f = false ∧ det (evDir h e) (evDir h f) < 0) ∨
      (Heap.isLeft e = true ∧ Heap.isLeft f = true ∧ 0 < det (evDir h e) (evDir h f)))

namespace Selected

variable {h : Heap ShapedData} {events : List Ev}

theorem opposite_opposite (S : Selected h events) {e : Ev} (he : e ∈ events) : h.opposite (h.opposite e) = e := by
  have := S.evOk e he
  cases e with
  | left i =>
    change Ev.left (h.rights (h.lefts i).right).left = _
    rw [S.ok.lr i this]
  | right j =>
    change Ev.right (h.lefts (h.rights j).left).right = _
    rw [S.ok.rl j this]

theorem isLeft_opposite (e : Ev) : Heap.isLeft (h.opposite e) = !Heap.isLeft e := by cases e <;> rfl

theorem primary_mem (S : Selected h events) {e : Ev} (he : e ∈ events) : h.primary e ∈ leftIds events := by
  rw [mem_leftIds]
  cases e with
  | left i => exact he
  | right j => exact S.opposite _ he

theorem primary_eq (S : Selected h events) {e f : Ev} (he : e ∈ events) (hf : f ∈ events)
    (hp : h.primary e = h.primary f) : e = f ∨ h.opposite e = f := by
  have oe := S.evOk e he
  have of := S.evOk f hf
  cases e with
  | left i =>
    cases f with
    | left k => left; exact congrArg Ev.left hp
    | right k =>
      right
      change Ev.right (h.lefts i).right = _
      have : i = (h.rights k).left := hp
      rw [this, S.ok.rl k of]
  | right i =>
    cases f with
    | left k => right; exact congrArg Ev.left hp
    | right k =>
      left
      have : (h.rights i).left = (h.rights k).left := hp
      have e1 := S.ok.rl i oe
      rw [this, S.ok.rl k of] at e1
      rw [e1]

theorem evSeg_left {e : Ev} (hl : Heap.isLeft e = true) :
    evSeg h e = h.segment (h.primary e) := by
  cases e with
  | left i => rfl
  | right j => cases hl

theorem evSeg_right (S : Selected h events) {e : Ev} (he : e ∈ events) (hl : Heap.isLeft e = false) :
    evSeg h e = (h.segment (h.primary e)).swap := by
  have oe := S.evOk e he
  cases e with
  | left i => cases hl
  | right j => 
    unfold evSeg
    rw [evStart_right S.ok oe, evStop_right]
    rfl

theorem evSeg_pts (S : Selected h events) {e : Ev} (he : e ∈ events) :
    (evSeg h e).pts = (h.segment (h.primary e)).pts ∧
      ∀ q, (evSeg h e).IsEnd q ↔ (h.segment (h.primary e)).IsEnd q := by
  cases hl : Heap.isLeft e with
  | true => rw [evSeg_left hl]; exact ⟨rfl, fun _ => Iff.rfl⟩
  | false =>
    rw [S.evSeg_right he hl]
    exact ⟨Segment.swap_pts _, fun q => Segment.isEnd_swap⟩

theorem dir_side (S : Selected h events) {e : Ev} (he : e ∈ events) :
    (Heap.isLeft e = true → Ahead (evDir h e)) ∧ (Heap.isLeft e = false → Behind (evDir h e)) := by
  have key : ∀ a b : Point, a < b → Ahead (vec a b) ∧ Behind (vec b a) := by
    intro a b hab
    rcases Point.lt_def.1 hab with h1 | ⟨h1, h2⟩
    · exact ⟨Or.inl (by simp only [vec]; linarith), Or.inl (by simp only [vec]; linarith)⟩
    · exact ⟨Or.inr ⟨by simp only [vec]; linarith, by simp only [vec]; linarith⟩,
        Or.inr ⟨by simp only [vec]; linarith, by simp only [vec]; linarith⟩⟩
  have oe := S.evOk e he
  cases e with
  | left i => exact ⟨fun _ => (key _ _ (S.lt i he)).1, fun h => by cases h⟩
  | right j =>
    refine ⟨fun h => (by cases h), fun _ => ?_⟩
    unfold evDir
    rw [evStart_right S.ok oe, evStop_right]
    exact (key _ _ (S.lt _ (S.opposite _ he))).2

theorem start_ne (S : Selected h events) {e : Ev} (he : e ∈ events) : h.evStart e ≠ h.evStop e := by
  have := S.dir_side he
  intro heq
  unfold evDir at this
  rw [← heq] at this
  cases hl : Heap.isLeft e with
  | true => rcases this.1 hl with h | ⟨-, h⟩ <;> simp [vec] at h
  | false => rcases this.2 hl with h | ⟨-, h⟩ <;> simp [vec] at h

theorem ends (S : Selected h events) {e f : Ev} (he : e ∈ events) (hf : f ∈ events) (h1 : e ≠ f)
    (h2 : h.opposite e ≠ f) {q : Point} (hq : q ∈ (evSeg h e).pts) (hq' : q ∈ (evSeg h f).pts) :
    (evSeg h e).IsEnd q ∧ (evSeg h f).IsEnd q := by
  classical
  have pe := S.evSeg_pts he
  have pf := S.evSeg_pts hf
  rw [pe.1] at hq
  rw [pf.1] at hq'
  rw [pe.2, pf.2]
  have hne : h.primary e ≠ h.primary f := fun hp => by
    rcases S.primary_eq he hf hp with h | h
    · exact h1 h
    · exact h2 h
  have perm := List.perm_cons_erase (S.primary_mem he)
  have hE := S.endsOnly
  rw [leftEdges_eq] at hE
  have := List.pairwise_cons.1 (hE.perm (perm.map h.segment))
  exact this.1 _ (List.mem_map_of_mem ((List.mem_erase_of_ne (Ne.symm hne)).2 (S.primary_mem hf))) q hq hq'

theorem getD_mem {evs : List Ev} (perm : evs.Perm events) {i : ℕ} (hi : i < evs.length) :
    evs.getD i (.left 0) ∈ events := by
  rw [List.getD_eq_getElem _ _ hi]
  exact perm.mem_iff.1 (List.getElem_mem hi)

theorem getD_eventId {evs : List Ev} {e : Ev} (he : e ∈ evs) : evs.getD (eventId evs e) (.left 0) = e := by
  unfold eventId
  rw [List.getD_eq_getElem _ _ (List.idxOf_lt_length_of_mem he), List.getElem_idxOf]

theorem eventId_getD {evs : List Ev} (nd : evs.Nodup) {i : ℕ} (hi : i < evs.length) :
    eventId evs (evs.getD i (.left 0)) = i := by
  unfold eventId
  rw [List.getD_eq_getElem _ _ hi, nd.idxOf_getElem]

/-- the plane graph -/
def rawDarts (S : Selected h events) {evs : List Ev} (perm : evs.Perm events) : Darts where
  n := evs.length
  key := startAt h evs
  opp i := eventId evs (h.opposite (evs.getD i (.left 0)))
  opp_lt i hi := List.idxOf_lt_length_of_mem (perm.mem_iff.2 (S.opposite _ (getD_mem perm hi)))
  opp_opp i hi := by
    have hm := getD_mem perm hi
    rw [getD_eventId (perm.mem_iff.2 (S.opposite _ hm)), S.opposite_opposite hm,
      eventId_getD (perm.nodup_iff.2 S.nodup) hi]
  ne i hi := by
    have hm := getD_mem perm hi
    unfold startAt
    rw [getD_eventId (perm.mem_iff.2 (S.opposite _ hm))]
    exact S.start_ne hm
  ends i hi j hj hij hoj q hq hq' := by
    have hm := getD_mem perm hi
    have hm' := getD_mem perm hj
    have nd := perm.nodup_iff.2 S.nodup
    unfold startAt at hq hq' ⊢
    rw [getD_eventId (perm.mem_iff.2 (S.opposite _ hm))] at hq ⊢
    rw [getD_eventId (perm.mem_iff.2 (S.opposite _ hm'))] at hq' ⊢
    refine S.ends hm hm' ?_ ?_ hq hq'
    · intro e
      apply hij
      rw [← eventId_getD nd hi, e, eventId_getD nd hj]
    · intro e
      apply hoj
      rw [e, eventId_getD nd hj]

theorem rawDarts_dir (S : Selected h events) {evs : List Ev} (perm : evs.Perm events) {i : ℕ} (hi : i < evs.length) :
    (S.rawDarts perm).dir i = evDir h (evs.getD i (.left 0)) := by
  have hm := getD_mem perm hi
  unfold Darts.dir rawDarts startAt evDir
  dsimp only
  rw [getD_eventId (perm.mem_iff.2 (S.opposite _ hm))]
  rfl

theorem rawDarts_seg (S : Selected h events) {evs : List Ev} (perm : evs.Perm events) {i : ℕ} (hi : i < evs.length) :
    (S.rawDarts perm).seg i = evSeg h (evs.getD i (.left 0)) := by
  have hm := getD_mem perm hi
  unfold Darts.seg rawDarts startAt evSeg
  dsimp only
  rw [getD_eventId (perm.mem_iff.2 (S.opposite _ hm))]
  rfl

/-- Different events with the same start on the same side have different directions. -/
theorem det_ne (S : Selected h events) {e f : Ev} (he : e ∈ events) (hf : f ∈ events) (hne : e ≠ f)
    (hs : h.evStart e = h.evStart f) (hl : Heap.isLeft e = Heap.isLeft f) : det (evDir h e) (evDir h f) ≠ 0 := by
  intro h0
  have ie : eventId events e < events.length := List.idxOf_lt_length_of_mem he
  have jf : eventId events f < events.length := List.idxOf_lt_length_of_mem hf
  have ge := getD_eventId he
  have gf := getD_eventId hf
  have hij : eventId events e ≠ eventId events f := fun hh => hne (by rw [← ge, hh, gf])
  have d1 := S.rawDarts_dir (List.Perm.refl _) ie
  have d2 := S.rawDarts_dir (List.Perm.refl _) jf
  rw [ge] at d1
  rw [gf] at d2
  have n1 := Darts.dir_ne_zero (D := S.rawDarts (List.Perm.refl _)) ie
  have n2 := Darts.dir_ne_zero (D := S.rawDarts (List.Perm.refl _)) jf
  have nd := Darts.dir_ne (D := S.rawDarts (List.Perm.refl _)) ie jf hij (by
    unfold rawDarts startAt
    dsimp only
    rw [ge, gf]; exact hs)
  rw [d1] at n1
  rw [d2] at n2
  rw [d1, d2] at nd
  obtain ⟨c, c0, hx, hy⟩ := det_zero n1 n2 h0
  rcases lt_or_gt_of_ne c0 with hc | hc
  · have s1 := S.dir_side he
    have s2 := S.dir_side hf
    cases hl1 : Heap.isLeft e with
    | true =>
      rw [hl1] at hl
      have a1 := s1.1 hl1
      refine (s2.1 hl.symm).not_behind ?_
      unfold Behind
      rw [hx, hy]
      rcases a1 with h | ⟨h, h'⟩
      · left; exact mul_neg_of_neg_of_pos hc h
      · right; rw [h, mul_zero]; exact ⟨rfl, mul_neg_of_neg_of_pos hc h'⟩
    | false =>
      rw [hl1] at hl
      have a1 := s1.2 hl1
      refine Ahead.not_behind ?_ (s2.2 hl.symm)
      unfold Ahead
      rw [hx, hy]
      rcases a1 with h | ⟨h, h'⟩
      · left; exact mul_pos_of_neg_of_neg hc h
      · right; rw [h, mul_zero]; exact ⟨rfl, mul_pos_of_neg_of_neg hc h'⟩
  · exact nd ⟨c, hc, hx, hy⟩

/-- The order of the queue. -/
theorem queue_iff (S : Selected h events) {e f : Ev} (he : e ∈ events) (hf : f ∈ events) (hne : e ≠ f) :
    queueLt h e f = true ↔ Before h e f := by
  unfold queueLt Before
  by_cases hs : h.evStart e = h.evStart f
  · have hd : Heap.isLeft e = Heap.isLeft f → det (evDir h e) (evDir h f) ≠ 0 := S.det_ne he hf hne hs
    have hc : cross (h.evStart e) (h.evStop e) (h.evStop f) = det (evDir h e) (evDir h f) := by
      rw [cross_eq_det]; unfold evDir; rw [← hs]
    have o1 := orientation_ccw (a := h.evStart e) (b := h.evStop e) (c := h.evStop f)
    have o2 := orientation_cw (a := h.evStart e) (b := h.evStop e) (c := h.evStop f)
    have o3 := orientation_col (a := h.evStart e) (b := h.evStop e) (c := h.evStop f)
    rw [hc] at o1 o2 o3
    have lt : ¬ h.evStart e < h.evStart f := by rw [hs]; exact lt_irrefl _
    simp only [hs, true_and, ne_eq, not_true_eq_false, if_false]
    rw [hs] at o1 o2 o3
    cases l1 : Heap.isLeft e <;> cases l2 : Heap.isLeft f <;> simp only [l1, l2] at hd ⊢ <;>
      simp_all [Ne]
  · have hne' : h.evStart e ≠ h.evStart f := hs
    simp only [hs, false_and, or_false]
    rw [Point.lt_def]
    by_cases hx : (h.evStart e).x = (h.evStart f).x
    · have hy : (h.evStart e).y ≠ (h.evStart f).y := fun hy => hs (Point.ext' hx hy)
      simp [hx, hy]
    · simp [hx]

theorem before_total (S : Selected h events) {e f : Ev} (he : e ∈ events) (hf : f ∈ events) (hne : e ≠ f) :
    Before h e f ∨ Before h f e := by
  unfold Before
  rcases lt_trichotomy (h.evStart e) (h.evStart f) with h1 | h1 | h1
  · exact Or.inl (Or.inl h1)
  · have hd := S.det_ne he hf hne h1
    have sw := det_swap (evDir h e) (evDir h f)
    cases l1 : Heap.isLeft e <;> cases l2 : Heap.isLeft f
    · rcases lt_or_gt_of_ne (hd (by rw [l1, l2])) with h2 | h2
      · left; right; exact ⟨h1, Or.inr (Or.inl ⟨rfl, rfl, h2⟩)⟩
      · right; right; exact ⟨h1.symm, Or.inr (Or.inl ⟨rfl, rfl, by linarith⟩)⟩
    · left; right; exact ⟨h1, Or.inl ⟨rfl, rfl⟩⟩
    · right; right; exact ⟨h1.symm, Or.inl ⟨rfl, rfl⟩⟩
    · rcases lt_or_gt_of_ne (hd (by rw [l1, l2])) with h2 | h2
      · right; right; exact ⟨h1.symm, Or.inr (Or.inr ⟨rfl, rfl, by linarith⟩)⟩
      · left; right; exact ⟨h1, Or.inr (Or.inr ⟨rfl, rfl, h2⟩)⟩
  · exact Or.inr (Or.inl h1)

theorem before_asymm {e f : Ev} (h1 : Before h e f) : ¬ Before h f e := by
  intro h2
  unfold Before at h1 h2
  have sw := det_swap (evDir h e) (evDir h f)
  rcases h1 with h1 | ⟨e1, h1⟩
  · rcases h2 with h2 | ⟨e2, -⟩
    · exact lt_asymm h1 h2
    · rw [e2] at h1; exact lt_irrefl _ h1
  · rcases h2 with h2 | ⟨-, h2⟩
    · rw [e1] at h2; exact lt_irrefl _ h2
    · rcases h1 with ⟨a1, a2⟩ | ⟨a1, a2, a3⟩ | ⟨a1, a2, a3⟩ <;> rcases h2 with ⟨b1, b2⟩ | ⟨b1, b2, b3⟩ | ⟨b1, b2, b3⟩ <;>
        first
        | linarith
        | exact Bool.noConfusion (a2.symm.trans b1)
        | exact Bool.noConfusion (a1.symm.trans b2)

theorem before_trans (S : Selected h events) {a b c : Ev} (ha : a ∈ events) (hb : b ∈ events) (hc : c ∈ events)
    (h1 : Before h a b) (h2 : Before h b c) : Before h a c := by
  unfold Before at h1 h2 ⊢
  rcases h1 with h1 | ⟨e1, h1⟩
  · rcases h2 with h2 | ⟨e2, h2⟩
    · exact Or.inl (h1.trans h2)
    · rw [e2] at h1; exact Or.inl h1
  · rcases h2 with h2 | ⟨e2, h2⟩
    · rw [← e1] at h2; exact Or.inl h2
    · refine Or.inr ⟨e1.trans e2, ?_⟩
      have s1 := S.dir_side ha
      have s2 := S.dir_side hb
      have s3 := S.dir_side hc
      rcases h1 with ⟨a1, a2⟩ | ⟨a1, a2, a3⟩ | ⟨a1, a2, a3⟩ <;> rcases h2 with ⟨b1, b2⟩ | ⟨b1, b2, b3⟩ | ⟨b1, b2, b3⟩
      · rw [a2] at b1; cases b1
      · rw [a2] at b1; cases b1
      · exact Or.inl ⟨a1, b2⟩
      · exact Or.inl ⟨a1, b2⟩
      · refine Or.inr (Or.inl ⟨a1, b2, ?_⟩)
        have := Ahead.trans_lt (s1.2 a1).neg (s2.2 a2).neg (s3.2 b2).neg
          (by rw [det_neg_left, det_neg_right, neg_neg]; exact a3) (by rw [det_neg_left, det_neg_right, neg_neg]; exact b3.le)
        rw [det_neg_left, det_neg_right, neg_neg] at this
        exact this
      · rw [a2] at b1; cases b1
      · rw [a2] at b1; cases b1
      · rw [a2] at b1; cases b1
      · refine Or.inr (Or.inr ⟨a1, b2, ?_⟩)
        have w1 := det_swap (evDir h a) (evDir h b)
        have w2 := det_swap (evDir h b) (evDir h c)
        have w3 := det_swap (evDir h a) (evDir h c)
        have := Ahead.trans_lt (s3.1 b2) (s2.1 a2) (s1.1 a1) (by linarith) (by linarith)
        linarith

theorem sort_perm : (sortEvents h events).Perm events := List.perm_insertionSort _ _

theorem sort_nodup (S : Selected h events) : (sortEvents h events).Nodup := sort_perm.nodup_iff.2 S.nodup

theorem sorted_of_perm (S : Selected h events) {es : List Ev} (perm : es.Perm events) :
    (sortEvents h es).Pairwise (Before h) := by
  have hq : ∀ a ∈ events, ∀ b ∈ events, a ≠ b → (queueLt h b a = false ↔ Before h a b) := by
    intro a ha b hb hne
    have h1 := S.queue_iff hb ha hne.symm
    have h2 := S.before_total ha hb hne
    rw [Bool.eq_false_iff, Ne, h1]
    exact ⟨fun h => h2.resolve_right h, fun h => before_asymm h⟩
  have nd' : es.Nodup := perm.nodup_iff.2 S.nodup
  have key : (sortEvents h es).Pairwise fun e f => queueLt h f e = false := by
    refine insertionSort_pairwise nd' ?_ ?_
    · intro a ha b hb hne
      have ha := perm.mem_iff.1 ha
      have hb := perm.mem_iff.1 hb
      rw [hq a ha b hb hne, hq b hb a ha hne.symm]
      exact S.before_total ha hb hne
    · intro a ha b hb c hc h1 h2 h3
      have ha := perm.mem_iff.1 ha
      have hb := perm.mem_iff.1 hb
      have hc := perm.mem_iff.1 hc
      rw [hq a ha b hb h1, hq b hb c hc h2, hq a ha c hc h3]
      exact S.before_trans ha hb hc
  have nd : (sortEvents h es).Nodup := sort_perm.nodup_iff.2 nd'
  refine List.Pairwise.imp_of_mem ?_ (List.Pairwise.and nd key)
  intro a b ha hb hab
  exact (hq a (perm.mem_iff.1 (sort_perm.mem_iff.1 ha)) b (perm.mem_iff.1 (sort_perm.mem_iff.1 hb)) hab.1).1 hab.2

theorem sorted (S : Selected h events) : (sortEvents h events).Pairwise (Before h) := S.sorted_of_perm (List.Perm.refl _)

/-- Sorting does not depend on the order. -/
theorem sort_eq (S : Selected h events) {es : List Ev} (perm : es.Perm events) : sortEvents h es = sortEvents h events := by
  refine List.Perm.eq_of_pairwise (le := Before h) ?_ (S.sorted_of_perm perm) S.sorted
    ((sort_perm.trans perm).trans sort_perm.symm)
  intro a b _ _ h1 h2
  exact absurd h2 (before_asymm h1)

/-- the plane graph of the sorted events -/
def darts (S : Selected h events) : Darts := S.rawDarts (sort_perm (h := h))

/-- the sorted events -/
def ev (h : Heap ShapedData) (events : List Ev) (i : ℕ) : Ev := (sortEvents h events).getD i (.left 0)

theorem ev_mem {i : ℕ} (hi : i < (sortEvents h events).length) : ev h events i ∈ events := getD_mem sort_perm hi

theorem before_of_lt (S : Selected h events) {i j : ℕ} (hij : i < j) (hj : j < (sortEvents h events).length) :
    Before h (ev h events i) (ev h events j) := by
  have := List.pairwise_iff_getElem.1 S.sorted i j (by omega) hj hij
  unfold ev
  rw [List.getD_eq_getElem _ _ (by omega), List.getD_eq_getElem _ _ hj]
  exact this

theorem rotation (S : Selected h events) :
    ∃ pos size, IsRotation (eventsToConnectivity h (sortEvents h events)) S.darts.key S.darts.n
      (leftAt (sortEvents h events)) pos size := by
  refine eventsToConnectivity_rotation ?_ ?_
  · exact sorted_events h events
  · intro i j hij hj hs hl
    rcases S.before_of_lt hij hj with h1 | ⟨-, h1⟩
    · unfold startAt at hs
      unfold ev at h1
      rw [hs] at h1
      exact absurd h1 (lt_irrefl _)
    · unfold leftAt at hl ⊢
      unfold ev at h1
      rcases h1 with ⟨-, h1⟩ | ⟨h1, -, -⟩ | ⟨-, h1, -⟩
      · exact h1
      · rw [hl] at h1; cases h1
      · exact h1

/-- The position in the cycle is the clockwise order. -/
theorem cwLt (S : Selected h events) {pos : ℕ → ℕ} {size : Point → ℕ}
    (R : IsRotation (eventsToConnectivity h (sortEvents h events)) S.darts.key S.darts.n
      (leftAt (sortEvents h events)) pos size) {i j : ℕ} (hi : i < S.darts.n) (hj : j < S.darts.n)
    (hk : S.darts.key i = S.darts.key j) (hp : pos i < pos j) : CwLt (S.darts.dir i) (S.darts.dir j) := by
  have di := S.rawDarts_dir (sort_perm (h := h)) hi
  have dj := S.rawDarts_dir (sort_perm (h := h)) hj
  change S.darts.dir i = evDir h (ev h events i) at di
  change S.darts.dir j = evDir h (ev h events j) at dj
  have si := S.dir_side (ev_mem hi)
  have sj := S.dir_side (ev_mem hj)
  rw [← di] at si
  rw [← dj] at sj
  have li : leftAt (sortEvents h events) i ↔ Heap.isLeft (ev h events i) = true := Iff.rfl
  have lj : leftAt (sortEvents h events) j ↔ Heap.isLeft (ev h events j) = true := Iff.rfl
  have hk' : h.evStart (ev h events i) = h.evStart (ev h events j) := hk
  unfold CwLt
  rcases R.order i hi j hj hk hp with ⟨h1, h2⟩ | ⟨h1, h2, h3⟩ | ⟨h1, h2, h3⟩
  · rw [li, Bool.not_eq_true] at h1
    rw [lj] at h2
    exact Or.inl ⟨si.2 h1, sj.1 h2⟩
  · rw [li, Bool.not_eq_true] at h1
    rw [lj, Bool.not_eq_true] at h2
    refine Or.inr (Or.inl ⟨si.2 h1, sj.2 h2, ?_⟩)
    rcases S.before_of_lt h3 hj with h4 | ⟨-, h4⟩
    · rw [hk'] at h4; exact absurd h4 (lt_irrefl _)
    · rw [di, dj]
      rcases h4 with ⟨-, h4⟩ | ⟨-, -, h4⟩ | ⟨h4, -, -⟩
      · rw [h2] at h4; cases h4
      · exact h4
      · rw [h1] at h4; cases h4
  · rw [li] at h1
    rw [lj] at h2
    refine Or.inr (Or.inr ⟨si.1 h1, sj.1 h2, ?_⟩)
    rcases S.before_of_lt h3 hi with h4 | ⟨-, h4⟩
    · rw [hk'] at h4; exact absurd h4 (lt_irrefl _)
    · rw [di, dj]
      have := det_swap (evDir h (ev h events i)) (evDir h (ev h events j))
      rcases h4 with ⟨h4, -⟩ | ⟨h4, -, -⟩ | ⟨-, -, h4⟩
      · rw [h2] at h4; cases h4
      · rw [h2] at h4; cases h4
      · linarith

/-- `_to_next_event_id` finds the next edge clockwise which is not processed. -/
theorem next (S : Selected h events) {processed : ℕ → Bool} {F : Finset ℕ} (hF : S.darts.Closed F)
    (hp : ∀ i < S.darts.n, i ∈ F ↔ processed i = false) {i : ℕ} (hi : i < S.darts.n)
    (ex : ∃ x ∈ F, S.darts.key x = S.darts.key i ∧ x ≠ i) :
    ∃ j, nextEventId (eventsToConnectivity h (sortEvents h events)) processed i (sortEvents h events).length i =
      .ok (some j) ∧ S.darts.Next F i j := by
  obtain ⟨pos, size, R⟩ := S.rotation
  obtain ⟨x, hx, kx, xi⟩ := ex
  rcases R.next processed hi with ⟨j, h1, h2, h3, h4, h5, h6⟩ | ⟨-, h2⟩
  · refine ⟨j, h1, (hp j h2).2 h4, h3, ?_, ?_⟩
    · intro hji
      exact xi (h5 hji x (hF.lt x hx) kx ((hp x (hF.lt x hx)).1 hx))
    · intro k hk hki
      have lk := hF.lt k hk
      have self : ∀ f r : Point, ¬ InSector f r r ∧ ¬ InSector f r f := by
        intro f r
        have z : ∀ a : Point, det a a = 0 := fun a => by unfold det; ring
        unfold InSector
        rw [z, z]
        constructor
        · rintro (⟨-, -, h⟩ | ⟨h, h' | h'⟩ | ⟨h, h'⟩) <;> linarith
        · rintro (⟨-, h, -⟩ | ⟨h, h' | h'⟩ | ⟨h, h'⟩) <;> linarith
      rcases h6 k lk hki ((hp k lk).1 hk) with rfl | rfl | ⟨a, b⟩ | ⟨a, b⟩ | ⟨a, b⟩
      · exact (self _ _).1
      · exact (self _ _).2
      all_goals
        refine not_inSector (ahead_or_behind (Darts.dir_ne_zero hi)) (ahead_or_behind (Darts.dir_ne_zero h2))
          (ahead_or_behind (Darts.dir_ne_zero lk)) ?_
      · exact Or.inl ⟨S.cwLt R hi h2 h3.symm a, S.cwLt R h2 lk (h3.trans hki.symm) b⟩
      · exact Or.inr (Or.inl ⟨S.cwLt R h2 lk (h3.trans hki.symm) a, S.cwLt R lk hi hki b⟩)
      · exact Or.inr (Or.inr ⟨S.cwLt R lk hi hki a, S.cwLt R hi h2 h3.symm b⟩)
  · have := h2 x (hF.lt x hx) kx
    rw [(hp x (hF.lt x hx)).1 hx] at this
    cases this

end Selected

end Clipping

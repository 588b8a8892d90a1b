import Verif.Lemmas.Mixed.Sets

/-!
# Common points and segments of a linear and a shaped operand
-/

namespace Clipping

open Sweep

section sort
variable {α : Type} (h : Heap α)

theorem queue_start {e f : Ev} (hq : queueLt h f e = false) : h.evStart e ≤ h.evStart f := by
  by_cases hne : h.evStart f = h.evStart e
  · rw [hne]
  · rw [queueLt_of_ne hne] at hq
    exact not_lt.1 (of_decide_eq_false hq)

theorem queue_start' {e f : Ev} (hq : ¬ queueLt h f e = false) : h.evStart f ≤ h.evStart e := by
  by_cases hne : h.evStart f = h.evStart e
  · rw [hne]
  · rw [queueLt_of_ne hne] at hq
    have : decide (h.evStart f < h.evStart e) = true := by simpa using hq
    exact (of_decide_eq_true this).le

theorem sorted_insert (e : Ev) : ∀ l : List Ev, (l.Pairwise fun e f => h.evStart e ≤ h.evStart f) →
    (l.orderedInsert (fun e f => queueLt h f e = false) e).Pairwise fun e f => h.evStart e ≤ h.evStart f
  | [], _ => by simp
  | f :: l, hp => by
    rw [List.orderedInsert_cons]
    have hp' := List.pairwise_cons.1 hp
    split_ifs with hq
    · rw [List.pairwise_cons]
      refine ⟨?_, hp⟩
      intro g hg
      have hef := queue_start h hq
      rcases List.mem_cons.1 hg with rfl | hg
      · exact hef
      · exact hef.trans (hp'.1 g hg)
    · rw [List.pairwise_cons]
      refine ⟨?_, sorted_insert e l hp'.2⟩
      intro g hg
      rw [List.mem_orderedInsert] at hg
      rcases hg with rfl | hg
      · exact queue_start' h hq
      · exact hp'.1 g hg

/-- Sorting by the key of the queue sorts by start. -/
theorem sorted_events (l : List Ev) : (l.insertionSort fun e f => queueLt h f e = false).Pairwise
    fun e f => h.evStart e ≤ h.evStart f := by
  induction l with
  | nil => simp
  | cons e l ih => rw [List.insertionSort_cons]; exact sorted_insert h e _ ih

theorem contig_of_sorted {β : Type} (key : β → Point) {l : List β} (hs : l.Pairwise fun a b => key a ≤ key b) :
    Contig key l := by
  intro l₁ l₂ l₃ i j e hk x hx
  rw [e, List.append_assoc, List.pairwise_append] at hs
  have hs := hs.2.1
  rw [List.cons_append, List.pairwise_cons] at hs
  have h1 := hs.1 x (List.mem_append_left _ hx)
  have h2 := (List.pairwise_append.1 hs.2).2.2 x hx j (by simp)
  rw [← hk] at h2
  exact le_antisymm h2 h1

end sort

namespace MixedEnd

variable {h : Heap MixedData} {log : List (Ev × ℕ)} {stop : Point → Bool} {L E : List Segment}

theorem ev_end {α : Type} {h : Heap α} (ok : HeapOk h) {e : Ev} (he : EvOk h e) :
    (h.segment (h.primary e)).IsEnd (h.evStart e) := by
  cases e with
  | left i => exact Or.inl rfl
  | right j =>
    right
    have : h.stop (h.rights j).left = (h.rights j).start := by unfold Heap.stop; rw [ok.rl j he]
    exact this.symm

theorem end_ev {α : Type} {h : Heap α} (ok : HeapOk h) {i : ℕ} (hi : i < h.count) {q : Point}
    (hq : (h.segment i).IsEnd q) : ∃ e, EvOk h e ∧ h.evStart e = q ∧ h.primary e = i := by
  rcases hq with rfl | rfl
  · exact ⟨.left i, hi, rfl, rfl⟩
  · exact ⟨.right (h.lefts i).right, ok.rlt i hi, rfl, ok.lr i hi⟩

/-- The points and segments together are the common points. -/
theorem complete (M : MixedEnd not h log stop L E) (hE : IsBoundary E)
    (hmono : ∃ xmax, stop = stopAt xmax) (hx : ExitOk h log) {events : List Ev}
    (perm : events.Perm (log.map Prod.fst)) (sorted : events.Pairwise fun e f => h.evStart e ≤ h.evStart f)
    {ps : List Point} (hps : ps = commonPoints h (groupRuns h.evStart events)) {is : List ℕ}
    (his : ∀ i, i ∈ is ↔ Ev.left i ∈ log.map Prod.fst) :
    (∀ q, (q ∈ ps ∨ q ∈ segsPts (resultSegments h is)) ↔ q ∈ segsPts L ∧ q ∈ regionPts E) ∧
      ps.Nodup ∧ ps.Pairwise (· ≤ ·) ∧ ∀ q ∈ ps, q ∉ segsPts (resultSegments h is) := by
  have ct := contig_of_sorted h.evStart sorted
  have mono : ∀ p q, p ≤ q → stop p = true → stop q = true := by
    obtain ⟨x, rfl⟩ := hmono; exact stopAt_mono x
  have mems : ∀ e, e ∈ events ↔ EvOk h e ∧ stop (h.evStart e) = false := fun e => by
    rw [perm.mem_iff]; exact M.mem e
  have memP : ∀ q, q ∈ ps ↔ (∀ e ∈ events, h.evStart e = q → (h.lefts (h.primary e)).data.fromResult = false) ∧
      ∃ e ∈ events, ∃ f ∈ events, h.evStart e = q ∧ h.evStart f = q ∧ h.evFirst e ≠ h.evFirst f := by
    intro q
    rw [hps]
    unfold commonPoints
    rw [List.mem_map]
    constructor
    · rintro ⟨⟨k, g⟩, hg, rfl⟩
      rw [List.mem_filter, groupRuns_mem ct] at hg
      obtain ⟨⟨-, rfl⟩, hc⟩ := hg
      simp only [Bool.not_eq_true', Bool.or_eq_false_iff] at hc
      obtain ⟨c1, c2⟩ := hc
      constructor
      · intro e he hek
        have := List.any_eq_false.1 c1 e (List.mem_filter.2 ⟨he, by simpa using hek⟩)
        simpa using this
      · rw [← Bool.not_eq_true, allEqual_iff] at c2
        push Not at c2
        obtain ⟨u, hu, v, hv, huv⟩ := c2
        obtain ⟨e, he, rfl⟩ := List.mem_map.1 hu
        obtain ⟨f, hf, rfl⟩ := List.mem_map.1 hv
        obtain ⟨e1, e2⟩ := List.mem_filter.1 he
        obtain ⟨f1, f2⟩ := List.mem_filter.1 hf
        exact ⟨e, e1, f, f1, of_decide_eq_true e2, of_decide_eq_true f2, huv⟩
    · rintro ⟨h1, e, he, f, hf, e2, f2, hne⟩
      refine ⟨(q, events.filter fun x => decide (h.evStart x = q)), ?_, rfl⟩
      rw [List.mem_filter, groupRuns_mem ct]
      refine ⟨⟨⟨e, he, e2⟩, rfl⟩, ?_⟩
      simp only [Bool.not_eq_true', Bool.or_eq_false_iff]
      constructor
      · rw [List.any_eq_false]
        intro x hx
        obtain ⟨x1, x2⟩ := List.mem_filter.1 hx
        rw [h1 x x1 (of_decide_eq_true x2)]
        simp
      · rw [← Bool.not_eq_true, allEqual_iff]
        intro hh
        refine hne (hh _ (List.mem_map_of_mem ?_) _ (List.mem_map_of_mem ?_))
        · exact List.mem_filter.2 ⟨he, by simpa using e2⟩
        · exact List.mem_filter.2 ⟨hf, by simpa using f2⟩
  have noRes : ∀ q ∈ ps, q ∉ segsPts (resultSegments h is) := by
    intro q hq hql
    obtain ⟨i, hi, hr, hqi⟩ := mem_resultPts.1 hql
    obtain ⟨hiF, -⟩ := M.selected_in hE hx ((his i).1 hi) hr
    have hif := M.first_of_result ((his i).1 hi) hr
    obtain ⟨h1, e, he, f, hf, e2, f2, hne⟩ := (memP q).1 hq
    have hin := M.fin.bound i hiF
    have oe := (mems e).1 he
    have of := (mems f).1 hf
    -- one of the two events does not belong to the piece
    have : ∃ k < h.count, k ≠ i ∧ (h.segment k).IsEnd q ∧ h.evStart e = q ∧
        (h.lefts k).data.fromResult = false := by
      by_cases hk : h.primary e = i
      · refine ⟨h.primary f, of.1.primary M.ok, ?_, ?_, e2, h1 f hf f2⟩
        · intro hk'
          apply hne
          show h.first (h.primary e) = h.first (h.primary f)
          rw [hk, hk']
        · have := ev_end M.ok of.1
          rwa [f2] at this
      · refine ⟨h.primary e, oe.1.primary M.ok, hk, ?_, e2, h1 e he e2⟩
        have := ev_end M.ok oe.1
        rwa [e2] at this
    obtain ⟨k, hk, hki, hend, -, hkr⟩ := this
    have hqk : q ∈ (h.segment k).pts := by
      rcases hend with e | e <;> rw [e]
      exacts [Segment.start_mem _, Segment.stop_mem _]
    have hendi : (h.segment i).IsEnd q := by
      rcases M.fin.pair i hiF k hk with ⟨e, -⟩ | hh
      · rw [e]; exact hend
      · exact (hh q hqi hqk).1
    obtain ⟨x, hx1, hx2, hx3⟩ := end_ev M.ok hin hendi
    have hs : stop q = false := by rw [← e2]; exact oe.2
    have := h1 x ((mems x).2 ⟨hx1, by rw [hx2]; exact hs⟩) hx2
    rw [hx3, hr] at this
    cases this
  refine ⟨?_, ?_, ?_, noRes⟩
  · intro q
    constructor
    · rintro (hq | hq)
      · obtain ⟨-, e, he, f, hf, e2, f2, hne⟩ := (memP q).1 hq
        have oe := (mems e).1 he
        have of := (mems f).1 hf
        have me := ev_end M.ok oe.1
        have mf := ev_end M.ok of.1
        rw [e2] at me
        rw [f2] at mf
        have pe : q ∈ (h.segment (h.primary e)).pts := by
          rcases me with e | e <;> rw [e]
          exacts [Segment.start_mem _, Segment.stop_mem _]
        have pf : q ∈ (h.segment (h.primary f)).pts := by
          rcases mf with e | e <;> rw [e]
          exacts [Segment.start_mem _, Segment.stop_mem _]
        have be := oe.1.primary M.ok
        have bf := of.1.primary M.ok
        cases h1 : h.evFirst e <;> cases h3 : h.evFirst f
        · exact absurd (h1.trans h3.symm) hne
        · exact ⟨M.fin.mem_left.2 ⟨_, bf, h3, pf⟩, Or.inl (M.fin.mem_right.2 ⟨_, be, h1, pe⟩)⟩
        · exact ⟨M.fin.mem_left.2 ⟨_, be, h1, pe⟩, Or.inl (M.fin.mem_right.2 ⟨_, bf, h3, pf⟩)⟩
        · exact absurd (h1.trans h3.symm) hne
      · obtain ⟨i, hi, hr, hqi⟩ := mem_resultPts.1 hq
        exact (M.selected_in hE hx ((his i).1 hi) hr).2 hqi
    · rintro ⟨h1, h2⟩
      by_cases hq : q ∈ segsPts (resultSegments h is)
      · exact Or.inr hq
      · left
        have hno : ∀ i, Ev.left i ∈ log.map Prod.fst → (h.lefts i).data.fromResult = true →
            q ∉ (h.segment i).pts := fun i hi hr hqi =>
          hq (mem_resultPts.2 ⟨i, (his i).2 hi, hr, hqi⟩)
        obtain ⟨hs, ⟨i, hi, hif, hie⟩, k, hk, hkf, hke⟩ := M.unselected hE hmono hx h1 h2 hno
        obtain ⟨e, oe, e2, e3⟩ := end_ev M.ok hi hie
        obtain ⟨f, of, f2, f3⟩ := end_ev M.ok hk hke
        refine (memP q).2 ⟨?_, e, (mems e).2 ⟨oe, by rw [e2]; exact hs⟩, f,
          (mems f).2 ⟨of, by rw [f2]; exact hs⟩, e2, f2, ?_⟩
        · intro x hx xq
          obtain ⟨ox, xs⟩ := (mems x).1 hx
          have bx := ox.primary M.ok
          by_contra hc
          refine hno (h.primary x) ?_ (by simpa using hc) ?_
          · rw [M.mem]
            refine ⟨bx, ?_⟩
            by_contra hc'
            have hle : h.start (h.primary x) ≤ h.evStart x := by
              rcases ev_end M.ok ox with e | e <;> rw [e]
              · exact le_rfl
              · exact (M.fin.lt _ bx).le
            have hst : stop (h.start (h.primary x)) = true := by
              show stop (h.evStart (.left (h.primary x))) = true
              simpa using hc'
            rw [mono _ _ hle hst] at xs
            cases xs
          · have := ev_end M.ok ox
            rw [xq] at this
            rcases this with e | e <;> rw [e]
            exacts [Segment.start_mem _, Segment.stop_mem _]
        · show h.first (h.primary e) ≠ h.first (h.primary f)
          rw [e3, f3, hif, hkf]; simp
  · rw [hps]
    unfold commonPoints
    exact (groupRuns_nodup ct).sublist (List.Sublist.map _ List.filter_sublist)
  · rw [hps]
    unfold commonPoints
    have : ((groupRuns h.evStart events).map Prod.fst).Pairwise (· ≤ ·) := by
      have hs : (events.map h.evStart).Pairwise (· ≤ ·) := List.pairwise_map.2 sorted
      exact hs.sublist (groupRuns_keys events)
    exact this.sublist (List.Sublist.map _ List.filter_sublist)

end MixedEnd

end Clipping

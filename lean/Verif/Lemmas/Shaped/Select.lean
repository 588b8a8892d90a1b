import Verif.Lemmas.Shaped.Core
import Verif.Lemmas.Region.OverlayBoundary
import Verif.Spec.Overlay

/-!
# The events of the result
-/

namespace Clipping

open Sweep

/-- the segments of left events -/
def leftEdges (h : Heap ShapedData) (events : List Ev) : List Segment :=
  events.filterMap fun e => match e with
    | .left i => some (h.segment i)
    | .right _ => none

/-- the numbers of left events -/
def leftIds (events : List Ev) : List ℕ :=
  events.filterMap fun e => match e with
    | .left i => some i
    | .right _ => none

theorem leftEdges_eq (h : Heap ShapedData) (events : List Ev) : leftEdges h events = (leftIds events).map h.segment := by
  unfold leftEdges leftIds
  rw [List.map_filterMap]
  congr 1
  funext e
  cases e <;> rfl

theorem mem_leftIds {events : List Ev} {i : ℕ} : i ∈ leftIds events ↔ Ev.left i ∈ events := by
  unfold leftIds
  rw [List.mem_filterMap]
  constructor
  · rintro ⟨e, he, h⟩
    cases e with
    | left j => cases h; exact he
    | right j => cases h
  · intro h; exact ⟨_, h, rfl⟩

theorem leftIds_nodup {events : List Ev} (h : events.Nodup) : (leftIds events).Nodup := by
  unfold leftIds
  refine List.Nodup.filterMap ?_ h
  intro e e' i h1 h2
  cases e <;> cases e' <;> simp at h1 h2
  rw [h1, h2]

theorem opProp_iff (op : Bool → Bool → Bool) (A B : List Segment) (m : Point) :
    opProp op (Inside A m) (Inside B m) ↔ Combined op A B m :=
  opProp_true (by rw [decide_eq_true_eq]) (by rw [decide_eq_true_eq])

/-- What the tracing of contours needs to know of the events of the result. -/
structure Selected (h : Heap ShapedData) (events : List Ev) : Prop where
  ok : HeapOk h
  nodup : events.Nodup
  evOk : ∀ e ∈ events, EvOk h e
  lt : ∀ i, Ev.left i ∈ events → h.start i < h.stop i
  opposite : ∀ e ∈ events, h.opposite e ∈ events
  endsOnly : EndsOnly (leftEdges h events)
  even : ∀ q, Even (degree (leftEdges h events) q)

theorem ShapedEnd.selected_mem {op : Bool → Bool → Bool} {h : Heap ShapedData} {events : List Ev} {stop : Point → Bool}
    {A B : List Segment} (E : ShapedEnd op h events stop A B) (e : Ev) :
    e ∈ events.filter (fromResult h) ↔ EvOk h e ∧ h.primary e ∈ resultLefts h events := by
  have fin : ∀ i, i ∈ finishedLefts h events ↔ ∃ j, Ev.right j ∈ events ∧ (h.rights j).left = i := by
    intro i
    unfold finishedLefts
    rw [List.mem_filterMap]
    constructor
    · rintro ⟨e, he, h1⟩
      cases e with
      | left j => cases h1
      | right j => cases h1; exact ⟨j, he, rfl⟩
    · rintro ⟨j, hj, rfl⟩; exact ⟨_, hj, rfl⟩
  rw [List.mem_filter]
  have hF : fromResult h e = true ↔ (h.lefts (h.primary e)).data.fromShapedResult = true := Iff.rfl
  constructor
  · rintro ⟨he, hr⟩
    refine ⟨((E.mem e).1 he).1, ?_⟩
    cases e with
    | left i => exact E.both i he hr
    | right j => exact List.mem_filter.2 ⟨(fin _).2 ⟨j, he, rfl⟩, hr⟩
  · rintro ⟨hok, hr⟩
    have hr' := List.mem_filter.1 hr
    refine ⟨?_, hr'.2⟩
    obtain ⟨j, hj, hji⟩ := (fin _).1 hr'.1
    cases e with
    | left i =>
      rw [E.mem]
      refine ⟨hok, ?_⟩
      have hs := ((E.mem _).1 hj).2
      rw [evStart_right E.ok ((E.mem _).1 hj).1, hji] at hs
      by_contra hcon
      rw [Bool.not_eq_false] at hcon
      have hlt := E.fin.lt i hok
      have := E.mono _ _ hlt.le hcon
      exact absurd (this.symm.trans hs) (by simp)
    | right j' =>
      have e1 := E.ok.rl j ((E.mem _).1 hj).1
      have e2 := E.ok.rl j' hok
      rw [hji] at e1
      have : j' = j := e2.symm.trans e1
      rw [this]; exact hj

theorem ShapedEnd.selected_perm {op : Bool → Bool → Bool} {h : Heap ShapedData} {events : List Ev} {stop : Point → Bool}
    {A B : List Segment} (E : ShapedEnd op h events stop A B) :
    (leftEdges h (events.filter (fromResult h))).Perm (resultEdges h events) := by
  rw [leftEdges_eq]
  refine List.Perm.map _ ?_
  refine (List.perm_ext_iff_of_nodup (leftIds_nodup (E.nodup.filter _)) (E.fin.nodup.filter _)).2 ?_
  intro i
  rw [mem_leftIds, E.selected_mem]
  refine ⟨fun h => h.2, fun hi => ⟨E.fin.bound i (List.mem_filter.1 hi).1, hi⟩⟩

theorem ShapedEnd.selected {op : Bool → Bool → Bool} {h : Heap ShapedData} {events : List Ev} {stop : Point → Bool}
    {A B : List Segment} (E : ShapedEnd op h events stop A B) : Selected h (events.filter (fromResult h)) where
  ok := E.ok
  nodup := E.nodup.filter _
  evOk e he := ((E.selected_mem e).1 he).1
  lt i hi := E.fin.lt i ((E.selected_mem _).1 hi).1
  opposite e he := by
    rw [E.selected_mem] at he ⊢
    cases e with
    | left i =>
      refine ⟨E.ok.rlt i he.1, ?_⟩
      change (h.rights (h.lefts i).right).left ∈ _
      rw [E.ok.lr i he.1]
      exact he.2
    | right j => exact ⟨E.ok.llt j he.1, he.2⟩
  endsOnly := (E.selected_perm.pairwise_iff (fun {a b} h q h1 h2 => (h q h2 h1).symm)).2 E.endsOnly
  even q := by rw [degree_perm E.selected_perm]; exact E.overlay.even q

theorem ShapedEnd.isBoundaryOf {op : Bool → Bool → Bool} {h : Heap ShapedData} {events : List Ev} {stop : Point → Bool}
    {A B : List Segment} (E : ShapedEnd op h events stop A B) :
    IsBoundaryOf op A B (leftEdges h (events.filter (fromResult h))) := by
  have perm := E.selected_perm
  have hm : ∀ t, t ∈ leftEdges h (events.filter (fromResult h)) ↔ t ∈ resultEdges h events := fun t => perm.mem_iff
  have sp : ∀ {q}, q ∉ segsPts (A ++ B) → q ∉ segsPts A ∧ q ∉ segsPts B := by
    intro q hq
    rw [segsPts_append] at hq
    exact ⟨fun h => hq (Or.inl h), fun h => hq (Or.inr h)⟩
  refine ⟨fun t ht => E.overlay.proper t ((hm t).1 ht), fun t ht => E.overlay.sub t ((hm t).1 ht), E.selected.endsOnly,
    E.selected.even, fun q hq => ?_, fun m hv => ?_⟩
  · rw [inside_perm perm, E.overlay.inside (sp hq).1 (sp hq).2, opProp_iff]
  · rw [segsPts_perm perm, E.overlay.separates E.endsOnly hv]
    unfold SeparatesProp Separates
    simp only [opProp_iff]

end Clipping

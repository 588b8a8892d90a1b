import Verif.Spec.Complete
import Verif.Lemmas.Shaped.Marks
import Verif.Lemmas.Region.Closed
import Verif.Lemmas.Mixed.Complete

/-!
# Common points, segments and regions of two shaped operands
-/

namespace Clipping

open Sweep

theorem mem_touchPoints {h : Heap ShapedData} {events : List Ev}
    (sorted : events.Pairwise fun e f => h.evStart e ≤ h.evStart f) {q : Point} :
    q ∈ touchPoints h (groupRuns h.evStart events) ↔
      (∀ e ∈ events, h.evStart e = q → (h.lefts (h.primary e)).data.whollyInCompleteIntersection = false) ∧
      ∃ e ∈ events, ∃ f ∈ events, h.evStart e = q ∧ h.evStart f = q ∧ h.evFirst e ≠ h.evFirst f := by
  have ct := contig_of_sorted h.evStart sorted
  unfold touchPoints
  rw [List.mem_map]
  constructor
  · rintro ⟨⟨k, g⟩, hg, rfl⟩
    rw [List.mem_filter, groupRuns_mem ct] at hg
    obtain ⟨⟨-, rfl⟩, hc⟩ := hg
    simp only [Bool.not_eq_true', Bool.or_eq_false_iff] at hc
    obtain ⟨c1, c2⟩ := hc
    constructor
    · intro e he hek
      have := List.any_eq_false.1 c1 e (List.mem_filter.2 ⟨he, by simpa using hek⟩)
      simpa using this
    · rw [← Bool.not_eq_true, allEqual_iff] at c2
      push Not at c2
      obtain ⟨u, hu, v, hv, huv⟩ := c2
      obtain ⟨e, he, rfl⟩ := List.mem_map.1 hu
      obtain ⟨f, hf, rfl⟩ := List.mem_map.1 hv
      obtain ⟨e1, e2⟩ := List.mem_filter.1 he
      obtain ⟨f1, f2⟩ := List.mem_filter.1 hf
      exact ⟨e, e1, f, f1, of_decide_eq_true e2, of_decide_eq_true f2, huv⟩
  · rintro ⟨h1, e, he, f, hf, e2, f2, hne⟩
    refine ⟨(q, events.filter fun x => decide (h.evStart x = q)), ?_, rfl⟩
    rw [List.mem_filter, groupRuns_mem ct]
    refine ⟨⟨⟨e, he, e2⟩, rfl⟩, ?_⟩
    simp only [Bool.not_eq_true', Bool.or_eq_false_iff]
    constructor
    · rw [List.any_eq_false]
      intro x hx
      obtain ⟨x1, x2⟩ := List.mem_filter.1 hx
      rw [h1 x x1 (of_decide_eq_true x2)]
      simp
    · rw [← Bool.not_eq_true, allEqual_iff]
      intro hh
      refine hne (hh _ (List.mem_map_of_mem ?_) _ (List.mem_map_of_mem ?_))
      · exact List.mem_filter.2 ⟨he, by simpa using e2⟩
      · exact List.mem_filter.2 ⟨hf, by simpa using f2⟩

theorem mem_commonEdges {h : Heap ShapedData} {events : List Ev} {t : Segment} :
    t ∈ commonEdges h events ↔ ∃ i, Ev.left i ∈ events ∧ h.first i = true ∧
      (h.lefts i).data.overlapKind = .different ∧ h.segment i = t := by
  unfold commonEdges
  rw [List.mem_filterMap]
  constructor
  · rintro ⟨e, he, hh⟩
    cases e with
    | right j => cases hh
    | left i =>
      simp only at hh
      split at hh
      · rename_i hc
        rw [Bool.and_eq_true] at hc
        cases hh
        exact ⟨i, he, hc.1, of_decide_eq_true hc.2, rfl⟩
      · cases hh
  · rintro ⟨i, hi, h1, h2, rfl⟩
    refine ⟨_, hi, ?_⟩
    simp only [ShapedData.isCommonPolylineComponent, h1, h2]
    simp

/-- numbers of the common edges -/
def commonIds (h : Heap ShapedData) (events : List Ev) : List ℕ :=
  (leftIds events).filter fun i => h.first i && (h.lefts i).data.isCommonPolylineComponent

theorem commonEdges_eq (h : Heap ShapedData) (events : List Ev) :
    commonEdges h events = (commonIds h events).map h.segment := by
  unfold commonEdges commonIds leftIds
  rw [List.filter_filterMap, List.map_filterMap]
  congr 1
  funext e
  cases e with
  | right j => rfl
  | left i =>
    simp only [Option.filter]
    split <;> simp_all

variable {op : Bool → Bool → Bool} {h : Heap ShapedData} {events : List Ev} {xmax : Option ℚ} {A B : List Segment}

theorem ShapedEnd.complete (E : ShapedEnd (fun a b => a && b) h events (stopAt xmax) A B)
    (M : MarkedEnd intersectionRule h events) (hst : StopOk (fun a b => a && b) xmax A B) {es : List Ev}
    (perm : es.Perm events) (sorted : es.Pairwise fun e f => h.evStart e ≤ h.evStart f) :
    CompleteParts (regionPts A) (regionPts B) (touchPoints h (groupRuns h.evStart es)) (commonEdges h es)
      (regionPts (resultEdges h events)) := by
  have ct := contig_of_sorted h.evStart sorted
  have hA := E.overlay.hA
  have hB := E.overlay.hB
  set R := resultEdges h events with hR
  set F := finishedLefts h events with hF
  have mems : ∀ e, e ∈ es ↔ EvOk h e ∧ stopAt xmax (h.evStart e) = false := fun e => by
    rw [perm.mem_iff]; exact E.mem e
  have noR := E.noOverlap
  have evR := E.overlay.even
  have pU : ∀ s ∈ A ++ B, s.Proper := by
    intro s hs
    rcases List.mem_append.1 hs with h | h
    exacts [hA.noOverlap.1 s h, hB.noOverlap.1 s h]
  have insR : ∀ z, z ∉ segsPts (A ++ B) → (Inside R z ↔ Inside A z ∧ Inside B z) := by
    intro z hz
    have h1 := E.isBoundaryOf.inside z hz
    have h2 : Inside (leftEdges h (events.filter (fromResult h))) z ↔ Inside R z := by
      unfold Inside; rw [E.selected_perm.countP_eq]
    rw [← h2, h1]
    simp [Combined]
  have isR : ∀ i, i ∈ resultLefts h events ↔ i ∈ F ∧ (h.lefts i).data.fromShapedResult = true := by
    intro i; rw [resultLefts, List.mem_filter]
  have memR : ∀ q, q ∈ segsPts R ↔ ∃ i ∈ F, (h.lefts i).data.fromShapedResult = true ∧ q ∈ (h.segment i).pts := by
    intro q
    constructor
    · rintro ⟨t, ht, hq⟩
      obtain ⟨i, hi, rfl⟩ := List.mem_map.1 ht
      exact ⟨i, ((isR i).1 hi).1, ((isR i).1 hi).2, hq⟩
    · rintro ⟨i, hi, h1, h2⟩
      exact ⟨_, List.mem_map_of_mem ((isR i).2 ⟨hi, h1⟩), h2⟩
  -- the region is in both regions
  have sub : ∀ q ∈ regionPts R, q ∈ regionPts A ∧ q ∈ regionPts B := by
    intro q hq
    have := (mem_region_iff noR evR pU).1 hq
    constructor
    · refine (mem_region_iff hA.noOverlap hA.even (X := []) (by simp)).2 fun δ hδ => ?_
      obtain ⟨z, z1, z2, z3, z4⟩ := this δ hδ
      exact ⟨z, z1, by rw [segsPts_nil]; exact Set.notMem_empty z,
        fun hz => z2 (by rw [segsPts_append]; exact Or.inl hz), ((insR z z2).1 z4).1⟩
    · refine (mem_region_iff hB.noOverlap hB.even (X := []) (by simp)).2 fun δ hδ => ?_
      obtain ⟨z, z1, z2, z3, z4⟩ := this δ hδ
      exact ⟨z, z1, by rw [segsPts_nil]; exact Set.notMem_empty z,
        fun hz => z2 (by rw [segsPts_append]; exact Or.inr hz), ((insR z z2).1 z4).2⟩
  -- its points on edges of the operands are on edges of the result
  have onR : ∀ q ∈ segsPts (A ++ B), q ∈ regionPts R → q ∈ segsPts R := by
    intro q hq hr
    by_contra hn
    have hin : Inside R q := by
      rcases hr with g | g
      · exact absurd g hn
      · exact g
    obtain ⟨κ, κ0, hκ⟩ := exists_near_off_all noR.1 hn
    have ins : ∀ z, Near κ q z → z ∉ segsPts (A ++ B) → Inside A z ∧ Inside B z := by
      intro z hz hzu
      exact (insR z hzu).1 ((inside_const noR.1 evR (s := ⟨q, z⟩) fun r hr => hκ r (hz.path r hr)).1 hin)
    rw [segsPts_append] at hq
    rcases hq with g | g
    · obtain ⟨z, z1, z2, -, z4⟩ := (near_both hA.noOverlap hA.even g pU κ0).2
      exact z4 (ins z z1 z2).1
    · obtain ⟨z, z1, z2, -, z4⟩ := (near_both hB.noOverlap hB.even g pU κ0).2
      exact z4 (ins z z1 z2).2
  have memU : ∀ {i q}, i < h.count → q ∈ (h.segment i).pts → q ∈ segsPts (A ++ B) := by
    intro i q hi hq
    rw [segsPts_append]
    cases hf : h.first i
    · exact Or.inr (E.fin.mem_right.2 ⟨i, hi, hf, hq⟩)
    · exact Or.inl (E.fin.mem_left.2 ⟨i, hi, hf, hq⟩)
  have endMem : ∀ {s : Segment} {q : Point}, s.IsEnd q → q ∈ s.pts := by
    rintro s q (e | e) <;> rw [e]
    exacts [Segment.start_mem _, Segment.stop_mem _]
  -- common points are passed
  have stopq : ∀ q, q ∈ segsPts A → q ∈ segsPts B → stopAt xmax q = false := by
    intro q h1 h2
    unfold stopAt
    cases hx : xmax with
    | none => rfl
    | some xm =>
      have : q.x ≤ xm := by
        rcases (hst xm hx).1 with g | g
        · exact g q h1
        · exact g.1 q h2
      simpa using this
  have leftEv : ∀ {x}, EvOk h x → stopAt xmax (h.evStart x) = false → Ev.left (h.primary x) ∈ events := by
    intro x ox xs
    have bx := ox.primary E.ok
    rw [E.mem]
    refine ⟨bx, ?_⟩
    by_contra hc'
    have hle : h.start (h.primary x) ≤ h.evStart x := by
      rcases MixedEnd.ev_end E.ok ox with e | e <;> rw [e]
      · exact le_rfl
      · exact (E.fin.lt _ bx).le
    have hst : stopAt xmax (h.start (h.primary x)) = true := by
      show stopAt xmax (h.evStart (.left (h.primary x))) = true
      simpa using hc'
    rw [E.mono _ _ hle hst] at xs
    cases xs
  have leftF : ∀ i ∈ F, Ev.left i ∈ events := by
    intro i hi
    rw [E.mem]
    have hin := E.fin.bound i hi
    refine ⟨hin, ?_⟩
    by_contra hc
    have := (E.fin.done i hin).1 hi
    rw [E.mono _ _ (E.fin.lt i hin).le (by
      show stopAt xmax (h.evStart (.left i)) = true
      simpa using hc)] at this
    cases this
  -- pieces which are marked as common
  have com : ∀ n < h.count, (h.lefts n).data.overlapKind = .different → n ∈ F ∧
      (h.lefts n).data.fromShapedResult = false ∧ ∃ k ∈ F, k ≠ n ∧ h.segment k = h.segment n ∧
        (h.lefts k).data.overlapKind = .different ∧ h.first k ≠ h.first n := by
    intro n hn hk
    obtain ⟨k, hkn, hne, hs⟩ : ∃ k < h.count, k ≠ n ∧ h.segment k = h.segment n := by
      by_contra hc
      push Not at hc
      rw [M.free n hn hc] at hk
      cases hk
    have hop := E.fin.op k hkn n hn hne hs
    have e2 : h.stop k = h.stop n := congrArg Segment.stop hs
    have iff : k ∈ F ↔ n ∈ F := by
      rw [E.fin.done k hkn, e2, ← E.fin.done n hn]
    have hnF : n ∈ F := by
      by_contra hc
      refine hc (iff.1 (M.finall (h.first k) n hn ?_ hc k hkn rfl))
      revert hop
      cases h.first k <;> cases h.first n <;> simp
    have hkF := iff.2 hnF
    refine ⟨hnF, ?_, k, hkF, hne, hs, ?_, hop⟩
    · rw [M.res n hnF, hk]
      cases h.first n <;> cases (h.lefts n).data.otherInteriorToLeft <;> rfl
    · rw [M.mark k hkF n hn hne.symm hs.symm, overlapKindOf_comm, ← M.mark n hnF k hkn hne hs, hk]
  have comEdge : ∀ n < h.count, (h.lefts n).data.overlapKind = .different → h.segment n ∈ commonEdges h es := by
    intro n hn hk
    obtain ⟨hnF, -, k, hkF, -, hs, hk', hop⟩ := com n hn hk
    rw [mem_commonEdges]
    cases hf : h.first n
    · refine ⟨k, perm.mem_iff.2 (leftF k hkF), ?_, hk', hs⟩
      rw [hf] at hop
      simpa using hop
    · exact ⟨n, perm.mem_iff.2 (leftF n hnF), hf, hk, rfl⟩
  have edgeCom : ∀ t ∈ commonEdges h es, ∃ i ∈ F, h.first i = true ∧ (h.lefts i).data.overlapKind = .different ∧
      (h.lefts i).data.fromShapedResult = false ∧ h.segment i = t := by
    intro t ht
    obtain ⟨i, hi, h1, h2, h3⟩ := mem_commonEdges.1 ht
    have hin : i < h.count := ((E.mem _).1 (perm.mem_iff.1 hi)).1
    obtain ⟨g1, g2, -⟩ := com i hin h2
    exact ⟨i, g1, h1, h2, g2, h3⟩
  -- no touch points on pieces of the complete intersection
  have clear : ∀ i ∈ F, (h.lefts i).data.whollyInCompleteIntersection = true → ∀ q ∈ (h.segment i).pts,
      q ∉ touchPoints h (groupRuns h.evStart es) := by
    intro i hiF hw q hqi hq
    obtain ⟨h1, e, he, f, hf, e2, f2, hne⟩ := (mem_touchPoints sorted).1 hq
    have hin := E.fin.bound i hiF
    have oe := (mems e).1 he
    have of := (mems f).1 hf
    have : ∃ k < h.count, k ≠ i ∧ (h.segment k).IsEnd q := by
      by_cases hk : h.primary e = i
      · refine ⟨h.primary f, of.1.primary E.ok, ?_, ?_⟩
        · intro hk'
          apply hne
          show h.first (h.primary e) = h.first (h.primary f)
          rw [hk, hk']
        · have := MixedEnd.ev_end E.ok of.1
          rwa [f2] at this
      · refine ⟨h.primary e, oe.1.primary E.ok, hk, ?_⟩
        have := MixedEnd.ev_end E.ok oe.1
        rwa [e2] at this
    obtain ⟨k, hk, hki, hend⟩ := this
    have hendi : (h.segment i).IsEnd q := by
      rcases E.fin.pair i hiF k hk with ⟨e, -⟩ | hh
      · rw [e]; exact hend
      · exact (hh q hqi (endMem hend)).1
    obtain ⟨x, hx1, hx2, hx3⟩ := MixedEnd.end_ev E.ok hin hendi
    have hs : stopAt xmax q = false := by rw [← e2]; exact oe.2
    have := h1 x ((mems x).2 ⟨hx1, by rw [hx2]; exact hs⟩) hx2
    rw [hx3, hw] at this
    cases this
  have touchU : ∀ q ∈ touchPoints h (groupRuns h.evStart es), q ∈ segsPts A ∧ q ∈ segsPts B := by
    intro q hq
    obtain ⟨-, e, he, f, hf, e2, f2, hne⟩ := (mem_touchPoints sorted).1 hq
    have oe := (mems e).1 he
    have of := (mems f).1 hf
    have pe : q ∈ (h.segment (h.primary e)).pts := by
      have := endMem (MixedEnd.ev_end E.ok oe.1)
      rwa [e2] at this
    have pf : q ∈ (h.segment (h.primary f)).pts := by
      have := endMem (MixedEnd.ev_end E.ok of.1)
      rwa [f2] at this
    have be := oe.1.primary E.ok
    have bf := of.1.primary E.ok
    cases h1 : h.evFirst e <;> cases h3 : h.evFirst f
    · exact absurd (h1.trans h3.symm) hne
    · exact ⟨E.fin.mem_left.2 ⟨_, bf, h3, pf⟩, E.fin.mem_right.2 ⟨_, be, h1, pe⟩⟩
    · exact ⟨E.fin.mem_left.2 ⟨_, be, h1, pe⟩, E.fin.mem_right.2 ⟨_, bf, h3, pf⟩⟩
    · exact absurd (h1.trans h3.symm) hne
  have noTouch : ∀ q ∈ touchPoints h (groupRuns h.evStart es), q ∉ segsPts (commonEdges h es) ∧ q ∉ regionPts R := by
    intro q hq
    constructor
    · rintro ⟨t, ht, hqt⟩
      obtain ⟨i, hi, -, h2, -, rfl⟩ := edgeCom t ht
      refine clear i hi ?_ q hqt hq
      simp [ShapedData.whollyInCompleteIntersection, ShapedData.isCommonPolylineComponent, h2]
    · intro hr
      obtain ⟨i, hi, h1, h2⟩ := (memR q).1 (onR q (by rw [segsPts_append]; exact Or.inl (touchU q hq).1) hr)
      refine clear i hi ?_ q h2 hq
      simp [ShapedData.whollyInCompleteIntersection, h1]
  refine ⟨?_, ?_, ?_, noTouch, ?_, ?_, ?_⟩
  · intro q
    constructor
    · rintro (hq | hq | hq)
      · exact ⟨Or.inl (touchU q hq).1, Or.inl (touchU q hq).2⟩
      · obtain ⟨t, ht, hqt⟩ := hq
        obtain ⟨i, hi, h1, h2, -, rfl⟩ := edgeCom t ht
        have hin := E.fin.bound i hi
        obtain ⟨-, -, k, hk, -, hs, -, hop⟩ := com i hin h2
        refine ⟨Or.inl (E.fin.mem_left.2 ⟨i, hin, h1, hqt⟩), Or.inl (E.fin.mem_right.2 ⟨k, E.fin.bound k hk, ?_, ?_⟩)⟩
        · rw [h1] at hop; simpa using hop
        · rw [hs]; exact hqt
      · exact sub q hq
    · rintro ⟨h1, h2⟩
      by_cases hq : q ∈ regionPts R
      · exact Or.inr (Or.inr hq)
      · have hqR : q ∉ segsPts R := fun hh => hq (Or.inl hh)
        have nin : ¬ Inside R q := fun hh => hq (Or.inr hh)
        obtain ⟨κ, κ0, hκ⟩ := exists_near_off_all noR.1 hqR
        have out : ∀ z, Near κ q z → z ∉ segsPts (A ++ B) → ¬ (Inside A z ∧ Inside B z) := by
          intro z hz hzu hh
          exact nin ((inside_const noR.1 evR (s := ⟨q, z⟩) fun r hr => hκ r (hz.path r hr)).2 ((insR z hzu).2 hh))
        have side : ∀ {A' B' : List Segment}, IsBoundary A' → IsBoundary B' →
            (∀ z, Near κ q z → z ∉ segsPts (A ++ B) → ¬ (Inside A' z ∧ Inside B' z)) →
            q ∈ regionPts A' → q ∈ regionPts B' → q ∈ segsPts A' := by
          intro A' B' hA hB out h1 h2
          by_contra hn
          have hin : Inside A' q := by
            rcases h1 with g | g
            · exact absurd g hn
            · exact g
          obtain ⟨η, η0, hη⟩ := exists_near_off_all hA.noOverlap.1 hn
          obtain ⟨z, z1, z2, -, z4⟩ := (mem_region_iff hB.noOverlap hB.even pU).1 h2 _ (lt_min κ0 η0)
          have zn := z1.mono (min_le_right κ η)
          exact out z (z1.mono (min_le_left _ _)) z2 ⟨(inside_const hA.noOverlap.1 hA.even (s := ⟨q, z⟩)
            fun r hr => hη r (zn.path r hr)).1 hin, z4⟩
        have qA := side hA hB out h1 h2
        have qB := side hB hA (fun z z1 z2 hh => out z z1 z2 hh.symm) h2 h1
        obtain ⟨i, hi, hfi, hqi⟩ := E.fin.mem_left.1 qA
        obtain ⟨k, hk, hfk, hqk⟩ := E.fin.mem_right.1 qB
        have cases2 : (h.segment i = h.segment k ∧ i ∈ F ∧ k ∈ F) ∨
            ((h.segment i).IsEnd q ∧ (h.segment k).IsEnd q) := by
          by_cases hiF : i ∈ F
          · rcases E.fin.pair i hiF k hk with ⟨e, g⟩ | g
            · exact Or.inl ⟨e, hiF, g⟩
            · exact Or.inr (g q hqi hqk)
          · have hkF := M.finall false i hi (by rw [hfi]; rfl) hiF k hk hfk
            rcases E.fin.pair k hkF i hi with ⟨e, g⟩ | g
            · exact absurd g hiF
            · exact Or.inr (g q hqk hqi).symm
        have hik : k ≠ i := by rintro rfl; rw [hfi] at hfk; cases hfk
        rcases cases2 with ⟨hs, hiF, hkF⟩ | ⟨ei, ek⟩
        · have mi := M.mark i hiF k hk hik hs.symm
          have mk := M.mark k hkF i hi hik.symm hs
          right; left
          by_cases hd : (h.lefts i).data.interiorToLeft = (h.lefts k).data.interiorToLeft
          · exfalso
            rw [overlapKindOf, if_pos hd.symm] at mk
            refine hqR ((memR q).2 ⟨k, hkF, ?_, hqk⟩)
            rw [M.res k hkF, mk, hfk]
            cases (h.lefts k).data.otherInteriorToLeft <;> rfl
          · rw [overlapKindOf, if_neg hd] at mi
            exact ⟨_, comEdge i hi mi, hqi⟩
        · have hs := stopq q qA qB
          obtain ⟨e, oe, e2, e3⟩ := MixedEnd.end_ev E.ok hi ei
          obtain ⟨f, of, f2, f3⟩ := MixedEnd.end_ev E.ok hk ek
          by_cases hw : ∃ x ∈ es, h.evStart x = q ∧ (h.lefts (h.primary x)).data.whollyInCompleteIntersection = true
          · obtain ⟨x, hx, xq, xw⟩ := hw
            obtain ⟨ox, xs⟩ := (mems x).1 hx
            have bx := ox.primary E.ok
            have qx : q ∈ (h.segment (h.primary x)).pts := by
              have := endMem (MixedEnd.ev_end E.ok ox)
              rwa [xq] at this
            unfold ShapedData.whollyInCompleteIntersection at xw
            rw [Bool.or_eq_true] at xw
            rcases xw with xw | xw
            · have := (isR _).1 (E.both _ (leftEv ox xs) xw)
              exact absurd ((memR q).2 ⟨_, this.1, xw, qx⟩) hqR
            · right; left
              exact ⟨_, comEdge _ bx (of_decide_eq_true xw), qx⟩
          · left
            push Not at hw
            refine (mem_touchPoints sorted).2 ⟨fun x hx xq => by simpa using hw x hx xq, e,
              (mems e).2 ⟨oe, by rw [e2]; exact hs⟩, f, (mems f).2 ⟨of, by rw [f2]; exact hs⟩, e2, f2, ?_⟩
            show h.first (h.primary e) ≠ h.first (h.primary f)
            rw [e3, f3, hfi, hfk]; simp
  · unfold touchPoints
    exact (groupRuns_nodup ct).sublist (List.Sublist.map _ List.filter_sublist)
  · unfold touchPoints
    have : ((groupRuns h.evStart es).map Prod.fst).Pairwise (· ≤ ·) := by
      have hs : (es.map h.evStart).Pairwise (· ≤ ·) := List.pairwise_map.2 sorted
      exact hs.sublist (groupRuns_keys es)
    exact this.sublist (List.Sublist.map _ List.filter_sublist)
  · intro t ht
    obtain ⟨i, hi, -, -, -, rfl⟩ := edgeCom t ht
    exact E.fin.lt i (E.fin.bound i hi)
  · rw [commonEdges_eq, EndsOnly, List.pairwise_map]
    have nd : (commonIds h es).Nodup := (leftIds_nodup (perm.nodup_iff.2 E.nodup)).filter _
    have get : ∀ i ∈ commonIds h es, i ∈ F ∧ h.first i = true := by
      intro i hi
      obtain ⟨h1, h2⟩ := List.mem_filter.1 hi
      rw [Bool.and_eq_true] at h2
      rw [mem_leftIds, perm.mem_iff, E.mem] at h1
      exact ⟨(com i h1.1 (of_decide_eq_true h2.2)).1, h2.1⟩
    refine List.Pairwise.imp_of_mem ?_ nd
    intro i j hi hj hij
    obtain ⟨hi1, hi2⟩ := get i hi
    obtain ⟨hj1, hj2⟩ := get j hj
    rcases E.fin.pair i hi1 j (E.fin.bound j hj1) with ⟨e, -⟩ | g
    · exact absurd (hi2.trans hj2.symm) (E.fin.op i (E.fin.bound i hi1) j (E.fin.bound j hj1) hij e)
    · exact g
  · intro t ht q hqt hr
    obtain ⟨i, hi, -, h2, h3, rfl⟩ := edgeCom t ht
    have hin := E.fin.bound i hi
    obtain ⟨k, hk, h4, h5⟩ := (memR q).1 (onR q (memU hin hqt) hr)
    rcases E.fin.pair k hk i hin with ⟨e, -⟩ | g
    · exfalso
      by_cases hki : k = i
      · rw [hki, h3] at h4; cases h4
      · have mk := M.mark k hk i hin (Ne.symm hki) e.symm
        have mi := M.mark i hi k (E.fin.bound k hk) hki e
        rw [overlapKindOf_comm, ← mi, h2] at mk
        rw [(com k (E.fin.bound k hk) mk).2.1] at h4
        cases h4
    · exact (g q h5 hqt).2

end Clipping

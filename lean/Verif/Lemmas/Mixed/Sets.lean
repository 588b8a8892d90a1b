import Verif.Lemmas.Mixed.Core

/-!
# The segments selected by the sweep of a linear and a shaped operand
-/

namespace Clipping

open Sweep

theorem mem_leftsOf {h : Heap MixedData} {log : List (Ev × ℕ)} (pr : ∀ x ∈ log, x.2 = h.primary x.1) {i : ℕ} :
    i ∈ leftsOf log ↔ Ev.left i ∈ log.map Prod.fst := by
  unfold leftsOf
  rw [List.mem_filterMap, List.mem_map]
  constructor
  · rintro ⟨⟨e, j⟩, hx, hj⟩
    cases e with
    | left k =>
      have := pr _ hx
      simp only [Heap.isLeft, if_true, Option.some.injEq] at hj
      simp only [Heap.primary] at this
      exact ⟨_, hx, by rw [← this, hj]⟩
    | right k => simp [Heap.isLeft] at hj
  · rintro ⟨⟨e, j⟩, hx, rfl⟩
    refine ⟨_, hx, ?_⟩
    have := pr _ hx
    simp only [Heap.primary] at this
    simp [Heap.isLeft, this]

theorem mem_resultPts {h : Heap MixedData} {is : List ℕ} {q : Point} : q ∈ segsPts (resultSegments h is) ↔
    ∃ i ∈ is, (h.lefts i).data.fromResult = true ∧ q ∈ (h.segment i).pts := by
  unfold resultSegments segsPts
  constructor
  · rintro ⟨t, ht, hq⟩
    obtain ⟨i, hi, rfl⟩ := List.mem_map.1 ht
    obtain ⟨h1, h2⟩ := List.mem_filter.1 hi
    exact ⟨i, h1, h2, hq⟩
  · rintro ⟨i, h1, h2, hq⟩
    exact ⟨_, List.mem_map_of_mem (List.mem_filter.2 ⟨h1, h2⟩), hq⟩

namespace MixedEnd

variable {g : Bool → Bool} {h : Heap MixedData} {log : List (Ev × ℕ)} {stop : Point → Bool} {L E : List Segment}

/-- decisions -/
theorem cases (M : MixedEnd g h log stop L E) {i : ℕ} (hi : i ∈ rightsOf log) (hf : h.first i = true) :
    (h.lefts i).data.fromResult = g false ∨ (h.lefts i).data.fromResult = g true := by
  obtain ⟨m, m1, m2⟩ := exists_inner (e := h.segment i) (M.fin.lt i (M.fin.bound i hi)).ne
  have := M.sel i hi hf m m1 m2
  by_cases hm : m ∈ regionPts E
  · exact Or.inl (this.1 hm)
  · exact Or.inr (this.2 hm)

/-- A part of the linear operand decided to be inside is a part of the region. -/
theorem piece_in (M : MixedEnd g h log stop L E) (hE : IsBoundary E) (hg : g false ≠ g true) {i : ℕ}
    (hi : i ∈ rightsOf log) (hf : h.first i = true) (hr : (h.lefts i).data.fromResult = g false) :
    (h.segment i).pts ⊆ regionPts E := by
  intro m hm
  by_contra hmR
  have inn : ∀ m ∈ (h.segment i).pts, ¬ (h.segment i).IsEnd m → m ∈ regionPts E := by
    intro m h1 h2
    by_contra h3
    exact hg (hr.symm.trans ((M.sel i hi hf m h1 h2).2 h3))
  have pr : (h.segment i).Proper := (M.fin.lt i (M.fin.bound i hi)).ne
  obtain ⟨m₀, m1, m2⟩ := exists_inner pr
  have off : ∀ q ∈ (Segment.mk m m₀).pts, q ∉ segsPts E := by
    intro q hq hqE
    have hqi := mk_sub hm m1 hq
    obtain ⟨k, hk, hkf, hqk⟩ := M.fin.mem_right.1 hqE
    rcases M.fin.pair i hi k hk with ⟨e, -⟩ | hh
    · exact hmR (Or.inl (M.fin.mem_right.2 ⟨k, hk, hkf, e ▸ hm⟩))
    · have := end_between pr m1 m2 hm hq (hh q hqi hqk).1
      exact hmR (Or.inl (this ▸ hqE))
  have c := inside_const hE.noOverlap.1 hE.even off
  have h0 : Inside E m₀ := (inn m₀ m1 m2).resolve_left (off m₀ (Segment.stop_mem _))
  exact hmR (Or.inr (c.2 h0))

/-- A part of the linear operand decided to be outside meets the region in its ends only. -/
theorem piece_out (M : MixedEnd g h log stop L E) (hg : g false ≠ g true) {i : ℕ} (hi : i ∈ rightsOf log)
    (hf : h.first i = true) (hr : (h.lefts i).data.fromResult = g true) {m : Point} (hm : m ∈ (h.segment i).pts)
    (hmR : m ∈ regionPts E) : (h.segment i).IsEnd m := by
  by_contra hc
  exact hg (((M.sel i hi hf m hm hc).1 hmR).symm.trans hr)

/-- … and these ends are on the boundary of the region. -/
theorem piece_out_end (M : MixedEnd g h log stop L E) (hE : IsBoundary E) (hg : g false ≠ g true) {i : ℕ}
    (hi : i ∈ rightsOf log) (hf : h.first i = true) (hr : (h.lefts i).data.fromResult = g true) {m : Point}
    (hm : m ∈ (h.segment i).pts) (hmR : m ∈ regionPts E) : m ∈ segsPts E ∧
      ∀ k < h.count, h.first k = false → m ∈ (h.segment k).pts → (h.segment k).IsEnd m := by
  have pr : (h.segment i).Proper := (M.fin.lt i (M.fin.bound i hi)).ne
  obtain ⟨m₀, m1, m2⟩ := exists_inner pr
  have hne : ∀ k < h.count, h.first k = false → h.segment i ≠ h.segment k := by
    intro k hk hkf e
    exact m2 (M.piece_out hg hi hf hr m1 (Or.inl (M.fin.mem_right.2 ⟨k, hk, hkf, e ▸ m1⟩)))
  constructor
  · by_contra hmE
    have off : ∀ q ∈ (Segment.mk m m₀).pts, q ∉ segsPts E := by
      intro q hq hqE
      have hqi := mk_sub hm m1 hq
      obtain ⟨k, hk, hkf, hqk⟩ := M.fin.mem_right.1 hqE
      rcases M.fin.pair i hi k hk with ⟨e, -⟩ | hh
      · exact hne k hk hkf e
      · have := end_between pr m1 m2 hm hq (hh q hqi hqk).1
        exact hmE (this ▸ hqE)
    have c := inside_const hE.noOverlap.1 hE.even off
    exact m2 (M.piece_out hg hi hf hr m1 (Or.inr (c.1 (hmR.resolve_left hmE))))
  · intro k hk hkf hmk
    rcases M.fin.pair i hi k hk with ⟨e, -⟩ | hh
    · exact absurd e (hne k hk hkf)
    · exact (hh m hm hmk).2

theorem left_of_right (M : MixedEnd g h log stop L E) (mono : ∀ p q, p ≤ q → stop p = true → stop q = true) {i : ℕ}
    (hi : i ∈ rightsOf log) : Ev.left i ∈ log.map Prod.fst := by
  have hn := M.fin.bound i hi
  rw [M.mem]
  refine ⟨hn, ?_⟩
  have := (M.fin.done i hn).1 hi
  by_contra hc
  have hc' : stop (h.start i) = true := by
    show stop (h.evStart (.left i)) = true
    simpa using hc
  rw [mono _ _ (M.fin.lt i hn).le hc'] at this
  cases this

theorem first_of_result (M : MixedEnd g h log stop L E) {i : ℕ} (hi : Ev.left i ∈ log.map Prod.fst)
    (hr : (h.lefts i).data.fromResult = true) : h.first i = true := by
  by_contra hc
  rw [M.other i hi (by simpa using hc)] at hr
  cases hr

/-- Selecting what is outside gives the difference. -/
theorem difference (M : MixedEnd id h log stop L E) (hE : IsBoundary E)
    (hall : ∀ i < h.count, h.first i = true → i ∈ rightsOf log) {is : List ℕ}
    (his : ∀ i, h.first i = true → (i ∈ is ↔ i ∈ rightsOf log)) (hlog : ∀ i ∈ is, Ev.left i ∈ log.map Prod.fst) :
    IsDifference (segsPts L) (regionPts E) (segsPts (resultSegments h is)) := by
  have hg : id false ≠ id true := by simp
  refine ⟨?_, ?_, ?_⟩
  · rintro q ⟨h1, h2⟩
    obtain ⟨i, hi, hf, hq⟩ := M.fin.mem_left.1 h1
    have hiF := hall i hi hf
    refine mem_resultPts.2 ⟨i, (his i hf).2 hiF, ?_, hq⟩
    rcases M.cases hiF hf with hr | hr
    · exact absurd (M.piece_in hE hg hiF hf hr hq) h2
    · exact hr
  · intro q hq
    obtain ⟨i, hi, hr, hq⟩ := mem_resultPts.1 hq
    have hl := hlog i hi
    exact M.fin.mem_left.2 ⟨i, ((M.mem _).1 hl).1, M.first_of_result hl hr, hq⟩
  · refine (endSet_finite h).subset ?_
    rintro q ⟨hq, h2⟩
    obtain ⟨i, hi, hr, hq⟩ := mem_resultPts.1 hq
    have hl := hlog i hi
    have hf := M.first_of_result hl hr
    exact ⟨i, ((M.mem _).1 hl).1, M.piece_out hg ((his i hf).1 hi) hf hr hq h2⟩

/-- Where the early exit may be. -/
def ExitOk (h : Heap MixedData) (log : List (Ev × ℕ)) : Prop :=
  (∀ k < h.count, h.first k = true → k ∈ rightsOf log) ∨ (∀ k < h.count, h.first k = false → k ∈ rightsOf log)

/-- What is selected belongs to both operands, and the pieces are finished. -/
theorem selected_in (M : MixedEnd not h log stop L E) (hE : IsBoundary E) (hx : ExitOk h log) {i : ℕ}
    (hl : Ev.left i ∈ log.map Prod.fst) (hr : (h.lefts i).data.fromResult = true) :
    i ∈ rightsOf log ∧ (h.segment i).pts ⊆ segsPts L ∩ regionPts E := by
  have hf := M.first_of_result hl hr
  have hn : i < h.count := ((M.mem _).1 hl).1
  have hi : i ∈ rightsOf log := by
    rcases hx with hx | hx
    · exact hx i hn hf
    · by_contra hc
      have := M.rest i hl hc hf hx
      rw [hr] at this; cases this
  refine ⟨hi, fun q hq => ⟨M.fin.mem_left.2 ⟨i, hn, hf, hq⟩, ?_⟩⟩
  exact M.piece_in hE (by simp) hi hf hr hq

/-- Common points which are not selected are on the boundary of the region, and they are ends of pieces of both
operands which have been processed. -/
theorem unselected (M : MixedEnd not h log stop L E) (hE : IsBoundary E)
    (hmono : ∃ xmax, stop = stopAt xmax) (hx : ExitOk h log) {m : Point}
    (hL : m ∈ segsPts L) (hmR : m ∈ regionPts E)
    (hno : ∀ i, Ev.left i ∈ log.map Prod.fst → (h.lefts i).data.fromResult = true → m ∉ (h.segment i).pts) :
    stop m = false ∧ (∃ i < h.count, h.first i = true ∧ (h.segment i).IsEnd m) ∧
      ∃ i < h.count, h.first i = false ∧ (h.segment i).IsEnd m := by
  obtain ⟨xmax, rfl⟩ := hmono
  have mono := stopAt_mono xmax
  obtain ⟨i, hi, hf, hm⟩ := M.fin.mem_left.1 hL
  by_cases hiF : i ∈ rightsOf log
  · have hl := M.left_of_right mono hiF
    have hr : (h.lefts i).data.fromResult = not true := by
      rcases M.cases hiF hf with hr | hr
      · exact absurd hm (hno i hl hr)
      · exact hr
    obtain ⟨h1, h2⟩ := M.piece_out_end hE (by simp) hiF hf hr hm hmR
    obtain ⟨k, hk, hkf, hmk⟩ := M.fin.mem_right.1 h1
    refine ⟨?_, ⟨i, hi, hf, M.piece_out (by simp) hiF hf hr hm hmR⟩, k, hk, hkf, h2 k hk hkf hmk⟩
    have := (M.fin.done i hi).1 hiF
    by_contra hc
    have hle : m ≤ h.stop i := by
      have := Segment.le_hi_of_mem hm
      have e : (h.segment i).hi = h.stop i := max_eq_right (M.fin.lt i hi).le
      rwa [e] at this
    rw [mono _ _ hle (by simpa using hc)] at this
    cases this
  · have hx' := hx.resolve_left fun hx => hiF (hx i hi hf)
    have hstop : stopAt xmax (h.stop i) = true := by
      by_contra hc
      exact hiF ((M.fin.done i hi).2 (by simpa using hc))
    have hEstop : ∀ q ∈ segsPts E, stopAt xmax q = false := by
      intro q hq
      obtain ⟨k, hk, hkf, hqk⟩ := M.fin.mem_right.1 hq
      have := (M.fin.done k hk).1 (hx' k hk hkf)
      by_contra hc
      have hle : q ≤ h.stop k := by
        have := Segment.le_hi_of_mem hqk
        have e : (h.segment k).hi = h.stop k := max_eq_right (M.fin.lt k hk).le
        rwa [e] at this
      rw [mono _ _ hle (by simpa using hc)] at this
      cases this
    have hmE : m ∈ segsPts E := by
      by_contra hmE
      have off : ∀ q ∈ (Segment.mk m (h.stop i)).pts, q ∉ segsPts E := by
        intro q hq hqE
        have hqi := mk_sub hm (h.segment i).stop_mem hq
        obtain ⟨k, hk, hkf, hqk⟩ := M.fin.mem_right.1 hqE
        rcases M.fin.pair k (hx' k hk hkf) i hi with ⟨-, e⟩ | hh
        · exact hiF e
        · rcases (hh q hqk hqi).2 with e | e
          · have hlo : (h.segment i).lo = h.start i := min_eq_left (M.fin.lt i hi).le
            have h1 := Segment.lo_le_of_mem hm
            have h2 := Segment.lo_le_of_mem hq
            have e' : q = h.start i := e
            rw [hlo, ← e'] at h1
            have e1 : (Segment.mk m (h.stop i)).lo = min m (h.stop i) := rfl
            rw [e1] at h2
            rcases min_le_iff.1 h2 with h3 | h3
            · exact hmE ((le_antisymm h3 h1) ▸ hqE)
            · rw [e'] at h3
              exact absurd h3 (not_le.2 (M.fin.lt i hi))
          · have e' : q = h.stop i := e
            have := hEstop q hqE
            rw [e', hstop] at this; cases this
      have c := inside_const hE.noOverlap.1 hE.even off
      have hin : Inside E (h.stop i) := c.1 (hmR.resolve_left hmE)
      unfold Inside at hin
      have hpos : 0 < E.countP fun e => decide (IsBelow e (h.stop i)) := Odd.pos hin
      rw [List.countP_pos_iff] at hpos
      obtain ⟨e, he, hb⟩ := hpos
      have hb' := of_decide_eq_true hb
      have := hEstop e.hi ⟨e, he, e.hi_mem⟩
      cases xmax with
      | none => simp [stopAt] at hstop
      | some x =>
        simp only [stopAt, decide_eq_true_eq, decide_eq_false_iff_not, not_lt] at hstop this
        linarith [hb'.2.1]
    refine ⟨hEstop m hmE, ?_⟩
    obtain ⟨k, hk, hkf, hmk⟩ := M.fin.mem_right.1 hmE
    rcases M.fin.pair k (hx' k hk hkf) i hi with ⟨-, e⟩ | hh
    · exact absurd e hiF
    · exact ⟨⟨i, hi, hf, (hh m hmk hm).2⟩, k, hk, hkf, (hh m hmk hm).1⟩

theorem intersection (M : MixedEnd not h log stop L E) (hE : IsBoundary E)
    (hmono : ∃ xmax, stop = stopAt xmax) (hx : ExitOk h log) {is : List ℕ}
    (his : ∀ i, i ∈ is ↔ Ev.left i ∈ log.map Prod.fst) :
    IsIntersection (segsPts L) (regionPts E) (segsPts (resultSegments h is)) := by
  refine ⟨?_, ?_⟩
  · intro q hq
    obtain ⟨i, hi, hr, hq⟩ := mem_resultPts.1 hq
    exact (M.selected_in hE hx ((his i).1 hi) hr).2 hq
  · refine (endSet_finite h).subset ?_
    rintro q ⟨⟨h1, h2⟩, h3⟩
    obtain ⟨-, ⟨i, hi, -, he⟩, -⟩ := M.unselected hE hmono hx h1 h2 fun i hi hr hq =>
      h3 (mem_resultPts.2 ⟨i, (his i).2 hi, hr, hq⟩)
    exact ⟨i, hi, he⟩

/-- The selected segments meet in their ends only. -/
theorem valid (M : MixedEnd g h log stop L E) {is : List ℕ} (nd : is.Nodup)
    (his : ∀ i ∈ is, (h.lefts i).data.fromResult = true → i ∈ rightsOf log ∧ h.first i = true) :
    ValidSegments (resultSegments h is) := by
  unfold resultSegments
  have prop : ∀ i ∈ is.filter (fun i => (h.lefts i).data.fromResult), i ∈ rightsOf log ∧ h.first i = true := by
    intro i hi
    obtain ⟨h1, h2⟩ := List.mem_filter.1 hi
    exact his i h1 h2
  refine ⟨?_, ?_⟩
  · intro s hs
    obtain ⟨i, hi, rfl⟩ := List.mem_map.1 hs
    exact (M.fin.lt i (M.fin.bound i (prop i hi).1)).ne
  · rw [List.pairwise_map]
    refine ((nd.sublist List.filter_sublist).imp_of_mem ?_)
    intro i j hi hj hne
    obtain ⟨i1, i2⟩ := prop i hi
    obtain ⟨j1, j2⟩ := prop j hj
    have bi := M.fin.bound i i1
    have bj := M.fin.bound j j1
    refine endsOnly_not (M.fin.lt i bi).ne (M.fin.lt j bj).ne ?_
    rcases M.fin.pair i i1 j bj with ⟨e, -⟩ | hh
    · exact absurd (i2.trans j2.symm) (M.fin.op i bi j bj hne e)
    · exact hh

end MixedEnd

end Clipping

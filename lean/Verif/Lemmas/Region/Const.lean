import Verif.Lemmas.Flags.Region

/-!
# The even-odd rule is constant where no edge is met
-/

namespace Clipping

open Sweep

/-- End points come in pairs. -/
theorem sum_ends_list {E : List Segment} (h : ∀ q, Even (degree E q)) (X : Point → Prop) :
    (E.map fun e => ind (X e.start) + ind (X e.stop)).sum = 0 := by
  classical
  set S : Finset Point := (E.map Segment.start ++ E.map Segment.stop).toFinset with hS
  have h1 : ∀ (l : List Segment), (∀ e ∈ l, e.start ∈ S ∧ e.stop ∈ S) →
      (l.map fun e => ind (X e.start) + ind (X e.stop)).sum = ∑ q ∈ S, ind (X q) * (degree l q : ZMod 2) := by
    intro l
    induction l with
    | nil => simp [degree]
    | cons e l ih =>
      intro hl
      rw [List.map_cons, List.sum_cons, ih fun e' he' => hl e' (by simp [he'])]
      have hd : ∀ q, (degree (e :: l) q : ZMod 2) = (ind (e.start = q) + ind (e.stop = q)) + degree l q := by
        intro q
        unfold degree
        simp only [List.countP_cons, decide_eq_true_eq, Nat.cast_add, Nat.cast_ite, Nat.cast_one, Nat.cast_zero]
        have g : ∀ P : Prop, [Decidable P] → (if P then (1 : ZMod 2) else 0) = ind P := by
          intro P _
          by_cases hp : P
          · rw [if_pos hp, ind_pos hp]
          · rw [if_neg hp, ind_neg hp]
        rw [g, g]
        ring
      simp only [hd, mul_add, Finset.sum_add_distrib]
      have g : ∀ z ∈ S, ∑ q ∈ S, ind (X q) * ind (z = q) = ind (X z) := by
        intro z hz
        rw [Finset.sum_eq_single z]
        · rw [ind_pos rfl, mul_one]
        · intro q _ hne
          rw [ind_neg (P := z = q) (fun e => hne e.symm), mul_zero]
        · intro h; exact absurd hz h
      obtain ⟨m1, m2⟩ := hl e (by simp)
      rw [g _ m1, g _ m2]
  rw [h1 E]
  · refine Finset.sum_eq_zero fun q _ => ?_
    rw [ZMod.natCast_eq_zero_iff_even.2 (h q), mul_zero]
  · intro e he
    rw [hS]
    simp only [List.toFinset_append, Finset.mem_union, List.mem_toFinset, List.mem_map]
    exact ⟨Or.inl ⟨e, he, rfl⟩, Or.inr ⟨e, he, rfl⟩⟩

theorem inside_sum (E : List Segment) (m : Point) :
    ind (Inside E m) = (E.map fun e => ind (IsBelow e m)).sum := by
  unfold Inside
  rw [← ind_countP]
  induction E with
  | nil => simp
  | cons e E ih =>
    rw [List.countP_cons, List.map_cons, List.sum_cons, ← ih, Nat.cast_add, add_comm]
    congr 1
    by_cases h : IsBelow e m
    · rw [ind_pos h]; simp [h]
    · rw [ind_neg h]; simp [h]

theorem ends_lo_hi (X : Point → Prop) (e : Segment) :
    ind (X e.lo) + ind (X e.hi) = ind (X e.start) + ind (X e.stop) := by
  unfold Segment.lo Segment.hi
  rcases le_total e.start e.stop with h | h
  · rw [min_eq_left h, max_eq_right h]
  · rw [min_eq_right h, max_eq_left h, add_comm]

/-- an edge below a point, in the sheared plane -/
theorem isBelow_seg {ε : ℚ} {P : List Point} (ho : Orders ε P) {e : Segment} (he : e.Proper) {m : Point}
    (h1 : e.lo ∈ P) (h2 : e.hi ∈ P) (hm : m ∈ P) (ff : Bool) :
    IsBelow e m ↔ Act (sx ε m) (seg ε e.lo e.hi ff) ∧ (seg ε e.lo e.hi ff).y (sx ε m) < m.y := by
  have lt := lo_lt_hi he
  have lt' : sx ε e.lo < sx ε e.hi := ho _ h1 _ h2 lt
  have c1 := cross_pos_iff (ff := ff) lt' m
  unfold IsBelow
  constructor
  · rintro ⟨g1, g2, g3⟩
    obtain ⟨g4, g5⟩ := (between_iff lt g3).2 ⟨g1, g2⟩
    exact ⟨⟨(ho.le_iff h1 hm).1 g4, (ho.lt_iff hm h2).1 g5⟩, c1.1 g3⟩
  · rintro ⟨⟨g1, g2⟩, g3⟩
    have g3' := c1.2 g3
    obtain ⟨g4, g5⟩ := (between_iff lt g3').1 ⟨(ho.le_iff h1 hm).2 g1, (ho.lt_iff hm h2).2 g2⟩
    exact ⟨g4, g5, g3'⟩

theorem mem_pts_lo_hi {e : Segment} {q : Point} : q ∈ (Segment.mk e.lo e.hi).pts ↔ q ∈ e.pts := by
  rw [pts_lo_hi]

/-- Along a segment which meets no edge the parity changes with the ends of edges below the segment. -/
theorem inside_change {E : List Segment} (hp : ∀ e ∈ E, e.Proper) {s : Segment} (hne : s.Proper)
    (hs : ∀ q ∈ s.pts, q ∉ segsPts E) : ind (Inside E s.lo) + ind (Inside E s.hi) =
      (E.map fun e => ind (s.lo < e.start ∧ e.start ≤ s.hi ∧ cross s.lo s.hi e.start < 0) +
        ind (s.lo < e.stop ∧ e.stop ≤ s.hi ∧ cross s.lo s.hi e.stop < 0)).sum := by
  obtain ⟨ε, ho⟩ := exists_orders (s.lo :: s.hi :: (E.map Segment.lo ++ E.map Segment.hi))
  have lt := lo_lt_hi (s := s) hne
  have lt' : sx ε s.lo < sx ε s.hi := ho _ (by simp) _ (by simp) lt
  set j := seg ε s.lo s.hi false with hj
  have ylo : j.y (sx ε s.lo) = s.lo.y := seg_y_start
  have yhi : j.y (sx ε s.hi) = s.hi.y := seg_y_stop lt'
  rw [inside_sum, inside_sum, ← List.sum_map_add]
  refine congrArg List.sum (List.map_congr_left fun e he => ?_)
  rw [← ends_lo_hi (fun q => s.lo < q ∧ q ≤ s.hi ∧ cross s.lo s.hi q < 0) e]
  have m1 : e.lo ∈ s.lo :: s.hi :: (E.map Segment.lo ++ E.map Segment.hi) := by
    simp only [List.mem_cons, List.mem_append, List.mem_map]
    exact Or.inr (Or.inr (Or.inl ⟨e, he, rfl⟩))
  have m2 : e.hi ∈ s.lo :: s.hi :: (E.map Segment.lo ++ E.map Segment.hi) := by
    simp only [List.mem_cons, List.mem_append, List.mem_map]
    exact Or.inr (Or.inr (Or.inr ⟨e, he, rfl⟩))
  have pe : sx ε e.lo < sx ε e.hi := ho _ m1 _ m2 (lo_lt_hi (hp e he))
  have no : ∀ c, (seg ε e.lo e.hi false).a ≤ c → c ≤ (seg ε e.lo e.hi false).b → sx ε s.lo ≤ c → c ≤ sx ε s.hi →
      (seg ε e.lo e.hi false).y c ≠ j.y c := by
    intro c h1 h2 h3 h4 h5
    obtain ⟨q, q1, q2, -⟩ := (com_seg (ff := false) (ff' := false) pe lt').1
      (⟨h1, h2, h3, h4, h5⟩ : Com (seg ε e.lo e.hi false) (seg ε s.lo s.hi false) c)
    rw [mem_pts_lo_hi] at q1 q2
    exact hs q q2 ⟨e, he, q1⟩
  have ep := edge_parity (j := j) (k := seg ε e.lo e.hi false) (u := sx ε s.lo) (v := sx ε s.hi) lt'.le pe
    (fun c h1 h2 h3 h4 h5 => absurd h5 (no c h3 h4 h1.le h2.le))
    (fun _ h2 h3 h4 => absurd h4 (no _ h2.le h3.le lt'.le le_rfl))
    (fun _ h2 h3 => no _ (by rw [← h2]; exact pe.le) h2.ge lt'.le le_rfl h3)
    (fun _ h2 h3 => absurd h3 (no _ h2.le (by rw [← h2]; exact pe.le) lt'.le le_rfl))
  have b : ∀ m, m ∈ s.lo :: s.hi :: (E.map Segment.lo ++ E.map Segment.hi) → j.y (sx ε m) = m.y →
      sx ε s.lo ≤ sx ε m → sx ε m ≤ sx ε s.hi →
      ind (IsBelow e m) = ind (Act (sx ε m) (seg ε e.lo e.hi false) ∧ Bel (sx ε m) (seg ε e.lo e.hi false) j) := by
    intro m hm hy h1 h2
    apply ind_congr
    rw [isBelow_seg ho (hp e he) m1 m2 hm false]
    constructor
    · rintro ⟨h3, h4⟩
      exact ⟨h3, Or.inl (by rw [hy]; exact h4)⟩
    · rintro ⟨h3, h4⟩
      rw [bel_strict (no _ h3.1 h3.2.le h1 h2), hy] at h4
      exact ⟨h3, h4⟩
  rw [b s.lo (by simp) ylo le_rfl lt'.le, b s.hi (by simp) yhi lt'.le le_rfl, ep]
  have y1 : (seg ε e.lo e.hi false).y (sx ε e.lo) = e.lo.y := seg_y_start
  have y2 : (seg ε e.lo e.hi false).y (sx ε e.hi) = e.hi.y := seg_y_stop pe
  have tr : ∀ q, q ∈ s.lo :: s.hi :: (E.map Segment.lo ++ E.map Segment.hi) →
      ((s.lo < q ∧ q ≤ s.hi ∧ cross s.lo s.hi q < 0) ↔
        (sx ε s.lo < sx ε q ∧ sx ε q ≤ sx ε s.hi ∧ q.y < j.y (sx ε q))) := by
    intro q hq
    rw [ho.lt_iff (by simp) hq, ho.le_iff hq (by simp), cross_neg_iff (ff := false) lt']
  rw [ind_congr (tr _ m1), ind_congr (tr _ m2)]
  show ind (_ < sx ε e.lo ∧ sx ε e.lo ≤ _ ∧ (seg ε e.lo e.hi false).y (sx ε e.lo) < _) +
    ind (_ < sx ε e.hi ∧ sx ε e.hi ≤ _ ∧ (seg ε e.lo e.hi false).y (sx ε e.hi) < _) = _
  rw [y1, y2]
  rfl

/-- Points connected by a segment which meets no edge are on the same side. -/
theorem inside_const {E : List Segment} (hp : ∀ e ∈ E, e.Proper) (hd : ∀ q, Even (degree E q)) {s : Segment}
    (hs : ∀ q ∈ s.pts, q ∉ segsPts E) : Inside E s.start ↔ Inside E s.stop := by
  by_cases hne : s.start = s.stop
  · rw [hne]
  have main : Inside E s.lo ↔ Inside E s.hi := by
    have sum := inside_change hp (s := s) hne hs
    rw [sum_ends_list hd (fun q => s.lo < q ∧ q ≤ s.hi ∧ cross s.lo s.hi q < 0)] at sum
    have : ind (Inside E s.lo) = ind (Inside E s.hi) := by
      have h2 : ind (Inside E s.hi) + ind (Inside E s.hi) = 0 := CharTwo.add_self_eq_zero _
      linear_combination sum - h2
    exact ⟨fun h => ind_eq_one.1 (this ▸ ind_pos h), fun h => ind_eq_one.1 (this.symm ▸ ind_pos h)⟩
  unfold Segment.lo Segment.hi at main
  rcases le_total s.start s.stop with h | h
  · rwa [min_eq_left h, max_eq_right h] at main
  · rw [min_eq_right h, max_eq_left h] at main
    exact main.symm

/-- Between an inner point and an end of a segment there is no other end. -/
theorem end_between {s : Segment} (hs : s.Proper) {m m₀ q : Point} (h0 : m₀ ∈ s.pts) (n0 : ¬ s.IsEnd m₀)
    (hm : m ∈ s.pts) (hq : q ∈ (Segment.mk m m₀).pts) (he : s.IsEnd q) : q = m := by
  have lo := Segment.lo_le_of_mem hq
  have hi := Segment.le_hi_of_mem hq
  rw [Segment.isEnd_iff] at he n0
  push Not at n0
  have l0 := lt_of_le_of_ne (Segment.lo_le_of_mem h0) (Ne.symm n0.1)
  have h0' := lt_of_le_of_ne (Segment.le_hi_of_mem h0) n0.2
  have lm := Segment.lo_le_of_mem hm
  have hm' := Segment.le_hi_of_mem hm
  have e1 : (Segment.mk m m₀).lo = min m m₀ := rfl
  have e2 : (Segment.mk m m₀).hi = max m m₀ := rfl
  rw [e1] at lo
  rw [e2] at hi
  rcases he with rfl | rfl
  · rcases min_le_iff.1 lo with h | h
    · exact le_antisymm lm h
    · exact absurd h (not_le.2 l0)
  · rcases le_max_iff.1 hi with h | h
    · exact le_antisymm h hm'
    · exact absurd h (not_le.2 h0')

end Clipping

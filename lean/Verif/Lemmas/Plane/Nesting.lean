import Verif.Lemmas.Plane.Laminar
import Mathlib.Data.List.GetD

/-!
# How traced contours are nested
-/

namespace Clipping

namespace Darts

variable {D : Darts}

/-- a contour -/
abbrev nth (Rs : List (List ℕ)) (i : ℕ) : List ℕ := Rs.getD i []

/-- The point is inside of a contour. -/
abbrev InC (D : Darts) (Rs : List (List ℕ)) (i : ℕ) (q : Point) : Prop := Inside ((nth Rs i).map D.seg) q

/-- The state of the tracing before the contour `j` -/
structure Stage (D : Darts) (F₀ : Finset ℕ) (Rs : List (List ℕ)) (Fe : Finset ℕ) (j : ℕ) (F : Finset ℕ) (d : ℕ) : Prop where
  first : D.First F d
  traced : D.Traced F d (nth Rs j)
  sub : F ⊆ F₀
  earlier : ∀ i < j, ∀ x ∈ nth Rs i, x ∉ F ∧ D.opp x ∉ F
  later : ∀ i, j < i → i < Rs.length → ∀ x ∈ nth Rs i, x ∈ D.rest F (nth Rs j)
  last : Fe ⊆ D.rest F (nth Rs j)

structure Start (D : Darts) (F₀ : Finset ℕ) : Prop where
  sorted : D.Sorted
  closed : D.Closed F₀
  even : ∀ q, Even (degree (D.edges F₀) q)

theorem nth_append_left {Rs : List (List ℕ)} {R : List ℕ} {i : ℕ} (h : i < Rs.length) : nth (Rs ++ [R]) i = nth Rs i :=
  List.getD_append _ _ _ _ h

theorem nth_append_last {Rs : List (List ℕ)} {R : List ℕ} : nth (Rs ++ [R]) Rs.length = R := by
  unfold nth
  rw [List.getD_append_right _ _ _ _ (le_refl _)]
  simp

namespace Traces

variable {F₀ F : Finset ℕ} {Rs : List (List ℕ)}

theorem inv (h : D.Traces F₀ Rs F) (S : D.Start F₀) :
    D.Closed F ∧ (∀ q, Even (degree (D.edges F) q)) ∧ F ⊆ F₀ ∧
      (∀ i ∈ F₀, i ∈ F ∨ ∃ j < Rs.length, i ∈ nth Rs j ∨ D.opp i ∈ nth Rs j) ∧
      (∀ j < Rs.length, ∀ x ∈ nth Rs j, x ∈ F₀ ∧ x ∉ F ∧ D.opp x ∉ F) ∧
      ∀ j < Rs.length, ∃ Fj dj, D.Stage F₀ Rs F j Fj dj := by
  induction h with
  | nil => exact ⟨S.closed, S.even, fun i hi => hi, fun i hi => Or.inl hi, by simp, by simp⟩
  | @snoc F d R Rs prev hd least hT ih =>
    obtain ⟨h1, h2, h3, h4, h5, h6⟩ := ih
    refine ⟨rest_closed h1, rest_even h1 h2 hT.loop hT.mem, fun i hi => h3 (mem_rest.1 hi).1, ?_, ?_, ?_⟩
    · intro i hi
      rcases h4 i hi with h | ⟨j, hj, h⟩
      · by_cases a : i ∈ R
        · exact Or.inr ⟨Rs.length, by simp, by rw [nth_append_last]; exact Or.inl a⟩
        · by_cases b : D.opp i ∈ R
          · exact Or.inr ⟨Rs.length, by simp, by rw [nth_append_last]; exact Or.inr b⟩
          · exact Or.inl (mem_rest.2 ⟨h, a, b⟩)
      · exact Or.inr ⟨j, by rw [List.length_append]; omega, by rw [nth_append_left hj]; exact h⟩
    · intro j hj x hx
      rw [List.length_append, List.length_singleton] at hj
      by_cases hj' : j < Rs.length
      · rw [nth_append_left hj'] at hx
        obtain ⟨a, b, c⟩ := h5 j hj' x hx
        exact ⟨a, fun hh => b (mem_rest.1 hh).1, fun hh => c (mem_rest.1 hh).1⟩
      · obtain rfl : j = Rs.length := by omega
        rw [nth_append_last] at hx
        refine ⟨h3 (hT.mem x hx), fun hh => (mem_rest.1 hh).2.1 hx, fun hh => (mem_rest.1 hh).2.2 ?_⟩
        rw [D.opp_opp x (hT.loop.lt x hx)]; exact hx
    · intro j hj
      rw [List.length_append, List.length_singleton] at hj
      by_cases hj' : j < Rs.length
      · obtain ⟨Fj, dj, st⟩ := h6 j hj'
        refine ⟨Fj, dj, st.first, by rw [nth_append_left hj']; exact st.traced, st.sub, ?_, ?_, ?_⟩
        · intro i hi
          rw [nth_append_left (by omega)]
          exact st.earlier i hi
        · intro i hi hil x hx
          rw [nth_append_left hj']
          rw [List.length_append, List.length_singleton] at hil
          by_cases hil' : i < Rs.length
          · rw [nth_append_left hil'] at hx
            exact st.later i hi hil' x hx
          · obtain rfl : i = Rs.length := by omega
            rw [nth_append_last] at hx
            exact st.last (hT.mem x hx)
        · rw [nth_append_left hj']
          intro i hi
          exact st.last (mem_rest.1 hi).1
      · obtain rfl : j = Rs.length := by omega
        refine ⟨F, d, ⟨S.sorted, h1, h2, hd, least⟩, by rw [nth_append_last]; exact hT, h3, ?_, ?_, ?_⟩
        · intro i hi x hx
          rw [nth_append_left hi] at hx
          exact (h5 i hi x hx).2
        · intro i hi hil
          rw [List.length_append, List.length_singleton] at hil
          omega
        · rw [nth_append_last]

end Traces

/-- contours traced from all edges on -/
structure Traced₀ (D : Darts) (F₀ : Finset ℕ) (Rs : List (List ℕ)) (F : Finset ℕ) : Prop where
  start : D.Start F₀
  traces : D.Traces F₀ Rs F

/-- the contours around a contour -/
noncomputable def anc (D : Darts) (Rs : List (List ℕ)) (j : ℕ) : Finset ℕ := by
  classical exact (Finset.range j).filter fun i => D.Within (nth Rs i) (nth Rs j)

theorem mem_anc {Rs : List (List ℕ)} {i j : ℕ} : i ∈ D.anc Rs j ↔ i < j ∧ D.Within (nth Rs i) (nth Rs j) := by
  unfold anc; simp

namespace Traced₀

variable {F₀ F : Finset ℕ} {Rs : List (List ℕ)}

theorem stage (h : D.Traced₀ F₀ Rs F) {j : ℕ} (hj : j < Rs.length) : ∃ Fj dj, D.Stage F₀ Rs F j Fj dj :=
  (h.traces.inv h.start).2.2.2.2.2 j hj

theorem loop (h : D.Traced₀ F₀ Rs F) {j : ℕ} (hj : j < Rs.length) : D.Loop (nth Rs j) := by
  obtain ⟨Fj, dj, st⟩ := h.stage hj
  exact st.traced.loop

theorem mem (h : D.Traced₀ F₀ Rs F) {j : ℕ} (hj : j < Rs.length) {x : ℕ} (hx : x ∈ nth Rs j) : x ∈ F₀ :=
  ((h.traces.inv h.start).2.2.2.2.1 j hj x hx).1

theorem lt (h : D.Traced₀ F₀ Rs F) {j : ℕ} (hj : j < Rs.length) {x : ℕ} (hx : x ∈ nth Rs j) : x < D.n :=
  h.start.closed.lt x (h.mem hj hx)

/-- Different contours have different edges. -/
theorem disjoint (h : D.Traced₀ F₀ Rs F) {i j : ℕ} (hi : i < Rs.length) (hj : j < Rs.length) (hij : i ≠ j) {x : ℕ}
    (hx : x ∈ nth Rs i) : x ∉ nth Rs j ∧ D.opp x ∉ nth Rs j := by
  have hl := h.lt hi hx
  rcases Nat.lt_or_gt_of_ne hij with hlt | hlt
  · obtain ⟨Fi, di, st⟩ := h.stage hi
    refine ⟨fun hh => ?_, fun hh => ?_⟩
    · exact (mem_rest.1 (st.later j hlt hj x hh)).2.1 hx
    · have := (mem_rest.1 (st.later j hlt hj _ hh)).2.2
      rw [D.opp_opp x hl] at this
      exact this hx
  · obtain ⟨Fj, dj, st⟩ := h.stage hj
    exact (mem_rest.1 (st.later i hlt hi x hx)).2

theorem off (h : D.Traced₀ F₀ Rs F) {i : ℕ} (hi : i < Rs.length) {q : Point} (hq : q ∉ segsPts (D.edges F₀)) :
    q ∉ segsPts ((nth Rs i).map D.seg) := fun hh => hq (sub_pts h.start.closed (fun _ hx => h.mem hi hx) hh)

theorem laminar (h : D.Traced₀ F₀ Rs F) {i j : ℕ} (hij : i < j) (hj : j < Rs.length) :
    D.Within (nth Rs i) (nth Rs j) ∨ D.Beside (nth Rs i) (nth Rs j) := by
  obtain ⟨Fi, di, st⟩ := h.stage (j := i) (by omega)
  exact st.traced.laminar st.first (h.loop hj) (st.later j hij hj)

theorem edge_outside (h : D.Traced₀ F₀ Rs F) {i j : ℕ} (hij : i < j) (hj : j < Rs.length) {m : Point}
    (hm : m ∈ segsPts ((nth Rs i).map D.seg)) (off : m ∉ segsPts ((nth Rs j).map D.seg)) : ¬ D.InC Rs j m := by
  obtain ⟨Fi, di, st⟩ := h.stage (j := i) (by omega)
  exact st.traced.edge_outside st.first (h.loop hj) (st.later j hij hj) hm off

/-- A point which is inside of two contours. -/
theorem within_of_both (h : D.Traced₀ F₀ Rs F) {i j : ℕ} (hij : i < j) (hj : j < Rs.length) {q : Point}
    (hq : q ∉ segsPts (D.edges F₀)) (h1 : D.InC Rs i q) (h2 : D.InC Rs j q) : i ∈ D.anc Rs j := by
  refine mem_anc.2 ⟨hij, (h.laminar hij hj).resolve_right fun hb => ?_⟩
  exact hb.inside q (h.off (by omega) hq) (h.off hj hq) h2 h1

theorem of_within (h : D.Traced₀ F₀ Rs F) {i j : ℕ} (hj : j < Rs.length) {q : Point}
    (hq : q ∉ segsPts (D.edges F₀)) (h1 : i ∈ D.anc Rs j) (h2 : D.InC Rs j q) : D.InC Rs i q := by
  obtain ⟨hij, hw⟩ := mem_anc.1 h1
  exact hw.inside q (h.off (by omega) hq) (h.off hj hq) h2

theorem side_off {F : Finset ℕ} {i : ℕ} {σ : ℚ} {q : Point} (hq : SideOf (D.edges F) (D.seg i) σ q) :
    q ∉ segsPts (D.edges F) := hq.off

/-- the contours around the left side of an edge -/
theorem left_iff (h : D.Traced₀ F₀ Rs F) {c : ℕ} (hc : c < Rs.length) {b : ℕ} (hb : b ∈ nth Rs c) {x : Point}
    (hx : D.LeftOf F₀ b x) {i : ℕ} (hi : i < Rs.length) : D.InC Rs i x ↔ i ∈ D.anc Rs c ∨ i = c := by
  obtain ⟨Fc, dc, st⟩ := h.stage hc
  have xoff := side_off hx
  have subF : segsPts (D.edges Fc) ⊆ segsPts (D.edges F₀) := st.first.closed.sub_pts h.start.closed st.sub
  have hxc : D.LeftOf Fc b x := SideOf.mono hx subF
  have hin : D.InC Rs c x := st.traced.left_inside st.first hb hxc
  rcases Nat.lt_trichotomy i c with hlt | rfl | hgt
  · constructor
    · intro hi'
      exact Or.inl (h.within_of_both hlt hc xoff hi' hin)
    · rintro (hi' | rfl)
      · exact h.of_within hc xoff hi' hin
      · omega
  · simp only [or_true, iff_true]
    exact hin
  · have sub : ∀ k ∈ nth Rs i, k ∈ Fc := fun k hk => (mem_rest.1 (st.later i hgt hi k hk)).1
    have hne : ¬ (i ∈ D.anc Rs c ∨ i = c) := by
      rintro (hh | hh)
      · have := (mem_anc.1 hh).1; omega
      · omega
    refine iff_of_false ?_ hne
    obtain ⟨y, hy⟩ := st.first.closed.exists_left st.first.lt
    obtain ⟨z, hz⟩ := st.first.closed.exists_right st.first.lt
    have l1 := ((st.traced.face b hb y x hy hxc).mono (sub_pts st.first.closed sub)).inside_iff (h.loop hi).proper (h.loop hi).even
    have dis := h.disjoint hc hi (by omega) st.traced.start
    rw [InC, ← l1, (h.loop hi).both st.first.closed sub st.first.mem dis.1 dis.2 hy hz]
    exact st.first.outside hz (h.loop hi) sub

/-- the contours around the right side of an edge -/
theorem right_iff (h : D.Traced₀ F₀ Rs F) {c : ℕ} (hc : c < Rs.length) {b : ℕ} (hb : b ∈ nth Rs c) {x : Point}
    (hx : D.RightOf F₀ b x) {i : ℕ} (hi : i < Rs.length) : D.InC Rs i x ↔ i ∈ D.anc Rs c := by
  obtain ⟨Fc, dc, st⟩ := h.stage hc
  have subF : segsPts (D.edges Fc) ⊆ segsPts (D.edges F₀) := st.first.closed.sub_pts h.start.closed st.sub
  have hself : c ∉ D.anc Rs c := fun hh => by have := (mem_anc.1 hh).1; omega
  by_cases hic : i = c
  · subst hic
    exact iff_of_false (st.traced.right_outside st.first hb (SideOf.mono hx subF)) hself
  · obtain ⟨y, hy⟩ := h.start.closed.exists_left (h.lt hc hb)
    have dis := h.disjoint hc hi (Ne.symm hic) hb
    rw [InC, (h.loop hi).both h.start.closed (fun _ hx => h.mem hi hx) (h.mem hc hb) dis.1 dis.2 hx hy]
    have := h.left_iff hc hb hy hi
    unfold InC at this
    rw [this]
    simp [hic]

theorem nonempty (h : D.Traced₀ F₀ Rs F) {j : ℕ} (hj : j < Rs.length) : ∃ b, b ∈ nth Rs j := by
  obtain ⟨Fj, dj, st⟩ := h.stage hj
  exact ⟨dj, st.traced.start⟩

/-- a point inside of a contour and those around it only -/
theorem exists_left (h : D.Traced₀ F₀ Rs F) {j : ℕ} (hj : j < Rs.length) :
    ∃ x, x ∉ segsPts (D.edges F₀) ∧ ∀ i < Rs.length, (D.InC Rs i x ↔ i ∈ D.anc Rs j ∨ i = j) := by
  obtain ⟨b, hb⟩ := h.nonempty hj
  obtain ⟨x, hx⟩ := h.start.closed.exists_left (h.lt hj hb)
  exact ⟨x, side_off hx, fun i hi => h.left_iff hj hb hx hi⟩

theorem anc_trans (h : D.Traced₀ F₀ Rs F) {i j k : ℕ} (hk : k < Rs.length) (h1 : i ∈ D.anc Rs j) (h2 : j ∈ D.anc Rs k) :
    i ∈ D.anc Rs k := by
  have l1 := (mem_anc.1 h1).1
  have l2 := (mem_anc.1 h2).1
  obtain ⟨x, hx, hA⟩ := h.exists_left hk
  have hj : D.InC Rs j x := (hA j (by omega)).2 (Or.inl h2)
  have hi := h.of_within (by omega) hx h1 hj
  rcases (hA i (by omega)).1 hi with h3 | h3
  · exact h3
  · omega

theorem anc_chain (h : D.Traced₀ F₀ Rs F) {i j k : ℕ} (hk : k < Rs.length) (h1 : i ∈ D.anc Rs k) (h2 : j ∈ D.anc Rs k)
    (hij : i < j) : i ∈ D.anc Rs j := by
  have l1 := (mem_anc.1 h1).1
  have l2 := (mem_anc.1 h2).1
  obtain ⟨x, hx, hA⟩ := h.exists_left hk
  exact h.within_of_both hij (by omega) hx ((hA i (by omega)).2 (Or.inl h1)) ((hA j (by omega)).2 (Or.inl h2))

/-- the contours around a point -/
noncomputable def around (D : Darts) (Rs : List (List ℕ)) (q : Point) : Finset ℕ :=
  (Finset.range Rs.length).filter fun i => D.InC Rs i q

theorem mem_around {q : Point} {i : ℕ} : i ∈ around D Rs q ↔ i < Rs.length ∧ D.InC Rs i q := by
  unfold around; rw [Finset.mem_filter, Finset.mem_range]

/-- The contours around a point are the innermost one and those around it. -/
theorem around_eq (h : D.Traced₀ F₀ Rs F) {q : Point} (hq : q ∉ segsPts (D.edges F₀)) (hne : (around D Rs q).Nonempty) :
    ∃ k, k < Rs.length ∧ D.InC Rs k q ∧ around D Rs q = insert k (D.anc Rs k) := by
  classical
  obtain ⟨k, hk, hmax⟩ := (around D Rs q).exists_max_image id hne
  obtain ⟨k1, k2⟩ := mem_around.1 hk
  refine ⟨k, k1, k2, ?_⟩
  ext i
  rw [Finset.mem_insert, mem_around]
  constructor
  · rintro ⟨h1, h2⟩
    have := hmax i (mem_around.2 ⟨h1, h2⟩)
    simp only [id] at this
    rcases this.eq_or_lt with h3 | h3
    · exact Or.inl h3
    · exact Or.inr (h.within_of_both h3 k1 hq h2 k2)
  · rintro (rfl | h1)
    · exact ⟨k1, k2⟩
    · exact ⟨by have := (mem_anc.1 h1).1; omega, h.of_within k1 hq h1 k2⟩

end Traced₀

end Darts

end Clipping

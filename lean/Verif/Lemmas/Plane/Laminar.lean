import Verif.Lemmas.Plane.Start
import Mathlib.Data.List.TakeWhile

/-!
# Traced contours are nested
-/

namespace Clipping

/-- The first run of elements with a property after an element without it -/
theorem exists_run {β : Type} {P : β → Prop} [DecidablePred P] : ∀ {b : β} {l : List β}, ¬ P b → (∃ a ∈ l, P a) →
    ∃ pre c Q post, b :: l = pre ++ c :: (Q ++ post) ∧ ¬ P c ∧ Q ≠ [] ∧ (∀ x ∈ Q, P x) ∧
      (post = [] ∨ ∃ e post', post = e :: post' ∧ ¬ P e) := by
  intro b l hb
  induction l generalizing b with
  | nil => rintro ⟨a, ha, -⟩; cases ha
  | cons x l ih =>
    rintro ⟨a, ha, hPa⟩
    by_cases hx : P x
    · refine ⟨[], b, (x :: l).takeWhile (fun y => decide (P y)), (x :: l).dropWhile (fun y => decide (P y)), ?_, hb, ?_, ?_, ?_⟩
      · rw [List.takeWhile_append_dropWhile]; rfl
      · rw [List.takeWhile_cons]; simp [hx]
      · intro y hy
        simpa using List.mem_takeWhile_imp hy
      · cases h : (x :: l).dropWhile (fun y => decide (P y)) with
        | nil => exact Or.inl rfl
        | cons e post =>
          refine Or.inr ⟨e, post, rfl, ?_⟩
          have := List.head_dropWhile_not (l := x :: l) (fun y => decide (P y)) (by rw [h]; simp)
          simp only [h, List.head_cons] at this
          simpa using this
    · have hal : a ∈ l := by
        rcases List.mem_cons.1 ha with rfl | h
        · exact absurd hPa hx
        · exact h
      obtain ⟨pre, c, Q, post, e, h1⟩ := ih hx ⟨a, hal, hPa⟩
      exact ⟨b :: pre, c, Q, post, by rw [e]; rfl, h1⟩

namespace Darts

variable {D : Darts}

theorem Loop.key_opp {L : List ℕ} (hL : D.Loop L) {i : ℕ} (hi : i ∈ L) : D.key (D.opp i) ∈ L.map D.key := by
  obtain ⟨v, hv⟩ := hL.way
  obtain ⟨α, β, rfl⟩ := List.append_of_mem hi
  obtain ⟨b, h1, h2, h3⟩ := isWay_append.1 hv
  cases β with
  | cons j β =>
    refine List.mem_map.2 ⟨j, by simp, ?_⟩
    exact h3.1
  | nil =>
    have h3 : D.key (D.opp i) = v := h3
    rw [h3]
    cases α with
    | nil =>
      have h1 : v = b := h1
      exact List.mem_map.2 ⟨i, by simp, by rw [h2, h1]⟩
    | cons k α => exact List.mem_map.2 ⟨k, by simp, h1.1⟩

/-- A vertex of one loop on another loop is a vertex of it. -/
theorem Loop.vertex {L : List ℕ} (hL : D.Loop L) {i : ℕ} (hi : i < D.n) (n1 : i ∉ L) (n2 : D.opp i ∉ L) {v : Point}
    (hv : (D.seg i).IsEnd v) (h : v ∈ segsPts (L.map D.seg)) : v ∈ L.map D.key := by
  obtain ⟨g, hg, hvg⟩ := h
  obtain ⟨j, hj, rfl⟩ := List.mem_map.1 hg
  have hvi : v ∈ (D.seg i).pts := by
    rcases hv with rfl | rfl
    · exact Segment.start_mem _
    · exact Segment.stop_mem _
  rcases (seg_ends hi (hL.lt j hj) (fun e => n1 (e ▸ hj)) (fun e => n2 (e ▸ hj)) hvi hvg).2 with h | h
  · exact List.mem_map.2 ⟨j, hj, h.symm⟩
  · rw [h]; exact hL.key_opp hj

namespace Traced

variable {F : Finset ℕ} {d : ℕ} {R : List ℕ}

/-- A loop of the rest is on one side of the contour. -/
theorem oneSided (T : D.Traced F d R) (h : D.First F d) {M : List ℕ} (hM : D.Loop M) (sub : ∀ i ∈ M, i ∈ D.rest F R) :
    (∀ m ∈ segsPts (M.map D.seg), m ∉ segsPts (R.map D.seg) → Inside (R.map D.seg) m) ∨
      (∀ m ∈ segsPts (M.map D.seg), m ∉ segsPts (R.map D.seg) → ¬ Inside (R.map D.seg) m) := by
  classical
  -- an edge is inside
  set P : ℕ → Prop := fun i => ∃ y, D.LeftOf F i y ∧ Inside (R.map D.seg) y with hP
  have status : ∀ i ∈ M, ∀ m ∈ (D.seg i).pts, m ∉ segsPts (R.map D.seg) → (Inside (R.map D.seg) m ↔ P i) := by
    intro i hi m hm off
    obtain ⟨i1, i2, i3⟩ := mem_rest.1 (sub i hi)
    have key : ∀ y, D.LeftOf F i y → (Inside (R.map D.seg) m ↔ Inside (R.map D.seg) y) := fun y hy =>
      (side_of_edge h.closed T.mem i1 i2 i3 hm off hy).inside_iff T.loop.proper T.loop.even
    constructor
    · intro hin
      obtain ⟨y, hy⟩ := h.closed.exists_left (h.closed.lt i i1)
      exact ⟨y, hy, (key y hy).1 hin⟩
    · rintro ⟨y, hy, hin⟩
      exact (key y hy).2 hin
  by_cases all : ∀ i ∈ M, P i
  · left
    rintro m ⟨g, hg, hm⟩ off
    obtain ⟨i, hi, rfl⟩ := List.mem_map.1 hg
    exact (status i hi m hm off).2 (all i hi)
  · right
    push Not at all
    obtain ⟨b, hb, nb⟩ := all
    rintro m ⟨g, hg, hm⟩ off hin
    obtain ⟨a, ha, rfl⟩ := List.mem_map.1 hg
    have pa := (status a ha m hm off).1 hin
    clear hm off hin hg
    obtain ⟨α, β, rfl⟩ := List.append_of_mem hb
    have hM' := hM.rotate
    have perm : (α ++ b :: β).Perm (b :: β ++ α) := List.perm_append_comm
    have sub' : ∀ i ∈ b :: β ++ α, i ∈ D.rest F R := fun i hi => sub i (perm.mem_iff.2 hi)
    have status' : ∀ i ∈ b :: β ++ α, ∀ m ∈ (D.seg i).pts, m ∉ segsPts (R.map D.seg) →
        (Inside (R.map D.seg) m ↔ P i) := fun i hi => status i (perm.mem_iff.2 hi)
    have hab : a ∈ β ++ α := by
      rcases List.mem_cons.1 (perm.mem_iff.1 ha) with rfl | h
      · exact absurd pa nb
      · exact h
    obtain ⟨pre, c, Q, post, e, nc, Qne, Qall, hpost⟩ := exists_run nb ⟨a, hab, pa⟩
    rw [List.cons_append] at hM' sub' status'
    rw [e] at hM' sub' status'
    -- vertices of the loop with edges on different sides are on the contour
    have meet : ∀ i ∈ pre ++ c :: (Q ++ post), ∀ j ∈ pre ++ c :: (Q ++ post), P i → ¬ P j → ∀ v, (D.seg i).IsEnd v →
        (D.seg j).IsEnd v → v ∈ R.map D.key := by
      intro i hi j hj pi nj v vi vj
      obtain ⟨i1, i2, i3⟩ := mem_rest.1 (sub' i hi)
      refine T.loop.vertex (h.closed.lt i i1) i2 i3 vi ?_
      by_contra off
      have mem : ∀ k, (D.seg k).IsEnd v → v ∈ (D.seg k).pts := by
        rintro k (rfl | rfl)
        · exact Segment.start_mem _
        · exact Segment.stop_mem _
      exact nj ((status' j hj v (mem j vj) off).1 ((status' i hi v (mem i vi) off).2 pi))
    obtain ⟨v₀, hv₀⟩ := hM'.way
    obtain ⟨x, w1, w2, w3⟩ := isWay_append.1 hv₀
    obtain ⟨y, w4, w5⟩ := isWay_append.1 w3
    have nd := hM'.keys
    obtain ⟨q₀, Q', rfl⟩ : ∃ q₀ Q', Q = q₀ :: Q' := by
      cases Q with
      | nil => exact absurd rfl Qne
      | cons q₀ Q' => exact ⟨q₀, Q', rfl⟩
    have hv : D.key (D.opp c) ∈ R.map D.key :=
      meet q₀ (by simp) c (by simp) (Qall q₀ (by simp)) nc _ (Or.inl w4.1.symm) (Or.inr rfl)
    -- the last edge of the run
    obtain ⟨Q'', ql, hQ⟩ : ∃ Q'' ql, q₀ :: Q' = Q'' ++ [ql] :=
      ⟨_, _, (List.dropLast_append_getLast (List.cons_ne_nil q₀ Q')).symm⟩
    have wl : D.key (D.opp ql) = y := by
      have := w4
      rw [hQ] at this
      exact (isWay_snoc.1 this).2
    have mql : ql ∈ q₀ :: Q' := by rw [hQ]; simp
    have hw : y ∈ R.map D.key ∧ y ≠ D.key (D.opp c) := by
      rw [← w4.1]
      rcases hpost with rfl | ⟨f, post', rfl, nf⟩
      · have hy : y = v₀ := w5
        cases pre with
        | nil =>
          have hx : v₀ = x := w1
          have hc : D.key c = v₀ := w2.trans hx.symm
          refine ⟨meet ql (by simp at mql ⊢; tauto) c (by simp) (Qall ql mql) nc _ (Or.inr wl.symm) (Or.inl (hy.trans hc.symm)), ?_⟩
          rw [hy, ← hc]
          intro hh
          simp [hh] at nd
        | cons p pre =>
          have hp : D.key p = v₀ := w1.1
          have hbp : b = p := (List.cons.inj e).1
          refine ⟨meet ql (by simp at mql ⊢; tauto) p (by simp) (Qall ql mql) (hbp ▸ nb) _ (Or.inr wl.symm)
            (Or.inl (hy.trans hp.symm)), ?_⟩
          rw [hy, ← hp]
          intro hh
          simp [hh] at nd
      · have hf : D.key f = y := w5.1
        refine ⟨meet ql (by simp at mql ⊢; tauto) f (by simp) (Qall ql mql) nf _ (Or.inr wl.symm) (Or.inl hf.symm), ?_⟩
        rw [← hf]
        intro hh
        rw [List.map_append, List.nodup_append] at nd
        have := nd.2.1
        simp [hh] at this
    have memQ : ∀ i ∈ q₀ :: Q', i ∈ pre ++ c :: (q₀ :: Q' ++ post) := by
      intro i hi
      simp only [List.mem_append, List.mem_cons] at hi ⊢
      tauto
    refine no_theta h.closed T.loop T.mem (Q := q₀ :: Q') ?_ (fun i hi j hj => T.face' h.closed hi hj) ?_ ?_ ?_ ?_ hv hw.1 hw.2 w4 ?_
    · intro i hi
      exact (mem_rest.1 (sub' i (memQ i hi))).1
    · have := hM'.nodup
      rw [List.nodup_append, List.nodup_cons, List.nodup_append] at this
      exact this.2.1.2.1
    · intro i hi
      exact (mem_rest.1 (sub' i (memQ i hi))).2.1
    · intro i hi ho
      exact hM'.opp i (memQ i hi) (memQ _ ho)
    · intro i hi
      exact (mem_rest.1 (sub' i (memQ i hi))).2.2
    · rintro i hi q hq m ⟨g, hg, hm⟩ off
      obtain ⟨k, hk, rfl⟩ := List.mem_map.1 hg
      have h1 := (status' k (memQ k hk) m hm off).2 (Qall k hk)
      have h2 := T.left_inside h hi hq
      exact ⟨fun _ => h2, fun _ => h1⟩

/-- Points on the same side of the contour are connected without crossing anything on the other side. -/
theorem linked_avoid (T : D.Traced F d R) {K : List Segment} {x y : Point} (hx : x ∉ segsPts (R.map D.seg))
    (hy : y ∉ segsPts (R.map D.seg)) (hxy : Inside (R.map D.seg) x ↔ Inside (R.map D.seg) y)
    (off : ∀ m ∈ segsPts K, m ∉ segsPts (R.map D.seg) → ¬ (Inside (R.map D.seg) m ↔ Inside (R.map D.seg) x)) :
    Linked K x y := by
  have link : Linked (R.map D.seg) x y := by
    have := T.loop.simple.linked_iff (x := x) (y := y)
    rw [T.loop.edges] at this
    exact (this hx hy).2 hxy
  have : ∀ z, Linked (R.map D.seg) x z → Linked K x z := by
    intro z hz
    induction hz with
    | refl => exact Relation.ReflTransGen.refl
    | @tail a b hab g ih =>
      refine ih.tail fun r hr hk => ?_
      have hxr : Linked (R.map D.seg) x r := hab.tail (g.sub hr)
      exact off r hk (g r hr) (hxr.inside_iff T.loop.proper T.loop.even).symm
  exact this y link

end Traced

/-- The loop `M` is within the loop `L`. -/
structure Within (D : Darts) (L M : List ℕ) : Prop where
  edge : ∀ q ∈ segsPts (M.map D.seg), q ∉ segsPts (L.map D.seg) → Inside (L.map D.seg) q
  inside : ∀ q, q ∉ segsPts (L.map D.seg) → q ∉ segsPts (M.map D.seg) → Inside (M.map D.seg) q → Inside (L.map D.seg) q

/-- The loop `M` is outside of the loop `L`. -/
structure Beside (D : Darts) (L M : List ℕ) : Prop where
  edge : ∀ q ∈ segsPts (M.map D.seg), q ∉ segsPts (L.map D.seg) → ¬ Inside (L.map D.seg) q
  inside : ∀ q, q ∉ segsPts (L.map D.seg) → q ∉ segsPts (M.map D.seg) → Inside (M.map D.seg) q → ¬ Inside (L.map D.seg) q

namespace Traced

variable {F : Finset ℕ} {d : ℕ} {R : List ℕ}

/-- A loop of the rest is within the contour or beside it. -/
theorem laminar (T : D.Traced F d R) (h : D.First F d) {M : List ℕ} (hM : D.Loop M) (sub : ∀ i ∈ M, i ∈ D.rest F R) :
    D.Within R M ∨ D.Beside R M := by
  have subF : ∀ i ∈ M, i ∈ F := fun i hi => (mem_rest.1 (sub i hi)).1
  obtain ⟨x, hx⟩ := h.closed.exists_left h.lt
  obtain ⟨y, hy⟩ := h.closed.exists_right h.lt
  have x1 := T.left_inside h T.start hx
  have y1 := T.right_outside h T.start hy
  have y2 := h.outside hy hM subF
  have n1 : d ∉ M := fun hd => (mem_rest.1 (sub d hd)).2.1 T.start
  have n2 : D.opp d ∉ M := fun hd => (mem_rest.1 (sub _ hd)).2.2 (by rw [D.opp_opp d h.lt]; exact T.start)
  have x2 : ¬ Inside (M.map D.seg) x := by
    rw [hM.both h.closed subF h.mem n1 n2 hx hy]; exact y2
  have xo := (hx.mono (sub_pts h.closed T.mem)).off
  have yo := (hy.mono (sub_pts h.closed T.mem)).off
  rcases T.oneSided h hM sub with hs | hs
  · left
    refine ⟨hs, ?_⟩
    intro q h1 h2 h3
    by_contra h4
    have l := T.linked_avoid (K := M.map D.seg) h1 yo (by tauto) (fun m hm off => by
      have := hs m hm off
      tauto)
    exact y2 ((l.inside_iff hM.proper hM.even).1 h3)
  · right
    refine ⟨hs, ?_⟩
    intro q h1 h2 h3 h4
    have l := T.linked_avoid (K := M.map D.seg) h1 xo (by tauto) (fun m hm off => by
      have := hs m hm off
      tauto)
    exact x2 ((l.inside_iff hM.proper hM.even).1 h3)

/-- No point of a contour is inside of a later one. -/
theorem edge_outside (T : D.Traced F d R) (h : D.First F d) {M : List ℕ} (hM : D.Loop M) (sub : ∀ i ∈ M, i ∈ D.rest F R)
    {m : Point} (hm : m ∈ segsPts (R.map D.seg)) (off : m ∉ segsPts (M.map D.seg)) : ¬ Inside (M.map D.seg) m := by
  have subF : ∀ i ∈ M, i ∈ F := fun i hi => (mem_rest.1 (sub i hi)).1
  obtain ⟨g, hg, hmg⟩ := hm
  obtain ⟨i, hi, rfl⟩ := List.mem_map.1 hg
  have li := T.loop.lt i hi
  have n1 : i ∉ M := fun hd => (mem_rest.1 (sub i hd)).2.1 hi
  have n2 : D.opp i ∉ M := fun hd => (mem_rest.1 (sub _ hd)).2.2 (by rw [D.opp_opp i li]; exact hi)
  have link : ∀ {σ : ℚ} {z : Point}, SideOf (D.edges F) (D.seg i) σ z → (Inside (M.map D.seg) m ↔ Inside (M.map D.seg) z) :=
    fun hz => (side_of_edge h.closed subF (T.mem i hi) n1 n2 hmg off hz).inside_iff hM.proper hM.even
  rcases T.laminar h hM sub with hw | hb
  · obtain ⟨y, hy⟩ := h.closed.exists_right li
    rw [link hy]
    intro hin
    exact T.right_outside h hi hy (hw.inside y ((hy.mono (sub_pts h.closed T.mem)).off)
      ((hy.mono (sub_pts h.closed subF)).off) hin)
  · obtain ⟨x, hx⟩ := h.closed.exists_left li
    rw [link hx]
    intro hin
    exact hb.inside x ((hx.mono (sub_pts h.closed T.mem)).off) ((hx.mono (sub_pts h.closed subF)).off) hin
      (T.left_inside h hi hx)

end Traced

end Darts

end Clipping

import Verif.Lemmas.Shaped.Assemble
import Verif.Lemmas.Below.Parity

/-!
# The contours around a traced contour

The edge below the first edge of a contour tells which contours are around it, unless some vertices touch edges.
-/

namespace Clipping

open Sweep Darts

theorem middle_mem (a b : Point) : middle a b ∈ (Segment.mk a b).pts :=
  ⟨1 / 2, by norm_num, by norm_num, by simp only [middle]; ring, by simp only [middle]; ring⟩

theorem middle_ne {a b : Point} (h : a ≠ b) : middle a b ≠ a ∧ middle a b ≠ b := by
  constructor <;> intro e <;> apply h <;> have e1 := congrArg Point.x e <;> have e2 := congrArg Point.y e <;>
    simp only [middle] at e1 e2 <;> exact Point.ext' (by linarith) (by linarith)

theorem degree_norm (E : List Segment) (q : Point) : degree (E.map Segment.norm) q = degree E q := by
  induction E with
  | nil => rfl
  | cons e E ih =>
    rw [List.map_cons, show e.norm :: E.map Segment.norm = [e.norm] ++ E.map Segment.norm from rfl, degree_append, ih,
      show e :: E = [e] ++ E from rfl, degree_append]
    congr 1
    unfold degree Segment.norm
    simp only [List.countP_singleton]
    rcases le_total e.start e.stop with hle | hle
    · rw [show e.lo = e.start from min_eq_left hle, show e.hi = e.stop from max_eq_right hle]
    · rw [show e.lo = e.stop from min_eq_right hle, show e.hi = e.start from max_eq_left hle, add_comm]

namespace Darts

variable {D : Darts}

/-- A point of an edge is inside of a loop exactly if the points on the right of the edge directed from its lesser end
are. -/
theorem Closed.inside_mid {F : Finset ℕ} (hF : D.Closed F) {R : List ℕ} (hR : D.Loop R) (sub : ∀ i ∈ R, i ∈ F) {x : ℕ}
    (hx : x ∈ F) (lt : D.key x < D.key (D.opp x)) {m : Point} (hm : m ∈ (D.seg x).pts) (hi : ¬ (D.seg x).IsEnd m)
    {q : Point} (hq : D.RightOf F x q) : Inside (R.map D.seg) q ↔ Inside (R.map D.seg) m := by
  classical
  have lx := hF.lt x hx
  by_cases hin : x ∈ R ∨ D.opp x ∈ R
  · obtain ⟨y, hy, hyx⟩ : ∃ y ∈ R, y = x ∨ y = D.opp x := by
      rcases hin with h | h
      · exact ⟨x, h, Or.inl rfl⟩
      · exact ⟨D.opp x, h, Or.inr rfl⟩
    have ly := hR.lt y hy
    have perm : R.Perm (y :: R.erase y) := List.perm_cons_erase hy
    have pm : (R.map D.seg).Perm (D.seg y :: (R.erase y).map D.seg) := perm.map D.seg
    have pe : D.seg y = D.seg x ∨ D.seg y = (D.seg x).swap := by
      rcases hyx with e | e
      · left; rw [e]
      · right; rw [e, seg_opp lx]
    have hl : (D.seg y).lo = D.key x ∧ (D.seg y).hi = D.key (D.opp x) := by
      rcases pe with e | e
      · rw [e]
        exact ⟨min_eq_left lt.le, max_eq_right lt.le⟩
      · rw [e]
        exact ⟨min_eq_right lt.le, max_eq_left lt.le⟩
    have my : m ∈ (D.seg y).pts := by
      rcases pe with e | e
      · rw [e]; exact hm
      · rw [e, Segment.swap_pts]; exact hm
    have iy : ¬ (D.seg y).IsEnd m := by
      rcases pe with e | e
      · rw [e]; exact hi
      · rw [e, Segment.isEnd_swap]; exact hi
    have off : m ∉ segsPts ((R.erase y).map D.seg) := by
      rintro ⟨g, hg, hmg⟩
      obtain ⟨k, hk, rfl⟩ := List.mem_map.1 hg
      have hk' := (hR.nodup.mem_erase_iff).1 hk
      refine iy (seg_ends ly (hR.lt k hk'.2) (Ne.symm hk'.1) ?_ my hmg).1
      intro e
      exact hR.opp y hy (e ▸ hk'.2)
    obtain ⟨δ, δ0, hδ⟩ := local_sides (e := D.seg y) (E := (R.erase y).map D.seg)
      (fun s hs => hR.proper s (pm.mem_iff.2 hs)) (fun q => by rw [← degree_perm pm]; exact hR.even q) my iy off
    obtain ⟨δ', δ0', hδ'⟩ := (hF.alone lx).near_side hF.proper hm hi
    obtain ⟨z, hz, hc⟩ := exists_left_near (e := (D.seg x).swap) (Ne.symm (Darts.proper lx))
      (by rw [Segment.swap_pts]; exact hm) (lt_min δ0 δ0')
    have hc' : cross (D.seg x).swap.start (D.seg x).swap.stop z = - cross (D.seg x).start (D.seg x).stop z := cross_swap _ _ _
    have hc2 : cross (D.key x) (D.key (D.opp x)) z < 0 := by
      have : cross (D.key x) (D.key (D.opp x)) z = cross (D.seg x).start (D.seg x).stop z := rfl
      rw [this]; linarith
    have hzr : D.RightOf F x z := hδ' z (-1) (hz.mono (min_le_right _ _)) (by linarith)
    have h1 := (hδ z (hz.mono (min_le_left _ _))).2.2 (by rw [hl.1, hl.2]; exact hc2)
    have h2 := ((hF.right_linked lx hq hzr).mono (E' := R.map D.seg) (Darts.sub_pts hF sub)).inside_iff hR.proper hR.even
    rw [h2, inside_perm pm, h1, inside_perm pm]
  · rw [not_or] at hin
    have off : m ∉ segsPts (R.map D.seg) := by
      rintro ⟨g, hg, hmg⟩
      obtain ⟨k, hk, rfl⟩ := List.mem_map.1 hg
      exact hi (seg_ends lx (hR.lt k hk) (fun e => hin.1 (e ▸ hk)) (fun e => hin.2 (e ▸ hk)) hm hmg).1
    exact ((side_of_edge hF sub hx hin.1 hin.2 hm off hq).inside_iff hR.proper hR.even).symm

end Darts

namespace Selected

variable {h : Heap ShapedData} {events : List Ev}

/-- the numbers of the edges of a contour -/
def ids (h : Heap ShapedData) (events : List Ev) (R : List ℕ) : List ℕ := R.map fun x => h.primary (ev h events x)

theorem seg_norm (S : Selected h events) {x : ℕ} (hx : x < S.darts.n) :
    (S.darts.seg x).norm = (h.segment (h.primary (ev h events x))).norm := by
  have := S.rawDarts_seg (sort_perm (h := h)) hx
  change S.darts.seg x = evSeg h (ev h events x) at this
  rw [this]
  cases he : ev h events x with
  | left i => rfl
  | right j =>
    have oe := S.evOk _ (ev_mem (h := h) (events := events) hx)
    rw [he] at oe
    rw [← norm_swap]
    unfold evSeg Segment.swap
    rw [evStart_right S.ok oe, evStop_right]
    rfl

theorem ids_sameEdges (S : Selected h events) {R : List ℕ} (hR : ∀ x ∈ R, x < S.darts.n) :
    SameEdges ((ids h events R).map h.segment) (R.map S.darts.seg) := by
  unfold SameEdges ids
  apply List.Perm.of_eq
  rw [List.map_map, List.map_map, List.map_map]
  apply List.map_congr_left
  intro x hx
  exact (S.seg_norm (hR x hx)).symm

theorem left_mem (S : Selected h events) {x : ℕ} (hx : x < S.darts.n) : Ev.left (h.primary (ev h events x)) ∈ events :=
  mem_leftIds.1 (S.primary_mem (ev_mem (h := h) (events := events) hx))

theorem index_eq (S : Selected h events) {x y : ℕ} (hx : x < S.darts.n) (hy : y < S.darts.n)
    (e : h.primary (ev h events x) = h.primary (ev h events y)) : y = x ∨ y = S.darts.opp x := by
  rcases S.primary_eq (ev_mem (h := h) (events := events) hx) (ev_mem (h := h) (events := events) hy) e with key | key
  · left
    rw [← S.opp_eventId hy, ← key, S.opp_eventId hx]
  · right
    rw [← S.opp_eventId hy, ← key, S.darts_opp]

theorem ids_nodup (S : Selected h events) {R : List ℕ} (hR : S.darts.Loop R) : (ids h events R).Nodup := by
  refine hR.nodup.map_on ?_
  intro x hx y hy e
  rcases S.index_eq (hR.lt x hx) (hR.lt y hy) e with h1 | h1
  · exact h1.symm
  · exact absurd (h1 ▸ hy) (hR.opp x hx)

theorem mem_ids (S : Selected h events) {R : List ℕ} (hR : S.darts.Loop R) {x b : ℕ} (hx : x < S.darts.n)
    (hb : ev h events x = .left b) : b ∈ ids h events R ↔ x ∈ R ∨ S.darts.opp x ∈ R := by
  have e0 : h.primary (ev h events x) = b := by rw [hb]; rfl
  have eo : h.primary (ev h events (S.darts.opp x)) = b := by
    have hm := ev_mem (h := h) (events := events) hx
    have := getD_eventId ((sort_perm (h := h)).mem_iff.2 (S.opposite _ hm))
    have e1 : ev h events (S.darts.opp x) = h.opposite (ev h events x) := by
      rw [S.darts_opp]; exact this
    have oe := S.evOk _ hm
    rw [hb] at e1 oe
    rw [e1]
    exact S.ok.lr b oe
  unfold ids
  rw [List.mem_map]
  constructor
  · rintro ⟨y, hy, e⟩
    rcases S.index_eq hx (hR.lt y hy) (by rw [e0, e]) with h1 | h1
    · left; rw [← h1]; exact hy
    · right; rw [← h1]; exact hy
  · rintro (h1 | h1)
    · exact ⟨x, h1, e0⟩
    · exact ⟨_, h1, eo⟩

/-- The recorded event below the first edge of a closed set of selected edges tells the parity of this set and of closed
sets of other selected edges. -/
def Parity (h : Heap ShapedData) (events : List Ev) : Prop :=
  ∀ J : List ℕ, J.Nodup → (∀ k ∈ J, Ev.left k ∈ events) → (∀ q, Even (degree (J.map h.segment) q)) →
    ∀ i, FirstEdge h J i → ∀ Ks : List ℕ, Ks.Nodup → (∀ k ∈ Ks, Ev.left k ∈ events) →
      (∀ q, Even (degree (Ks.map h.segment) q)) → (Ks = J ∨ ∀ k ∈ Ks, k ∉ J) →
      ((h.lefts i).data.below = none → ¬ Inside (Ks.map h.segment) (h.mid i)) ∧
      ∀ b, (h.lefts i).data.below = some b → Ev.left b ∈ events →
        (Inside (Ks.map h.segment) (h.mid i) ↔ (Inside (Ks.map h.segment) (h.mid b) ↔ b ∉ Ks))

section

variable {S : Selected h events} {processed : ℕ → Bool} {m : Marks} {r : Relations} {contours : List Contour}
  {Rs : List (List ℕ)} {F : Finset ℕ} {ptr : ℕ → Option (ℕ × Bool)}

theorem mid_inner (S : Selected h events) {x i : ℕ} (hx : x < S.darts.n) (hi : ev h events x = .left i) :
    h.mid i ∈ (S.darts.seg x).pts ∧ ¬ (S.darts.seg x).IsEnd (h.mid i) ∧ S.darts.key x < S.darts.key (S.darts.opp x) := by
  have e1 := S.rawDarts_seg (sort_perm (h := h)) hx
  change S.darts.seg x = evSeg h (ev h events x) at e1
  rw [hi] at e1
  have hm := ev_mem (h := h) (events := events) hx
  rw [hi] at hm
  have lt := S.lt i hm
  refine ⟨?_, ?_, (S.isLeft_iff hx).2 (by rw [hi]; rfl)⟩
  · rw [e1]
    exact middle_mem _ _
  · rw [e1]
    rintro (h1 | h1)
    · exact (middle_ne lt.ne).1 h1
    · exact (middle_ne lt.ne).2 h1

/-- The contours around a contour are given by the edge below its first edge. -/
theorem TraceInv.anc_eq (I : TraceInv S processed m r contours Rs F ptr) (P : Parity h events) {j : ℕ} (hj : j < Rs.length) :
    (ptr j = none → S.darts.anc Rs j = ∅) ∧
    (∀ c, ptr j = some (c, false) → S.darts.anc Rs j = insert c (S.darts.anc Rs c)) ∧
    ∀ c, ptr j = some (c, true) → S.darts.anc Rs j = S.darts.anc Rs c := by
  classical
  have T := I.traced₀
  obtain ⟨d, i, hd, hev, hnone, hsome⟩ := I.link j hj
  have hdR : d ∈ nth Rs j := List.mem_of_mem_head? hd
  have ld := T.lt hj hdR
  have him : Ev.left i ∈ events := by
    have := ev_mem (h := h) (events := events) ld
    rwa [hev] at this
  have ev1 : ∀ k < Rs.length, ∀ q, Even (degree ((ids h events (nth Rs k)).map h.segment) q) := by
    intro k hk q
    have same := S.ids_sameEdges (T.loop hk).lt
    rw [← degree_norm, show ((ids h events (nth Rs k)).map h.segment).map Segment.norm = _ from rfl, degree_perm same, degree_norm]
    exact (T.loop hk).even q
  have mem1 : ∀ k < Rs.length, ∀ a ∈ ids h events (nth Rs k), Ev.left a ∈ events := by
    intro k hk a ha
    obtain ⟨x, hx, rfl⟩ := List.mem_map.1 ha
    exact S.left_mem (T.lt hk hx)
  have first : FirstEdge h (ids h events (nth Rs j)) i := by
    refine ⟨(S.mem_ids (T.loop hj) ld hev).2 (Or.inl hdR), ?_⟩
    intro k hk hne
    obtain ⟨Fj, dj, st⟩ := T.stage hj
    have hdj : dj = d := by
      have := st.traced.head
      rw [hd] at this
      exact (Option.some.inj this).symm
    subst hdj
    obtain ⟨x, hx, e⟩ := List.mem_map.1 hk
    have hxF := st.traced.mem x hx
    have key : ∀ y ∈ Fj, y < S.darts.n → ev h events y = .left k → Before h (.left i) (.left k) := by
      intro y hy hyn hyk
      have hle := st.first.least y hy
      rcases hle.lt_or_eq with hlt | rfl
      · have := S.before_of_lt hlt hyn
        rwa [hev, hyk] at this
      · rw [hev] at hyk
        cases hyk
        exact absurd rfl hne
    have bef : Before h (.left i) (.left k) := by
      cases he : ev h events x with
      | left a =>
        rw [he] at e
        refine key x hxF (T.lt hj hx) ?_
        rw [he, ← e]; rfl
      | right a =>
        have hxn := T.lt hj hx
        have hm := ev_mem (h := h) (events := events) hxn
        have := getD_eventId ((sort_perm (h := h)).mem_iff.2 (S.opposite _ hm))
        have e1 : ev h events (S.darts.opp x) = h.opposite (ev h events x) := by
          rw [S.darts_opp]; exact this
        refine key _ (st.first.closed.opp x hxF) (S.darts.opp_lt x hxn) ?_
        rw [e1, he, ← e, he]; rfl
    rcases bef with h1 | ⟨h1, h2⟩
    · exact Or.inl h1
    · right
      refine ⟨h1, ?_⟩
      rcases h2 with ⟨h2, -⟩ | ⟨h2, -⟩ | ⟨-, -, h2⟩
      · cases h2
      · cases h2
      · rw [cross_eq_det]
        change 0 < det (vec (h.start i) (h.stop i)) (vec (h.start k) (h.stop k)) at h2
        rwa [← show h.start i = h.start k from h1] at h2
  have dis : ∀ k < Rs.length, ids h events (nth Rs k) = ids h events (nth Rs j) ∨
      ∀ a ∈ ids h events (nth Rs k), a ∉ ids h events (nth Rs j) := by
    intro k hk
    by_cases e : k = j
    · subst e; exact Or.inl rfl
    · right
      intro a ha ha'
      obtain ⟨x, hx, ex⟩ := List.mem_map.1 ha
      obtain ⟨y, hy, ey⟩ := List.mem_map.1 ha'
      have := T.disjoint hk hj e hx
      rcases S.index_eq (T.lt hk hx) (T.lt hj hy) (ex.trans ey.symm) with h1 | h1
      · rw [h1] at hy; exact this.1 hy
      · rw [h1] at hy; exact this.2 hy
  have par : ∀ k < Rs.length, _ := fun k hk => P (ids h events (nth Rs j)) (S.ids_nodup (T.loop hj)) (mem1 j hj) (ev1 j hj)
    i first (ids h events (nth Rs k)) (S.ids_nodup (T.loop hk)) (mem1 k hk) (ev1 k hk) (dis k hk)
  have atx : ∀ k < Rs.length, ∀ x < S.darts.n, ∀ b, ev h events x = .left b → ∀ q, S.darts.RightOf (Finset.range S.darts.n) x q →
      (Inside ((ids h events (nth Rs k)).map h.segment) (h.mid b) ↔ S.darts.InC Rs k q) := by
    intro k hk x hx b hb q hq
    obtain ⟨m1, m2, m3⟩ := S.mid_inner hx hb
    rw [(S.ids_sameEdges (T.loop hk).lt).inside_iff]
    exact (T.start.closed.inside_mid (T.loop hk) (fun _ hh => T.mem hk hh) (Finset.mem_range.2 hx) m3 m1 m2 hq).symm
  obtain ⟨y, hy⟩ := T.start.closed.exists_right ld
  have atj : ∀ k < Rs.length, (Inside ((ids h events (nth Rs k)).map h.segment) (h.mid i) ↔ k ∈ S.darts.anc Rs j) := by
    intro k hk
    rw [atx k hk d ld i hev y hy]
    exact T.right_iff hj hdR hy hk
  have sml : ∀ {k c}, k ∈ S.darts.anc Rs c → k < c := fun hh => (mem_anc.1 hh).1
  cases hb : (h.lefts i).data.below with
  | none =>
    have hn := hnone hb
    refine ⟨fun _ => ?_, by rw [hn]; simp, by rw [hn]; simp⟩
    rw [Finset.eq_empty_iff_forall_notMem]
    intro k hk
    have hkl : k < Rs.length := (sml hk).trans hj
    exact (par k hkl).1 hb ((atj k hkl).2 hk)
  | some b =>
    obtain ⟨c, hc, x, hx, hevx, hor⟩ := hsome b hb
    have hcl : c < Rs.length := hc.trans hj
    have hbm : Ev.left b ∈ events := by
      have := ev_mem (h := h) (events := events) hx
      rwa [hevx] at this
    obtain ⟨z, hz⟩ := T.start.closed.exists_right hx
    have main : ∀ k < Rs.length, (k ∈ S.darts.anc Rs j ↔ (S.darts.InC Rs k z ↔ ¬ (x ∈ nth Rs k ∨ S.darts.opp x ∈ nth Rs k))) := by
      intro k hk
      rw [← atj k hk, (par k hk).2 b hb hbm, atx k hk x hx b hevx z hz, S.mem_ids (T.loop hk) hx hevx]
    have owner : ∀ k < Rs.length, (x ∈ nth Rs k ∨ S.darts.opp x ∈ nth Rs k) ↔ k = c := by
      intro k hk
      constructor
      · intro hh
        by_contra hne
        have dis := fun u (hu : u ∈ nth Rs c) => T.disjoint hcl hk (Ne.symm hne) hu
        rcases hor with ⟨-, h1⟩ | ⟨-, h1⟩
        · have := dis x h1; tauto
        · have := dis _ h1
          rw [S.darts.opp_opp x hx] at this
          tauto
      · rintro rfl
        rcases hor with ⟨-, h1⟩ | ⟨-, h1⟩
        · exact Or.inl h1
        · exact Or.inr h1
    have self : c ∉ S.darts.anc Rs c := fun hh => lt_irrefl _ (sml hh)
    rcases hor with ⟨hp, h1⟩ | ⟨hp, h1⟩
    · refine ⟨by rw [hp]; simp, ?_, by rw [hp]; simp⟩
      intro c' hc'
      rw [hp] at hc'
      simp only [Option.some.injEq, Prod.mk.injEq, and_true] at hc'
      subst hc'
      ext k
      by_cases hk : k < Rs.length
      · rw [main k hk, owner k hk, T.right_iff hcl h1 hz hk, Finset.mem_insert]
        by_cases e : k = c
        · subst e; simp [self]
        · simp [e]
      · refine iff_of_false (fun hh => hk ((sml hh).trans hj)) ?_
        rw [Finset.mem_insert]
        rintro (rfl | hh)
        · exact hk hcl
        · exact hk ((sml hh).trans hcl)
    · refine ⟨by rw [hp]; simp, by rw [hp]; simp, ?_⟩
      intro c' hc'
      rw [hp] at hc'
      simp only [Option.some.injEq, Prod.mk.injEq, and_true] at hc'
      subst hc'
      have hz' : S.darts.LeftOf (Finset.range S.darts.n) (S.darts.opp x) z := by
        apply right_opp (S.darts.opp_lt x hx)
        rw [S.darts.opp_opp x hx]; exact hz
      ext k
      by_cases hk : k < Rs.length
      · rw [main k hk, owner k hk, T.left_iff hcl h1 hz' hk]
        by_cases e : k = c
        · subst e; simp [self]
        · simp [e]
      · exact iff_of_false (fun hh => hk ((sml hh).trans hj)) (fun hh => hk ((sml hh).trans hcl))

/-- Contours are internal if an odd number of contours is around them, and the parent of an internal contour is the
innermost one of them. -/
theorem TraceInv.nested (I : TraceInv S processed m r contours Rs F ptr) (P : Parity h events) (j : ℕ) (hj : j < Rs.length) :
    (r.areInternal.getD j false = true ↔ Odd (S.darts.anc Rs j).card) ∧
    ∀ p, r.parents.getD j none = some p → S.darts.anc Rs j = insert p (S.darts.anc Rs p) := by
  classical
  induction j using Nat.strong_induction_on with
  | _ j ih =>
    obtain ⟨a0, a1, a2⟩ := I.anc_eq P hj
    have self : ∀ c, c ∉ S.darts.anc Rs c := fun c hh => lt_irrefl _ (mem_anc.1 hh).1
    have hext : ∀ p, r.parents.getD j none = some p → r.areInternal.getD j false = true := fun p hp =>
      (I.rel.parent_external hj hp).2.2
    cases hp : ptr j with
    | none =>
      have hi := I.rel.base j hj hp
      refine ⟨?_, ?_⟩
      · rw [hi, a0 hp]; simp
      · intro p h1
        have := hext p h1
        rw [hi] at this; cases this
    | some cf =>
      obtain ⟨c, f⟩ := cf
      have hc := I.rel.lt j hj c f hp
      obtain ⟨i1, i2⟩ := ih c hc (hc.trans hj)
      cases f with
      | false =>
        have e := a1 c hp
        have hl := I.rel.lower j hj c hp
        refine ⟨?_, ?_⟩
        · rw [hl, e, Finset.card_insert_of_notMem (self c), Nat.odd_add_one, ← i1]
          simp
        · intro p h1
          obtain ⟨-, p', -, h3, -, h5⟩ := I.rel.internal j hj (hext p h1)
          rw [h1] at h3
          have : c = p := ((h5 c false hp).2 rfl).trans (Option.some.inj h3).symm
          rw [e, this]
      | true =>
        have e := a2 c hp
        have hl := I.rel.upper j hj c hp
        refine ⟨?_, ?_⟩
        · rw [hl, e]; exact i1
        · intro p h1
          obtain ⟨-, p', -, h3, -, h5⟩ := I.rel.internal j hj (hext p h1)
          rw [h1] at h3
          rw [e]
          apply i2
          rw [(h5 c true hp).1 rfl, h3]

end

end Selected

end Clipping

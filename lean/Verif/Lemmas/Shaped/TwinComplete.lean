import Verif.Lemmas.Shaped.Sorted
import Verif.Lemmas.Shaped.TwinSweep
import Verif.Lemmas.Shaped.CompleteResult

/-!
# The common edges and the touch points are determined by the edges of the operands
-/

namespace Clipping

open Sweep

variable {op : Bool → Bool → Bool} {h : Heap ShapedData} {events : List Ev} {stop : Point → Bool} {A B : List Segment}

theorem ShapedEnd.common_sorted (E : ShapedEnd op h events stop A B) :
    (commonEdges h (sortEvents h events)).Pairwise Selected.SegBefore := by
  rw [commonEdges_eq, List.pairwise_map]
  have perm : (sortEvents h events).Perm events := Selected.sort_perm
  unfold commonIds
  have key : (leftIds (sortEvents h events)).Pairwise fun i j => h.first i = true → i < h.count → j < h.count →
      Selected.SegBefore (h.segment i) (h.segment j) := by
    unfold leftIds
    rw [List.pairwise_filterMap]
    refine E.all_sorted.imp ?_
    intro e f hef i hi j hj hfi hin hjn
    cases e with
    | right k => cases hi
    | left k =>
      cases f with
      | right k => cases hj
      | left k' =>
        cases hi
        cases hj
        unfold NotAfter at hef
        unfold Selected.SegBefore
        rcases hef with g | ⟨g, g'⟩
        · exact Or.inl g
        · refine Or.inr ⟨g, Or.inr (Or.inr ⟨decide_eq_true (E.fin.lt _ hin), decide_eq_true (E.fin.lt _ hjn), ?_⟩)⟩
          rcases g' with ⟨g', -⟩ | ⟨g', -⟩ | ⟨-, -, g' | ⟨-, g'⟩⟩
          · cases g'
          · cases g'
          · exact g'
          · exact absurd (hfi.symm.trans g') (by simp)
  refine (key.filter _).imp_of_mem ?_
  · intro i j hi hj g
    obtain ⟨i1, i2⟩ := List.mem_filter.1 hi
    obtain ⟨j1, -⟩ := List.mem_filter.1 hj
    rw [Bool.and_eq_true] at i2
    exact g i2.1 ((E.mem _).1 (perm.mem_iff.1 (mem_leftIds.1 i1))).1 ((E.mem _).1 (perm.mem_iff.1 (mem_leftIds.1 j1))).1

theorem ShapedEnd.common_edge {rule : ShapedRule} (E : ShapedEnd op h events stop A B) (M : MarkedEnd rule h events) {t : Segment}
    (ht : t ∈ commonEdges h (sortEvents h events)) : ∃ i ∈ finishedLefts h events, h.segment i = t := by
  obtain ⟨n, hi, h1, hk, rfl⟩ := mem_commonEdges.1 ht
  have hn : n < h.count := ((E.mem _).1 (Selected.sort_perm.mem_iff.1 hi)).1
  refine ⟨n, ?_, rfl⟩
  obtain ⟨k, hkn, hne, hs⟩ : ∃ k < h.count, k ≠ n ∧ h.segment k = h.segment n := by
    by_contra hc
    push Not at hc
    rw [M.free n hn hc] at hk
    cases hk
  have hop := E.fin.op k hkn n hn hne hs
  have e2 : h.stop k = h.stop n := congrArg Segment.stop hs
  have iff : k ∈ finishedLefts h events ↔ n ∈ finishedLefts h events := by
    rw [E.fin.done k hkn, e2, ← E.fin.done n hn]
  by_contra hc
  refine hc (iff.1 (M.finall (h.first k) n hn ?_ hc k hkn rfl))
  revert hop
  cases h.first k <;> cases h.first n <;> simp

/-- The common edges are the edges of the arrangement in both operands and not in the region of the result. -/
theorem ShapedEnd.mem_common {rule : ShapedRule} (E : ShapedEnd op h events stop A B) (M : MarkedEnd rule h events)
    (hA : NoOverlap A) (hB : NoOverlap B) {X Y R : Set Point} {ps : List Point}
    (C : CompleteParts X Y ps (commonEdges h (sortEvents h events)) R) (t : Segment) :
    t ∈ commonEdges h (sortEvents h events) ↔
      IsEdge (A ++ B) t ∧ ∀ m ∈ t.pts, ¬ t.IsEnd m → (m ∈ X ∧ m ∈ Y) ∧ m ∉ R := by
  have edge : ∀ i ∈ finishedLefts h events, IsEdge (A ++ B) (h.segment i) := by
    intro i hi
    have := E.fin.edge hi
    rwa [marked_fst] at this
  constructor
  · intro ht
    obtain ⟨i, hi, rfl⟩ := E.common_edge M ht
    exact ⟨edge i hi, fun m m1 m2 => ⟨(C.all m).1 (Or.inr (Or.inl ⟨_, ht, m1⟩)), fun hr => m2 (C.meet _ ht m m1 hr)⟩⟩
  · rintro ⟨he, hm⟩
    obtain ⟨m, m1, m2, m3⟩ : ∃ m ∈ t.pts, ¬ t.IsEnd m ∧ m ∉ ps := by
      by_contra hc
      push Not at hc
      refine overlapping_of_finite_false he.lt.ne ((Set.toFinite {t.start, t.stop}).union ps.finite_toSet |>.subset ?_)
      intro q hq
      by_cases hh : t.IsEnd q
      · left; exact hh
      · right; exact hc q hq hh
    have hv : ¬ Vertex (A ++ B) m := fun hv => m2 (he.inner m m1 hv)
    obtain ⟨hc, hr⟩ := hm m m1 m2
    rcases (C.all m).2 hc with g | ⟨t', ht', hm'⟩ | g
    · exact absurd g m3
    · obtain ⟨i, hiF, rfl⟩ := E.common_edge M ht'
      have hei := edge i hiF
      have hl := (operandsOk_marked hA hB).1
      obtain ⟨s, hs', hsub⟩ := he.within
      have : ∃ x ∈ marked A B, x.1 = s := by
        rw [← marked_fst A B] at hs'
        obtain ⟨x, hx, e⟩ := List.mem_map.1 hs'
        exact ⟨x, hx, e⟩
      obtain ⟨x, hx, rfl⟩ := this
      obtain ⟨k, hk, -, hsub', hmk⟩ := E.fin.cov x hx m (hsub m1)
      obtain ⟨e1, hkF⟩ := E.fin.same hiF hk hm' hmk (fun hh => hv (by
        rcases hh with rfl | rfl
        · exact hei.start
        · exact hei.stop))
      have he' : IsEdge ((marked A B).map Prod.fst) t := by rw [marked_fst]; exact he
      have e2 := E.fin.edge_eq hl hx he' hsub hkF hsub' m1 hmk m2
      rw [← e2, ← e1]
      exact ht'
    · exact absurd g hr

variable {op' : Bool → Bool → Bool} {h' : Heap ShapedData} {events' : List Ev} {stop' : Point → Bool} {A' B' : List Segment}

theorem ShapedEnd.common_twin {rule rule' : ShapedRule} (E : ShapedEnd op h events stop A B) (M : MarkedEnd rule h events)
    (E' : ShapedEnd op' h' events' stop' A' B') (M' : MarkedEnd rule' h' events') (hA : NoOverlap A) (hB : NoOverlap B)
    (hA' : NoOverlap A') (hB' : NoOverlap B') (hs : SameSegments (A ++ B) (A' ++ B')) {X Y X' Y' R R' : Set Point}
    {ps ps' : List Point} (C : CompleteParts X Y ps (commonEdges h (sortEvents h events)) R)
    (C' : CompleteParts X' Y' ps' (commonEdges h' (sortEvents h' events')) R') (hx : X ∩ Y = X' ∩ Y') (hr : R = R') :
    commonEdges h (sortEvents h events) = commonEdges h' (sortEvents h' events') ∧ ps = ps' := by
  have irr : ∀ {h : Heap ShapedData} {es : List Ev}, (commonEdges h es).Pairwise Selected.SegBefore → (commonEdges h es).Nodup :=
    fun hp => hp.imp fun g e => by subst e; exact Selected.segBefore_asymm g g
  have mem : ∀ q, (q ∈ X ∧ q ∈ Y) ↔ (q ∈ X' ∧ q ∈ Y') := fun q => by
    have := Set.ext_iff.1 hx q
    exact this
  subst hr
  have e : commonEdges h (sortEvents h events) = commonEdges h' (sortEvents h' events') := by
    refine List.Perm.eq_of_pairwise (le := Selected.SegBefore) ?_ E.common_sorted E'.common_sorted
      ((List.perm_ext_iff_of_nodup (irr E.common_sorted) (irr E'.common_sorted)).2 ?_)
    · intro a b _ _ h1 h2
      exact absurd h2 (Selected.segBefore_asymm h1)
    · intro t
      rw [E.mem_common M hA hB C, E'.mem_common M' hA' hB' C', hs.isEdge]
      simp only [mem]
  refine ⟨e, ?_⟩
  refine List.Perm.eq_of_pairwise (le := (· ≤ ·)) ?_ C.sorted C'.sorted
    ((List.perm_ext_iff_of_nodup C.nodup C'.nodup).2 fun q => ?_)
  · intro a b _ _ h1 h2
    exact le_antisymm h1 h2
  · constructor
    · intro hq
      obtain ⟨g1, g2⟩ := C.alone q hq
      rcases (C'.all q).2 ((mem q).1 ((C.all q).1 (Or.inl hq))) with g | g | g
      · exact g
      · rw [← e] at g; exact absurd g g1
      · exact absurd g g2
    · intro hq
      obtain ⟨g1, g2⟩ := C'.alone q hq
      rcases (C.all q).2 ((mem q).2 ((C'.all q).1 (Or.inl hq))) with g | g | g
      · exact g
      · rw [e] at g; exact absurd g g1
      · exact absurd g g2

end Clipping

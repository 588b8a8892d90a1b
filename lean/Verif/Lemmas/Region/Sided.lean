import Verif.Lemmas.Region.Polygon
import Verif.Spec.Outline

/-!
# Contours on the right sides are a boundary
-/

namespace Clipping

open Sweep

theorem NoOverlap.nodup {l : List Segment} (h : NoOverlap l) : l.Nodup := by
  refine List.Pairwise.imp_of_mem ?_ h.2
  rintro s t hs - hst rfl
  exact hst ⟨s.start, s.stop, h.1 s hs, s.start_mem, s.stop_mem, s.start_mem, s.stop_mem⟩

theorem NoOverlap.eq_of_norm {l : List Segment} (h : NoOverlap l) {s t : Segment} (hs : s ∈ l) (ht : t ∈ l)
    (e : s.norm = t.norm) : s = t := by
  by_contra hne
  haveI : Std.Symm fun s t : Segment => ¬ Overlapping s t :=
    ⟨fun a b g ⟨p, q, h1, h2, h3, h4, h5⟩ => g ⟨p, q, h1, h4, h5, h2, h3⟩⟩
  refine h.2.forall hs ht hne ⟨s.start, s.stop, h.1 s hs, s.start_mem, s.stop_mem, ?_, ?_⟩
  · rw [← t.pts_norm, ← e, s.pts_norm]; exact s.start_mem
  · rw [← t.pts_norm, ← e, s.pts_norm]; exact s.stop_mem

theorem eq_or_swap {s t : Segment} (e : s.norm = t.norm) : s = t ∨ s = t.swap := by
  have h1 : s.lo = t.lo := congrArg Segment.start e
  have h2 : s.hi = t.hi := congrArg Segment.stop e
  obtain ⟨a, b⟩ := s
  obtain ⟨c, d⟩ := t
  rcases (Segment.mk a b).lo_hi_cases with ⟨p1, p2, -⟩ | ⟨p1, p2, -⟩ <;>
    rcases (Segment.mk c d).lo_hi_cases with ⟨q1, q2, -⟩ | ⟨q1, q2, -⟩ <;>
    rw [p1, q1] at h1 <;> rw [p2, q2] at h2 <;> simp only [Segment.swap] at * <;> simp [h1, h2]

theorem isEnd_norm {s t : Segment} (e : s.norm = t.norm) (q : Point) : s.IsEnd q ↔ t.IsEnd q := by
  rcases eq_or_swap e with rfl | rfl
  · rfl
  · exact t.swap_isEnd q

theorem SameEdges.exists_norm {A B : List Segment} (h : SameEdges A B) {s : Segment} (hs : s ∈ A) :
    ∃ t ∈ B, t.norm = s.norm := List.mem_map.1 (h.mem_iff.1 (List.mem_map_of_mem hs))

theorem SameEdges.only {A B : List Segment} (h : SameEdges A B) (no : NoOverlap B) {s t : Segment} (ht : t ∈ B)
    (e : t.norm = s.norm) {q : Point} (only : ∀ s' ∈ A, q ∈ s'.pts → s' = s) : ∀ t' ∈ B, q ∈ t'.pts → t' = t := by
  intro t' ht' hq
  obtain ⟨s', hs', e'⟩ := h.symm.exists_norm ht'
  have := only s' hs' (by rw [← s'.pts_norm, e', t'.pts_norm]; exact hq)
  subst this
  exact no.eq_of_norm ht' ht (e'.symm.trans e.symm)

theorem degree_sameEdges {A B : List Segment} (h : SameEdges A B) (q : Point) : degree A q = degree B q := by
  have key : ∀ E : List Segment, degree (E.map Segment.norm) q = degree E q := by
    intro E
    induction E with
    | nil => rfl
    | cons e E ih =>
      rw [List.map_cons, ← List.singleton_append, ← List.singleton_append (x := e), degree_append, degree_append, ih]
      congr 1
      unfold Segment.norm
      rcases e.lo_hi_cases with ⟨h1, h2, -⟩ | ⟨h1, h2, -⟩ <;> rw [h1, h2]
      unfold degree
      rw [List.countP_singleton, List.countP_singleton, List.countP_singleton, List.countP_singleton, add_comm]
  rw [← key A, ← key B, degree_perm h]

/-- Which side of an edge of a contour its interior is on. -/
theorem SimpleContour.side {c : Contour} (h : SimpleContour c) (b : Bool) {g : Segment} (hg : g ∈ contourEdges c b) {q : Point}
    (hq : q ∈ g.pts) (he : ¬ g.IsEnd q) (only : ∀ g' ∈ contourEdges c b, q ∈ g'.pts → g' = g) :
    (g.start < g.stop ↔ ¬ Inside c.edges q) ↔ b = false := by
  cases b with
  | false =>
    rw [h.isBoundary.left g hg q hq he only, (h.sameEdges false).inside_iff]
    simp
  | true =>
    have perm := h.clockwise
    obtain ⟨e, h1, rfl⟩ := List.mem_map.1 (perm.mem_iff.1 hg)
    have := h.isBoundary.left e h1 q (by rwa [e.swap_pts] at hq) (by rwa [e.swap_isEnd] at he) fun g' hg' hq' => by
      have := only g'.swap (perm.mem_iff.2 (List.mem_map_of_mem hg')) (by rw [g'.swap_pts]; exact hq')
      rw [← g'.swap_swap, this, e.swap_swap]
    rw [← (h.sameEdges false).inside_iff, ← this]
    have ne := h.isBoundary.noOverlap.1 e h1
    simp only [Segment.swap, reduceCtorEq, iff_false]
    rcases lt_or_gt_of_ne ne with h2 | h2
    · simp [h2, h2.asymm]
    · simp [h2, h2.asymm]

section

variable {ps : List Polygon} (hb : ∀ p ∈ ps, SimpleContour p.border) (hh : ∀ p ∈ ps, ∀ c ∈ p.holes, SimpleContour c)

include hb hh

theorem simple_sameEdges : SameEdges (ps.flatMap polygonEdges) (ps.flatMap Polygon.edges) := by
  refine SameEdges.flatMap _ _ _ fun p hp => ?_
  unfold polygonEdges Polygon.edges
  exact ((hb p hp).sameEdges _).append (SameEdges.flatMap _ _ _ fun c hc => (hh p hp c hc).sameEdges _)

theorem Sided.isBoundary (no : NoOverlap (ps.flatMap Polygon.edges)) (D : Sided ps) : IsBoundary (ps.flatMap polygonEdges) := by
  have same := simple_sameEdges hb hh
  refine ⟨same.symm.noOverlap no, fun q => ?_, ?_⟩
  · have cont : ∀ c, SimpleContour c → ∀ b, Even (degree (contourEdges c b) q) := by
      intro c hc b
      rw [degree_sameEdges ((hc.sameEdges b).trans (hc.sameEdges false).symm)]
      exact hc.isBoundary.even q
    have sum : ∀ {ι : Type} (l : List ι) (f : ι → List Segment), (∀ i ∈ l, Even (degree (f i) q)) →
        Even (degree (l.flatMap f) q) := by
      intro ι l f hl
      induction l with
      | nil => exact ⟨0, rfl⟩
      | cons i l ih =>
        rw [List.flatMap_cons, degree_append]
        exact (hl i (by simp)).add (ih fun j hj => hl j (by simp [hj]))
    refine sum _ _ fun p hp => ?_
    unfold polygonEdges
    rw [degree_append]
    exact (cont _ (hb p hp) _).add (sum _ _ fun c hc => cont c (hh p hp c hc) _)
  · intro g hg q hq he only
    have hg' := hg
    obtain ⟨p, hp, hgp⟩ := List.mem_flatMap.1 hg
    unfold polygonEdges at hgp
    rw [same.inside_iff]
    rcases List.mem_append.1 hgp with h1 | h1
    · obtain ⟨e, he1, hn⟩ := ((hb p hp).sameEdges false).exists_norm h1
      have hem : e ∈ ps.flatMap Polygon.edges := List.mem_flatMap.2 ⟨p, hp, List.mem_append_left _ he1⟩
      rw [D.border p hp e he1 q (by rw [← e.pts_norm, hn, g.pts_norm]; exact hq) (by rw [isEnd_norm hn]; exact he)
        (same.only no hem hn only)]
      exact ((hb p hp).side false h1 hq he fun g' hg' => only g' (List.mem_flatMap.2 ⟨p, hp, List.mem_append_left _ hg'⟩)).2 rfl
    · obtain ⟨c, hc, h1⟩ := List.mem_flatMap.1 h1
      obtain ⟨e, he1, hn⟩ := ((hh p hp c hc).sameEdges true).exists_norm h1
      have hem : e ∈ ps.flatMap Polygon.edges := List.mem_flatMap.2 ⟨p, hp, List.mem_append_right _ (List.mem_flatMap.2 ⟨c, hc, he1⟩)⟩
      rw [D.hole p hp c hc e he1 q (by rw [← e.pts_norm, hn, g.pts_norm]; exact hq) (by rw [isEnd_norm hn]; exact he)
        (same.only no hem hn only)]
      have := ((hh p hp c hc).side true h1 hq he fun g' hg' => only g' (List.mem_flatMap.2 ⟨p, hp, List.mem_append_right _
        (List.mem_flatMap.2 ⟨c, hc, hg'⟩)⟩)).not.2 (by simp)
      rw [not_not]
      by_cases h2 : Inside c.edges q
      · simpa [h2] using this
      · simpa [h2] using this

theorem IsBoundary.sided (B : IsBoundary (ps.flatMap polygonEdges)) : Sided ps := by
  have same := simple_sameEdges hb hh
  constructor
  · intro p hp e he q hq hend only
    obtain ⟨g, hg, hn⟩ := ((hb p hp).sameEdges false).symm.exists_norm he
    have hgm : g ∈ ps.flatMap polygonEdges := List.mem_flatMap.2 ⟨p, hp, List.mem_append_left _ hg⟩
    have hqg : q ∈ g.pts := by rw [← g.pts_norm, hn, e.pts_norm]; exact hq
    have hge : ¬ g.IsEnd q := by rw [isEnd_norm hn]; exact hend
    have only' := same.symm.only B.noOverlap hgm hn only
    have h1 := B.left g hgm q hqg hge only'
    have h2 := ((hb p hp).side false hg hqg hge fun g' hg' => only' g' (List.mem_flatMap.2 ⟨p, hp, List.mem_append_left _ hg'⟩)).2 rfl
    rw [same.inside_iff] at h1
    clear * - h1 h2
    tauto
  · intro p hp c hc e he q hq hend only
    obtain ⟨g, hg, hn⟩ := ((hh p hp c hc).sameEdges true).symm.exists_norm he
    have mem : ∀ g ∈ contourEdges c true, g ∈ ps.flatMap polygonEdges := fun g hg =>
      List.mem_flatMap.2 ⟨p, hp, List.mem_append_right _ (List.mem_flatMap.2 ⟨c, hc, hg⟩)⟩
    have hqg : q ∈ g.pts := by rw [← g.pts_norm, hn, e.pts_norm]; exact hq
    have hge : ¬ g.IsEnd q := by rw [isEnd_norm hn]; exact hend
    have only' := same.symm.only B.noOverlap (mem g hg) hn only
    have h1 := B.left g (mem g hg) q hqg hge only'
    have h2 := ((hh p hp c hc).side true hg hqg hge fun g' hg' => only' g' (mem g' hg')).not.2 (by simp)
    rw [same.inside_iff] at h1
    clear * - h1 h2
    tauto

end

theorem ValidPolygons.sided {ps : List Polygon} (h : ValidPolygons ps) : Sided ps :=
  IsBoundary.sided (fun p hp => (h.valid p hp).border) (fun p hp => (h.valid p hp).holes) h.isBoundary

end Clipping

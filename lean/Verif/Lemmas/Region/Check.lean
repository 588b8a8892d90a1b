import Verif.Lemmas.Region.Polygon
import Verif.Lemmas.SegmentOps

/-!
# A check of simple contours, for examples
-/

namespace Clipping

/-- The segments meet in an end of both or not at all. -/
def endsOnlyPair (s t : Segment) : Bool :=
  match segmentsRelation s t with
  | .disjoint => true
  | .touch => decide (s.start = t.start ∨ s.start = t.stop ∨ s.stop = t.start ∨ s.stop = t.stop)
  | _ => false

theorem endsOnlyPair_spec {s t : Segment} (hs : s.Proper) (ht : t.Proper) (h : endsOnlyPair s t = true) {q : Point}
    (h1 : q ∈ s.pts) (h2 : q ∈ t.pts) : s.IsEnd q ∧ t.IsEnd q := by
  unfold endsOnlyPair at h
  split at h
  · rename_i hr
    have := relation_spec hs ht; rw [hr] at this
    exact absurd h2 (this q h1)
  · rename_i hr
    obtain ⟨p, p1, p2, p3, -⟩ := touch_data hs ht hr
    have hq := p3 q h1 h2
    have key : ∀ {v}, s.IsEnd v → t.IsEnd v → s.IsEnd q ∧ t.IsEnd q := by
      intro v v1 v2
      have m1 : v ∈ s.pts := by rcases v1 with rfl | rfl <;> [exact s.start_mem; exact s.stop_mem]
      have m2 : v ∈ t.pts := by rcases v2 with rfl | rfl <;> [exact t.start_mem; exact t.stop_mem]
      rw [hq, ← p3 v m1 m2]; exact ⟨v1, v2⟩
    rcases of_decide_eq_true h with h | h | h | h
    · exact key (Or.inl rfl) (Or.inl h)
    · exact key (Or.inl rfl) (Or.inr h)
    · exact key (Or.inr rfl) (Or.inl h)
    · exact key (Or.inr rfl) (Or.inr h)
  · cases h

/-- check of `SimpleContour` -/
def simpleCheck (c : Contour) : Bool :=
  decide (3 ≤ c.vertices.length) && decide c.vertices.Nodup && c.edges.all (fun s => decide (s.start ≠ s.stop)) &&
    decide (c.edges.Pairwise fun s t => endsOnlyPair s t = true)

theorem simpleCheck_spec {c : Contour} (h : simpleCheck c = true) : SimpleContour c := by
  unfold simpleCheck at h
  simp only [Bool.and_eq_true, decide_eq_true_eq, List.all_eq_true] at h
  obtain ⟨⟨⟨h1, h2⟩, h3⟩, h4⟩ := h
  refine ⟨h1, h2, h4.imp_of_mem ?_⟩
  intro s t hs ht hst q q1 q2
  exact endsOnlyPair_spec (h3 s hs) (h3 t ht) hst q1 q2

theorem noOverlap_of_crossing {l : List Segment} (p : ∀ s ∈ l, s.Proper) (nd : l.Nodup)
    (r : ∀ s ∈ l, ∀ t ∈ l, s ≠ t → segmentsRelation s t = .touch ∨ segmentsRelation s t = .cross ∨
      segmentsRelation s t = .disjoint) : NoOverlap l := by
  refine ⟨p, List.Pairwise.imp_of_mem ?_ nd⟩
  rintro a b ha hb hne ⟨x, y, hxy, x1, y1, x2, y2⟩
  have hm := relation_spec (p a ha) (p b hb)
  rcases r a ha b hb hne with h | h | h <;> rw [h] at hm
  · obtain ⟨c, -, -, hu, -⟩ := hm
    exact hxy ((hu x x1 x2).trans (hu y y1 y2).symm)
  · obtain ⟨⟨c, -, -, hu, -⟩, -⟩ := hm
    exact hxy ((hu x x1 x2).trans (hu y y1 y2).symm)
  · exact hm x x1 x2

end Clipping

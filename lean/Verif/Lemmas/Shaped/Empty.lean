import Verif.Lemmas.Shaped.CompleteResult
import Verif.Lemmas.Region.Closed
import Verif.Lemmas.Shaped.Exact

/-!
# Polygons outlining an empty combination
-/

namespace Clipping

theorem flatMap_even {ps : List Polygon} (h : ∀ p ∈ ps, ∀ q, Even (degree p.edges q)) (q : Point) :
    Even (degree (ps.flatMap Polygon.edges) q) := by
  induction ps with
  | nil => simp [degree]
  | cons p ps ih =>
    rw [List.flatMap_cons, degree_append]
    exact (h p (by simp) q).add (ih fun p hp => h p (by simp [hp]))

theorem ValidPolygons.even {ps : List Polygon} (h : ValidPolygons ps) (q : Point) :
    Even (degree (ps.flatMap Polygon.edges) q) :=
  flatMap_even (fun p hp => (h.valid p hp).even) q

theorem Outlines.even {op : Bool → Bool → Bool} {A B : List Segment} {ps : List Polygon} (O : Outlines op A B ps) (q : Point) :
    Even (degree (ps.flatMap Polygon.edges) q) := by
  refine flatMap_even (fun p hp q => ?_) q
  unfold Polygon.edges
  rw [degree_append]
  refine ((O.border p hp).even q).add ?_
  have hh := O.hole p hp
  generalize p.holes = l at hh ⊢
  induction l with
  | nil => simp [degree]
  | cons c l ih =>
    rw [List.flatMap_cons, degree_append]
    exact ((hh c (by simp)).even q).add (ih fun c hc => hh c (by simp [hc]))

theorem exists_polygon_edge {ps : List Polygon} (O : ∀ p ∈ ps, SimpleContour p.border) (h : ps ≠ []) : ∃ e, e ∈ ps.flatMap Polygon.edges := by
  cases ps with
  | nil => exact absurd rfl h
  | cons p ps =>
    have hb := O p (by simp)
    have he : p.border.edges ≠ [] := by
      have h3 := hb.three
      unfold Contour.edges
      split
      · next hv => rw [hv] at h3; simp at h3
      · next v vs hv => cases vs <;> simp
    obtain ⟨e, he⟩ := List.exists_mem_of_ne_nil _ he
    exact ⟨e, by simp [Polygon.edges, he]⟩

/-- Polygons outline nothing exactly if there are none. -/
theorem Outlines.nil_iff {op : Bool → Bool → Bool} {A B : List Segment} {ps : List Polygon} (O : Outlines op A B ps)
    (pr : ∀ s ∈ A ++ B, s.Proper) : ps = [] ↔ ∀ q, q ∉ segsPts (A ++ B) → ¬ Combined op A B q := by
  constructor
  · rintro rfl q hq h
    exact inside_nil q ((O.inside q hq).2 h)
  · intro h
    by_contra hne
    obtain ⟨e, he⟩ := exists_polygon_edge O.border hne
    obtain ⟨⟨z, -, h2, -, h4⟩, -⟩ := near_both O.noOverlap O.even (q := e.start) ⟨e, he, e.start_mem⟩ pr one_pos
    exact h z h2 ((O.inside z h2).1 h4)

variable {P Q ps : List Polygon} (hP : ValidPolygons P) (hQ : ValidPolygons Q)

include hP hQ

theorem proper_append : ∀ s ∈ P.flatMap Polygon.edges ++ Q.flatMap Polygon.edges, s.Proper := by
  intro s hs
  rcases List.mem_append.1 hs with h | h
  · exact hP.noOverlap.1 s h
  · exact hQ.noOverlap.1 s h

open Classical in
theorem combined_off {op : Bool → Bool → Bool} {z : Point}
    (hz : z ∉ segsPts (P.flatMap Polygon.edges ++ Q.flatMap Polygon.edges)) :
    Combined op (P.flatMap Polygon.edges) (Q.flatMap Polygon.edges) z ↔
      op (decide (z ∈ polysPts P)) (decide (z ∈ polysPts Q)) = true := by
  have h1 : z ∉ segsPts (P.flatMap Polygon.edges) := fun h => hz (by rw [segsPts_append]; exact Or.inl h)
  have h2 : z ∉ segsPts (Q.flatMap Polygon.edges) := fun h => hz (by rw [segsPts_append]; exact Or.inr h)
  simp only [hP.mem_off h1, hQ.mem_off h2]
  rfl

/-- A region is within another one if it is off the edges. -/
theorem subset_of_off (h : ∀ z, z ∉ segsPts (P.flatMap Polygon.edges ++ Q.flatMap Polygon.edges) →
    z ∈ polysPts P → z ∈ polysPts Q) : polysPts P ⊆ polysPts Q := by
  intro q hq
  have pr := proper_append hP hQ
  rw [hP.polysPts_eq, mem_region_iff hP.noOverlap hP.even pr] at hq
  rw [hQ.polysPts_eq, mem_region_iff hQ.noOverlap hQ.even pr]
  intro δ hδ
  obtain ⟨z, h1, h2, h3, h4⟩ := hq δ hδ
  have h5 : z ∉ segsPts (Q.flatMap Polygon.edges) := fun h => h2 (by rw [segsPts_append]; exact Or.inr h)
  exact ⟨z, h1, h2, h5, (hQ.mem_off h5).1 (h z h2 ((hP.mem_off h3).2 h4))⟩

theorem Outlines.nil_inter
    (O : Outlines (fun a b => a && b) (P.flatMap Polygon.edges) (Q.flatMap Polygon.edges) ps) :
    ps = [] ↔ polysPts P ∩ polysPts Q ⊆ segsPts (P.flatMap Polygon.edges ++ Q.flatMap Polygon.edges) := by
  rw [O.nil_iff (proper_append hP hQ)]
  constructor
  · rintro h q ⟨h1, h2⟩
    by_contra hq
    exact h q hq ((combined_off hP hQ hq).2 (by simp [h1, h2]))
  · intro h q hq hc
    rw [combined_off hP hQ hq] at hc
    simp only [Bool.and_eq_true, decide_eq_true_eq] at hc
    exact hq (h hc)

theorem Outlines.nil_diff
    (O : Outlines (fun a b => a && !b) (P.flatMap Polygon.edges) (Q.flatMap Polygon.edges) ps) :
    ps = [] ↔ polysPts P ⊆ polysPts Q := by
  rw [O.nil_iff (proper_append hP hQ)]
  constructor
  · refine fun h => subset_of_off hP hQ fun z hz h1 => ?_
    by_contra h2
    exact h z hz ((combined_off hP hQ hz).2 (by simp [h1, h2]))
  · intro h q hq hc
    rw [combined_off hP hQ hq] at hc
    simp only [Bool.and_eq_true, Bool.not_eq_true', decide_eq_true_eq, decide_eq_false_iff_not] at hc
    exact hc.2 (h hc.1)

theorem Outlines.nil_xor
    (O : Outlines xor (P.flatMap Polygon.edges) (Q.flatMap Polygon.edges) ps) :
    ps = [] ↔ polysPts P = polysPts Q := by
  rw [O.nil_iff (proper_append hP hQ)]
  constructor
  · intro h
    refine Set.Subset.antisymm (subset_of_off hP hQ fun z hz h1 => ?_) (subset_of_off hQ hP fun z hz h1 => ?_)
    · by_contra h2
      exact h z hz ((combined_off hP hQ hz).2 (by simp [h1, h2]))
    · have hz' : z ∉ segsPts (P.flatMap Polygon.edges ++ Q.flatMap Polygon.edges) := by
        rw [segsPts_append] at hz ⊢
        exact fun h => hz h.symm
      by_contra h2
      exact h z hz' ((combined_off hP hQ hz').2 (by simp [h1, h2]))
  · intro h q hq hc
    rw [combined_off hP hQ hq] at hc
    simp [h] at hc

theorem Outlines.union_ne_nil (nP : P ≠ [])
    (O : Outlines (fun a b => a || b) (P.flatMap Polygon.edges) (Q.flatMap Polygon.edges) ps) : ps ≠ [] := by
  intro hn
  rw [O.nil_iff (proper_append hP hQ)] at hn
  obtain ⟨e, he⟩ := exists_polygon_edge (fun p hp => (hP.valid p hp).border) nP
  obtain ⟨⟨z, -, h2, h3, h4⟩, -⟩ := near_both hP.noOverlap hP.even (q := e.start) ⟨e, he, e.start_mem⟩ (proper_append hP hQ) one_pos
  exact hn z h2 ((combined_off hP hQ h2).2 (by simp [(hP.mem_off h3).2 h4]))

omit hP hQ

theorem Geometry.IsShaped.empty_iff {g : Geometry} (h : g.IsShaped) : g = .empty ↔ g.polygons = [] := by
  cases g <;> simp_all [Geometry.IsShaped, Geometry.polygons]

theorem Geometry.Canonical.empty_iff {g : Geometry} (h : g.Canonical) :
    g = .empty ↔ g.discretePoints = [] ∧ g.linearSegments = [] ∧ g.shapedPolygons = [] := by
  cases g with
  | mix d l s =>
    obtain ⟨h1, h2, h3, h4⟩ := h
    cases d <;> cases l <;> cases s <;>
      simp_all [Geometry.IsDiscrete, Geometry.IsLinear, Geometry.IsPolygonal, Geometry.discretePoints, Geometry.linearSegments,
        Geometry.shapedPolygons]
    rintro rfl
    simp at h2
  | _ =>
    simp_all [Geometry.Canonical, Geometry.IsDiscrete, Geometry.IsLinear, Geometry.IsPolygonal, Geometry.discretePoints,
      Geometry.linearSegments, Geometry.shapedPolygons]
    try rintro rfl
    try simp at h

/-- A complete intersection is empty exactly if there are no common points. -/
theorem CompleteParts.empty_iff {g : Geometry} {X Y : Set Point}
    (C : CompleteParts X Y g.discretePoints g.linearSegments (regionPts (g.shapedPolygons.flatMap Polygon.edges)))
    (h : g.Canonical) (O : ∀ p ∈ g.shapedPolygons, SimpleContour p.border) : g = .empty ↔ X ∩ Y = ∅ := by
  rw [h.empty_iff]
  constructor
  · rintro ⟨h1, h2, h3⟩
    rw [Set.eq_empty_iff_forall_notMem]
    intro q hq
    have := (C.all q).2 hq
    rw [h1, h2, h3] at this
    rcases this with h | h | h | h
    · cases h
    · rw [segsPts_nil] at h; exact h
    · simp [segsPts] at h
    · exact inside_nil q h
  · intro hn
    have no : ∀ q, ¬ (q ∈ X ∧ q ∈ Y) := fun q hq => by
      have : q ∈ X ∩ Y := hq
      rw [hn] at this; exact this
    refine ⟨?_, ?_, ?_⟩
    · cases hp : g.discretePoints with
      | nil => rfl
      | cons q l => exact absurd ((C.all q).1 (Or.inl (by simp [hp]))) (no q)
    · cases hp : g.linearSegments with
      | nil => rfl
      | cons t l => exact absurd ((C.all t.start).1 (Or.inr (Or.inl ⟨t, by simp [hp], t.start_mem⟩))) (no _)
    · by_contra hne
      obtain ⟨e, he⟩ := exists_polygon_edge O hne
      exact no _ ((C.all e.start).1 (Or.inr (Or.inr (Or.inl ⟨e, he, e.start_mem⟩))))

end Clipping

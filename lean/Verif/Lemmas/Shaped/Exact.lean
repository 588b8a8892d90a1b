import Verif.Lemmas.Shaped.Result
import Verif.Lemmas.Region.Dense

/-!
# Points of polygons outlining a combination
-/

namespace Clipping

theorem closureOff_congr {E : List Segment} {X Y : Set Point} (h : ∀ z, z ∉ segsPts E → (z ∈ X ↔ z ∈ Y)) :
    closureOff E X = closureOff E Y := by
  ext q
  constructor
  · intro g δ hδ
    obtain ⟨z, h1, h2, h3⟩ := g δ hδ
    exact ⟨z, h1, h2, (h z h2).1 h3⟩
  · intro g δ hδ
    obtain ⟨z, h1, h2, h3⟩ := g δ hδ
    exact ⟨z, h1, h2, (h z h2).2 h3⟩

theorem ValidPolygons.polysPts_eq {ps : List Polygon} (h : ValidPolygons ps) :
    polysPts ps = regionPts (ps.flatMap Polygon.edges) := by
  rw [← h.sameEdges.regionPts_eq, h.pts_eq]
  rfl

theorem ValidPolygons.mem_off {ps : List Polygon} (h : ValidPolygons ps) {z : Point}
    (hz : z ∉ segsPts (ps.flatMap Polygon.edges)) : z ∈ polysPts ps ↔ Inside (ps.flatMap Polygon.edges) z := by
  rw [h.polysPts_eq]
  constructor
  · rintro (g | g)
    · exact absurd g hz
    · exact g
  · exact Or.inr

/-- Polygons which outline a combination have exactly its points. -/
theorem Outlines.exact {op : Bool → Bool → Bool} {A B : List Segment} {ps : List Polygon} (O : Outlines op A B ps)
    (V : ValidPolygons ps) (pr : ∀ s ∈ A ++ B, s.Proper) :
    polysPts ps = closureOff (A ++ B) {z | Combined op A B z} := by
  have bd := V.isBoundary
  have eqr : polysPts ps = regionPts (ps.flatMap polygonEdges) := by
    rw [V.polysPts_eq, V.sameEdges.regionPts_eq]
  have ins : ∀ z, z ∉ segsPts (A ++ B) → (Inside (ps.flatMap polygonEdges) z ↔ Combined op A B z) := by
    intro z hz
    rw [← O.inside z hz, SameEdges.inside_iff V.sameEdges]
  have wi : segsPts (ps.flatMap polygonEdges) ⊆ segsPts (A ++ B) := by
    rw [V.sameEdges.segsPts_eq]; exact O.within
  rw [eqr]
  ext q
  constructor
  · intro hq δ hδ
    obtain ⟨z, h1, h2, h3, -⟩ := bd.near_inside hq pr hδ
    exact ⟨z, h1, h2, (ins z h2).1 h3⟩
  · intro hq
    by_contra hn
    have h0 : q ∉ segsPts (ps.flatMap polygonEdges) := fun h => hn (Or.inl h)
    obtain ⟨δ, hδ, g⟩ := inside_near bd.noOverlap.1 bd.even h0
    obtain ⟨z, h1, h2, h3⟩ := hq δ hδ
    exact hn (Or.inr ((g z h1).2.1 ((ins z h2).2 h3)))

variable {P Q ps : List Polygon} (hP : ValidPolygons P) (hQ : ValidPolygons Q) (V : ValidPolygons ps)

include hP hQ V

open Classical in
theorem Outlines.exact' {op : Bool → Bool → Bool} (O : Outlines op (P.flatMap Polygon.edges) (Q.flatMap Polygon.edges) ps)
    {X : Set Point} (hX : ∀ z, z ∉ segsPts (P.flatMap Polygon.edges ++ Q.flatMap Polygon.edges) →
      (z ∈ X ↔ op (decide (z ∈ polysPts P)) (decide (z ∈ polysPts Q)) = true)) :
    polysPts ps = closureOff (P.flatMap Polygon.edges ++ Q.flatMap Polygon.edges) X := by
  rw [O.exact V]
  · refine closureOff_congr fun z hz => ?_
    have h1 : z ∉ segsPts (P.flatMap Polygon.edges) := fun h => hz (by rw [segsPts_append]; exact Or.inl h)
    have h2 : z ∉ segsPts (Q.flatMap Polygon.edges) := fun h => hz (by rw [segsPts_append]; exact Or.inr h)
    rw [hX z hz]
    simp only [hP.mem_off h1, hQ.mem_off h2]
    rfl
  · intro s hs
    rcases List.mem_append.1 hs with h | h
    · exact hP.noOverlap.1 s h
    · exact hQ.noOverlap.1 s h

theorem Outlines.exact_inter
    (O : Outlines (fun a b => a && b) (P.flatMap Polygon.edges) (Q.flatMap Polygon.edges) ps) :
    polysPts ps = closureOff (P.flatMap Polygon.edges ++ Q.flatMap Polygon.edges) (polysPts P ∩ polysPts Q) :=
  O.exact' hP hQ V fun z _ => by simp

theorem Outlines.exact_diff
    (O : Outlines (fun a b => a && !b) (P.flatMap Polygon.edges) (Q.flatMap Polygon.edges) ps) :
    polysPts ps = closureOff (P.flatMap Polygon.edges ++ Q.flatMap Polygon.edges) (polysPts P \ polysPts Q) :=
  O.exact' hP hQ V fun z _ => by simp

theorem Outlines.exact_xor
    (O : Outlines xor (P.flatMap Polygon.edges) (Q.flatMap Polygon.edges) ps) :
    polysPts ps = closureOff (P.flatMap Polygon.edges ++ Q.flatMap Polygon.edges)
      ((polysPts P \ polysPts Q) ∪ (polysPts Q \ polysPts P)) :=
  O.exact' hP hQ V fun z _ => by
    by_cases h1 : z ∈ polysPts P <;> by_cases h2 : z ∈ polysPts Q <;> simp [h1, h2]

theorem Outlines.exact_union
    (O : Outlines (fun a b => a || b) (P.flatMap Polygon.edges) (Q.flatMap Polygon.edges) ps) :
    polysPts ps = closureOff (P.flatMap Polygon.edges ++ Q.flatMap Polygon.edges) (polysPts P ∪ polysPts Q) :=
  O.exact' hP hQ V fun z _ => by simp

end Clipping

import Verif.Lemmas.Region.Closed

/-!
# Regions with the same inside
-/

namespace Clipping

/-- Regions are equal if they have the same inside off finitely many segments. -/
theorem regionPts_eq_of_inside {E F X : List Segment} (hE : NoOverlap E) (dE : ∀ q, Even (degree E q)) (hF : NoOverlap F)
    (dF : ∀ q, Even (degree F q)) (hX : ∀ s ∈ X, s.Proper) (h : ∀ q, q ∉ segsPts X → (Inside E q ↔ Inside F q)) :
    regionPts E = regionPts F := by
  have step : ∀ {E F : List Segment}, NoOverlap E → (∀ q, Even (degree E q)) → NoOverlap F → (∀ q, Even (degree F q)) →
      (∀ q, q ∉ segsPts X → (Inside E q ↔ Inside F q)) → regionPts E ⊆ regionPts F := by
    intro E F hE dE hF dF h q hq
    rw [mem_region_iff hF dF (X := []) (by simp)]
    intro δ hδ
    have pr : ∀ s ∈ X ++ F, s.Proper := by
      intro s hs
      rcases List.mem_append.1 hs with g | g
      · exact hX s g
      · exact hF.1 s g
    obtain ⟨z, h1, h2, -, h4⟩ := (mem_region_iff hE dE pr).1 hq δ hδ
    refine ⟨z, h1, by simp [segsPts], fun g => h2 ?_, (h z fun g => h2 ?_).1 h4⟩
    · obtain ⟨s, hs, hz⟩ := g
      exact ⟨s, List.mem_append_right _ hs, hz⟩
    · obtain ⟨s, hs, hz⟩ := g
      exact ⟨s, List.mem_append_left _ hs, hz⟩
  exact Set.Subset.antisymm (step hE dE hF dF h) (step hF dF hE dE fun q hq => (h q hq).symm)

end Clipping

import Verif.Lemmas.Region.Unique
import Verif.Lemmas.Shaped.Corners

/-!
# Edges of a boundary without touching places are determined by its points
-/

namespace Clipping

open Sweep

/-- Points of an edge which are not its ends are on no other edge, and the ends of edges are corners. -/
structure Plain (E : List Segment) : Prop where
  proper : ∀ e ∈ E, e.Proper
  solo : ∀ e ∈ E, ∀ e' ∈ E, ∀ q ∈ e.pts, q ∈ e'.pts → ¬ e.IsEnd q → e' = e
  vertex : ∀ L : List Segment, (∀ s ∈ L, s.Proper) → segsPts E ⊆ segsPts L → ∀ e ∈ E, ∀ v, e.IsEnd v → Vertex L v

/-- The points of the edges are the points next to which there are points of the region and others. -/
theorem segsPts_of_region {E F : List Segment} (hE : NoOverlap E) (dE : ∀ q, Even (degree E q)) (hF : NoOverlap F)
    (dF : ∀ q, Even (degree F q)) (h : regionPts E = regionPts F) : segsPts E = segsPts F := by
  have step : ∀ {E F : List Segment}, NoOverlap E → (∀ q, Even (degree E q)) → NoOverlap F → (∀ q, Even (degree F q)) →
      regionPts E = regionPts F → segsPts E ⊆ segsPts F := by
    intro E F hE dE hF dF h q hq
    by_contra hn
    obtain ⟨δ, δ0, hδ⟩ := inside_near hF.1 dF hn
    obtain ⟨⟨z, z1, -, z3, z4⟩, y, y1, -, y3, y4⟩ := near_both hE dE hq (X := []) (by simp) δ0
    have hz : z ∈ regionPts F := h ▸ Or.inr z4
    have hy : y ∉ regionPts F := by
      rw [← h]
      rintro (g | g)
      · exact y3 g
      · exact y4 g
    have z5 : Inside F z := hz.resolve_left (hδ z z1).1
    exact hy (Or.inr ((hδ y y1).2.2 ((hδ z z1).2.1 z5)))
  exact Set.Subset.antisymm (step hE dE hF dF h) (step hF dF hE dE h.symm)

namespace Plain

variable {E F : List Segment} (hE : Plain E) (hF : Plain F) (h : segsPts E = segsPts F)

include hE hF h

theorem end_end {e : Segment} (he : e ∈ E) {v : Point} (hv : e.IsEnd v) : ∃ f ∈ F, f.IsEnd v := by
  rcases hE.vertex F hF.proper h.subset e he v hv with g | ⟨s, hs, t, ht, g⟩
  · exact g
  · have m : v ∈ s.pts ∩ t.pts := by rw [g]; rfl
    by_cases hn : s.IsEnd v
    · exact ⟨s, hs, hn⟩
    · have e := hF.solo s hs t ht v m.1 m.2 hn
      subst e
      rw [Set.inter_self] at g
      have a := Segment.start_mem t
      have b := Segment.stop_mem t
      rw [g] at a b
      exact absurd (a.trans b.symm) (hF.proper t hs)

/-- Ends of edges of the one are not inside of edges of the other. -/
theorem end_out {e f : Segment} (he : e ∈ E) (hf : f ∈ F) {v : Point} (hv : e.IsEnd v) (hm : v ∈ f.pts) : f.IsEnd v := by
  by_contra hn
  obtain ⟨f', hf', hv'⟩ := end_end hE hF h he hv
  have m' : v ∈ f'.pts := by
    rcases hv' with rfl | rfl
    · exact f'.start_mem
    · exact f'.stop_mem
  rw [hF.solo f hf f' hf' v hm m' hn] at hv'
  exact hn hv'

theorem edge {e : Segment} (he : e ∈ E) : ∃ f ∈ F, f.norm = e.norm := by
  have pe := hE.proper e he
  set m := middle' e.start e.stop with hm
  have me : m ∈ e.pts := middle'_mem e.start e.stop
  have mn : ¬ e.IsEnd m := by
    rintro (g | g)
    · exact pe (middle'_eq g).symm
    · exact pe (middle'_eq' g).symm
  obtain ⟨f, hf, mf⟩ : m ∈ segsPts F := h ▸ ⟨e, he, me⟩
  have pf := hF.proper f hf
  have mn' : ¬ f.IsEnd m := fun g => mn (end_out hF hE h.symm hf he g me)
  -- near `m` there are no other edges
  classical
  have off : m ∉ segsPts (F.filter fun s => decide (s ≠ f)) := by
    rintro ⟨s, hs, ms⟩
    simp only [List.mem_filter, decide_eq_true_eq] at hs
    exact hs.2 (hF.solo f hf s hs.1 m mf ms mn')
  obtain ⟨δ, δ0, hδ⟩ := exists_near_off_all (fun s hs => hF.proper s (List.mem_filter.1 hs).1) off
  have ne : m ≠ e.start := fun g => mn (Or.inl g)
  obtain ⟨z, zs, zn, zm⟩ := exists_toward δ0 ne
  have ze : z ∈ e.pts := mk_sub me e.start_mem zs
  obtain ⟨s, hs, zs'⟩ : z ∈ segsPts F := h ▸ ⟨e, he, ze⟩
  have sf : s = f := by
    by_contra g
    exact hδ z zn ⟨s, by simp [hs, g], zs'⟩
  subst sf
  -- the lines are the same
  have l1 : ∀ r ∈ s.pts, cross e.lo e.hi r = 0 := by
    intro r hr
    have := collinear_of_common zm.symm (s := ⟨e.lo, e.hi⟩) (t := s) (by rw [mem_pts_lo_hi]; exact me) (by rw [mem_pts_lo_hi]; exact ze)
      mf zs' hr
    exact this
  have l2 : ∀ r ∈ e.pts, cross s.lo s.hi r = 0 := by
    intro r hr
    have := collinear_of_common zm.symm (s := ⟨s.lo, s.hi⟩) (t := e) (by rw [mem_pts_lo_hi]; exact mf) (by rw [mem_pts_lo_hi]; exact zs')
      me ze hr
    exact this
  have i1 := Segment.lo_le_of_mem me
  have i2 := Segment.le_hi_of_mem me
  have i3 := Segment.lo_le_of_mem mf
  have i4 := Segment.le_hi_of_mem mf
  have j1 : e.lo ≠ m := fun g => mn (Segment.isEnd_iff.2 (Or.inl g.symm))
  have j2 : m ≠ e.hi := fun g => mn (Segment.isEnd_iff.2 (Or.inr g))
  have j3 : s.lo ≠ m := fun g => mn' (Segment.isEnd_iff.2 (Or.inl g.symm))
  have j4 : m ≠ s.hi := fun g => mn' (Segment.isEnd_iff.2 (Or.inr g))
  have k1 := lt_of_le_of_ne i1 j1
  have k2 := lt_of_le_of_ne i2 j2
  have k3 := lt_of_le_of_ne i3 j3
  have k4 := lt_of_le_of_ne i4 j4
  have elo : e.IsEnd e.lo := Segment.isEnd_iff.2 (Or.inl rfl)
  have ehi : e.IsEnd e.hi := Segment.isEnd_iff.2 (Or.inr rfl)
  have slo : s.IsEnd s.lo := Segment.isEnd_iff.2 (Or.inl rfl)
  have shi : s.IsEnd s.hi := Segment.isEnd_iff.2 (Or.inr rfl)
  have lo : s.lo = e.lo := by
    rcases le_total s.lo e.lo with g | g
    · have := end_out hE hF h he hf elo ((Segment.mem_iff pf).2 ⟨l2 _ e.lo_mem, g, (k1.trans k4).le⟩)
      rcases Segment.isEnd_iff.1 this with g | g
      · exact g.symm
      · exact absurd (g ▸ k1) k4.not_gt
    · have := end_out hF hE h.symm hf he slo ((Segment.mem_iff pe).2 ⟨l1 _ s.lo_mem, g, (k3.trans k2).le⟩)
      rcases Segment.isEnd_iff.1 this with g | g
      · exact g
      · exact absurd (g ▸ k3) k2.not_gt
  have hi : s.hi = e.hi := by
    rcases le_total e.hi s.hi with g | g
    · have := end_out hE hF h he hf ehi ((Segment.mem_iff pf).2 ⟨l2 _ e.hi_mem, (k3.trans k2).le, g⟩)
      rcases Segment.isEnd_iff.1 this with g | g
      · exact absurd (g ▸ k2) k3.not_gt
      · exact g.symm
    · have := end_out hF hE h.symm hf he shi ((Segment.mem_iff pe).2 ⟨l1 _ s.hi_mem, (k1.trans k4).le, g⟩)
      rcases Segment.isEnd_iff.1 this with g | g
      · exact absurd (g ▸ k4) k1.not_gt
      · exact g
  exact ⟨s, hf, by unfold Segment.norm; rw [lo, hi]⟩

end Plain

end Clipping

import Verif.Spec.Convex
import Verif.Lemmas.Region.Closed
import Verif.Lemmas.Shaped.Exact
import Verif.Lemmas.Shaped.Filling
import Verif.Lemmas.Region.Affine

/-!
# Convex regions
-/

namespace Clipping

open Sweep

/-- inner points of a set -/
def Deep (K : Set Point) (q : Point) : Prop := ∃ δ > 0, ∀ z, Near δ q z → z ∈ K

theorem Deep.mem {K : Set Point} {q : Point} (h : Deep K q) : q ∈ K := by
  obtain ⟨δ, δ0, h⟩ := h
  exact h q (Near.refl δ0 q)

theorem Deep.mono {K K' : Set Point} (hs : K ⊆ K') {q : Point} (h : Deep K q) : Deep K' q := by
  obtain ⟨δ, δ0, h⟩ := h
  exact ⟨δ, δ0, fun z hz => hs (h z hz)⟩

theorem Deep.inter {K K' : Set Point} {q : Point} (h : Deep K q) (h' : Deep K' q) : Deep (K ∩ K') q := by
  obtain ⟨δ, δ0, h⟩ := h
  obtain ⟨δ', δ0', h'⟩ := h'
  exact ⟨min δ δ', lt_min δ0 δ0', fun z hz => ⟨h z (hz.mono (min_le_left _ _)), h' z (hz.mono (min_le_right _ _))⟩⟩

theorem ConvexSet.inter {K K' : Set Point} (h : ConvexSet K) (h' : ConvexSet K') : ConvexSet (K ∩ K') :=
  fun p hp q hq _ hr => ⟨h p hp.1 q hq.1 hr, h' p hp.2 q hq.2 hr⟩

/-- The inner points of a convex set are convex. -/
theorem ConvexSet.deep {K : Set Point} (h : ConvexSet K) : ConvexSet {q | Deep K q} := by
  rintro p ⟨δ, δ0, hp⟩ q ⟨δ', δ0', hq⟩ r ⟨t, t0, t1, rx, ry⟩
  refine ⟨min δ δ', lt_min δ0 δ0', fun z hz => ?_⟩
  simp only at rx ry
  refine h ⟨p.x + (z.x - r.x), p.y + (z.y - r.y)⟩ (hp _ ?_) ⟨q.x + (z.x - r.x), q.y + (z.y - r.y)⟩ (hq _ ?_) ⟨t, t0, t1, ?_, ?_⟩
  · have := hz.mono (min_le_left _ _)
    exact ⟨by simpa using this.1, by simpa using this.2⟩
  · have := hz.mono (min_le_right _ _)
    exact ⟨by simpa using this.1, by simpa using this.2⟩
  · simp only; linarith
  · simp only; linarith

/-- Points between a point and an inner point are inner points. -/
theorem ConvexSet.deep_toward {K : Set Point} (h : ConvexSet K) {p q r : Point} (hp : p ∈ K) (hq : Deep K q) {t : ℚ} (t0 : 0 < t)
    (t1 : t ≤ 1) (rx : r.x = p.x + t * (q.x - p.x)) (ry : r.y = p.y + t * (q.y - p.y)) : Deep K r := by
  obtain ⟨δ, δ0, hq⟩ := hq
  refine ⟨t * δ, mul_pos t0 δ0, fun z hz => ?_⟩
  have e : ∀ a b : ℚ, |a - b| < t * δ → |a / t - b / t| < δ := by
    intro a b hab
    rw [← sub_div, abs_div, abs_of_pos t0, div_lt_iff₀ t0]
    linarith
  refine h p hp ⟨q.x + (z.x - r.x) / t, q.y + (z.y - r.y) / t⟩ (hq _ ⟨?_, ?_⟩) ⟨t, t0.le, t1, ?_, ?_⟩
  · have := e _ _ hz.1
    rw [← sub_div] at this
    simpa using this
  · have := e _ _ hz.2
    rw [← sub_div] at this
    simpa using this
  · have : t * ((z.x - r.x) / t) = z.x - r.x := mul_div_cancel₀ _ t0.ne'
    simp only
    linear_combination rx - this
  · have : t * ((z.y - r.y) / t) = z.y - r.y := mul_div_cancel₀ _ t0.ne'
    simp only
    linear_combination ry - this

section

variable {E : List Segment} (no : NoOverlap E) (hd : ∀ q, Even (degree E q))

include no hd

/-- The inner points of a region are those inside of its boundary. -/
theorem deep_region {q : Point} : Deep (regionPts E) q ↔ q ∉ segsPts E ∧ Inside E q := by
  constructor
  · rintro ⟨δ, δ0, h⟩
    have h1 : q ∉ segsPts E := by
      intro hq
      obtain ⟨-, z, hz, -, h3, h4⟩ := near_both (X := []) no hd hq (by simp) δ0
      rcases h z hz with g | g
      exacts [h3 g, h4 g]
    refine ⟨h1, ?_⟩
    rcases h q (Near.refl δ0 q) with g | g
    exacts [absurd g h1, g]
  · rintro ⟨h1, h2⟩
    obtain ⟨δ, δ0, h⟩ := inside_near no.1 hd h1
    exact ⟨δ, δ0, fun z hz => Or.inr ((h z hz).2.2 h2)⟩

end

/-- The closure of the common inner points of convex regions is convex. -/
theorem closureOff_convex {A B : List Segment} (nA : NoOverlap A) (dA : ∀ q, Even (degree A q)) (nB : NoOverlap B) (dB : ∀ q, Even (degree B q))
    (cA : ConvexSet (regionPts A)) (cB : ConvexSet (regionPts B)) : ConvexSet (closureOff (A ++ B) (regionPts A ∩ regionPts B)) := by
  have key : ∀ z, (z ∉ segsPts (A ++ B) ∧ z ∈ regionPts A ∩ regionPts B) ↔ Deep (regionPts A) z ∧ Deep (regionPts B) z := by
    intro z
    rw [deep_region nA dA, deep_region nB dB, segsPts_append]
    constructor
    · rintro ⟨h, h1, h2⟩
      have o1 : z ∉ segsPts A := fun k => h (Or.inl k)
      have o2 : z ∉ segsPts B := fun k => h (Or.inr k)
      exact ⟨⟨o1, h1.resolve_left o1⟩, ⟨o2, h2.resolve_left o2⟩⟩
    · rintro ⟨⟨o1, i1⟩, o2, i2⟩
      exact ⟨fun k => k.elim o1 o2, Or.inr i1, Or.inr i2⟩
  rintro p hp q hq r ⟨t, t0, t1, rx, ry⟩ δ δ0
  obtain ⟨z, hz, z1⟩ := hp δ δ0
  obtain ⟨w, hw, w1⟩ := hq δ δ0
  have dz := (key z).1 z1
  have dw := (key w).1 w1
  have hr : (⟨z.x + t * (w.x - z.x), z.y + t * (w.y - z.y)⟩ : Point) ∈ (Segment.mk z w).pts := ⟨t, t0, t1, rfl, rfl⟩
  have b : ∀ a b : ℚ, |a| < δ → |b| < δ → |(1 - t) * a + t * b| < δ := by
    intro a b ha hb
    rw [abs_lt] at ha hb ⊢
    rcases eq_or_lt_of_le t0 with rfl | t0'
    · constructor <;> linarith [ha.1, ha.2]
    · constructor
      · nlinarith [mul_nonneg (sub_nonneg.2 t1) (sub_nonneg.2 ha.1.le), mul_pos t0' (sub_pos.2 hb.1)]
      · nlinarith [mul_nonneg (sub_nonneg.2 t1) (sub_nonneg.2 ha.2.le), mul_pos t0' (sub_pos.2 hb.2)]
  refine ⟨⟨z.x + t * (w.x - z.x), z.y + t * (w.y - z.y)⟩, ⟨?_, ?_⟩, (key _).2 ⟨cA.deep z dz.1 w dw.1 hr, cB.deep z dz.2 w dw.2 hr⟩⟩
  · have := b _ _ hz.1 hw.1
    simp only at rx ⊢
    rw [rx]
    convert this using 2
    ring
  · have := b _ _ hz.2 hw.2
    simp only at ry ⊢
    rw [ry]
    convert this using 2
    ring

theorem SimpleContour.exists_edge {c : Contour} (h : SimpleContour c) : ∃ e, e ∈ c.edges := by
  have h3 := h.three
  have : c.edges ≠ [] := by
    unfold Contour.edges
    split
    · next hv => rw [hv] at h3; simp at h3
    · next v vs hv => cases vs <;> simp
  exact List.exists_mem_of_ne_nil _ this

/-- There are points inside of each of several valid polygons, on no edge of any of them. -/
theorem ValidPolygons.exists_inside {ps : List Polygon} (h : ValidPolygons ps) {p : Polygon} (hp : p ∈ ps) :
    ∃ z, z ∉ segsPts (ps.flatMap Polygon.edges) ∧ Inside p.edges z := by
  have v := h.valid p hp
  obtain ⟨e, he⟩ := v.border.exists_edge
  have he : e ∈ p.edges := by simp [Polygon.edges, he]
  obtain ⟨⟨z, -, h2, -, h4⟩, -⟩ := near_both (X := ps.flatMap Polygon.edges) v.noOverlap v.even ⟨e, he, e.start_mem⟩ h.noOverlap.1 one_pos
  exact ⟨z, h2, h4⟩

/-- Convex polygons are single ones. -/
theorem ValidPolygons.convex_single {ps : List Polygon} (h : ValidPolygons ps) (hc : ConvexSet (polysPts ps)) : ps = [] ∨ ∃ p, ps = [p] := by
  match ps, h, hc with
  | [], _, _ => exact Or.inl rfl
  | [p], _, _ => exact Or.inr ⟨p, rfl⟩
  | p :: p' :: ps, h, hc =>
    exfalso
    set E := (p :: p' :: ps).flatMap Polygon.edges with hE
    have mp : p ∈ p :: p' :: ps := List.mem_cons_self
    have mp' : p' ∈ p :: p' :: ps := List.mem_cons_of_mem _ List.mem_cons_self
    obtain ⟨z, z1, z2⟩ := h.exists_inside mp
    obtain ⟨w, w1, w2⟩ := h.exists_inside mp'
    have nE := h.noOverlap
    have dE : ∀ q, Even (degree E q) := h.noOverlap_even.2
    rw [h.polysPts_eq] at hc
    have dz := (deep_region nE dE).2 ⟨z1, h.inside_of mp z1 z2⟩
    have dw := (deep_region nE dE).2 ⟨w1, h.inside_of mp' w1 w2⟩
    have off : ∀ r ∈ (Segment.mk z w).pts, r ∉ segsPts E := fun r hr => ((deep_region nE dE).1 (hc.deep z dz w dw hr)).1
    have offp : ∀ r ∈ (Segment.mk z w).pts, r ∉ segsPts p.edges := by
      rintro r hr ⟨s, hs, k⟩
      exact off r hr ⟨s, List.mem_flatMap.2 ⟨p, mp, hs⟩, k⟩
    have iw : Inside p.edges w := (inside_const (h.valid p mp).noOverlap.1 (h.valid p mp).even (s := ⟨z, w⟩) offp).1 z2
    have ap := ((List.pairwise_cons.1 h.apart).1 p' List.mem_cons_self).1
    refine ap w (Or.inr iw) ?_ w2
    rintro ⟨s, hs, k⟩
    exact w1 ⟨s, List.mem_flatMap.2 ⟨p', mp', hs⟩, k⟩

end Clipping

import Verif.Lemmas.Region.ConvexUnion

/-!
# Unions of regions with common points are connected
-/

namespace Clipping

open Sweep

theorem deep_near {K : Set Point} {m z : Point} {δ : ℚ} (h : ∀ z, Near δ m z → z ∈ K) (hz : Near δ m z) : Deep K z := by
  refine ⟨min (δ - |z.x - m.x|) (δ - |z.y - m.y|), lt_min (sub_pos.2 hz.1) (sub_pos.2 hz.2), fun y hy => h y ⟨?_, ?_⟩⟩
  · have h1 := hy.1.trans_le (min_le_left _ _)
    have h2 := abs_sub_le y.x z.x m.x
    linarith
  · have h1 := hy.2.trans_le (min_le_right _ _)
    have h2 := abs_sub_le y.y z.y m.y
    linarith

/-- A way within a region does not meet the boundary of a larger one. -/
theorem Linked.within {A E : List Segment} (nA : NoOverlap A) (dA : ∀ q, Even (degree A q)) (nE : NoOverlap E) (dE : ∀ q, Even (degree E q))
    (hs : regionPts A ⊆ regionPts E) {x y : Point} (h : Linked A x y) (hx : Inside A x) : Linked E x y ∧ Inside A y := by
  induction h with
  | refl => exact ⟨.refl, hx⟩
  | tail _ hf ih =>
    refine ⟨ih.1.tail fun r hr => ?_, (inside_const nA.1 dA (s := ⟨_, _⟩) hf).1 ih.2⟩
    have ir : Inside A r := (inside_const nA.1 dA (s := ⟨_, r⟩) (hf.sub hr)).1 ih.2
    exact ((deep_region nE dE).1 (((deep_region nA dA).2 ⟨hf r hr, ir⟩).mono hs)).1

/-- From a point of a region with connected inside, which is an inner point of a larger region, all inner points of the first one can be reached
within the larger one. -/
theorem linked_within {A E : List Segment} (nA : NoOverlap A) (dA : ∀ q, Even (degree A q)) (nE : NoOverlap E) (dE : ∀ q, Even (degree E q))
    (cA : ∀ x y, x ∉ segsPts A → y ∉ segsPts A → Inside A x → Inside A y → Linked A x y) (hs : regionPts A ⊆ regionPts E)
    {m z : Point} (hm : m ∈ regionPts A) (hd : Deep (regionPts E) m) (hz : z ∉ segsPts A) (iz : Inside A z) : Linked E m z := by
  obtain ⟨δ, δ0, hδ⟩ := hd
  obtain ⟨y, y1, -, y3, y4⟩ := (mem_region_iff (X := []) nA dA (by simp)).1 hm δ δ0
  have f : Free E m y := fun r hr => ((deep_region nE dE).1 (deep_near hδ (y1.path r hr))).1
  exact f.linked.trans ((cA y z y3 hz y4 iz).within nA dA nE dE hs y4).1

/-- regions of which the inside is connected -/
structure Whole (A : List Segment) : Prop where
  no : NoOverlap A
  even : ∀ q, Even (degree A q)
  conn : ∀ x y, x ∉ segsPts A → y ∉ segsPts A → Inside A x → Inside A y → Linked A x y

/-- Polygons with the points of the union of regions with connected insides, each of which has a point in common with the first one that is an inner
point of the union, are a single one. -/
theorem ValidPolygons.linked_single {ps : List Polygon} (h : ValidPolygons ps) {A : List Segment} {Bs : List (List Segment)} (wA : Whole A)
    (wB : ∀ B ∈ Bs, Whole B) (e : polysPts ps = regionPts A ∪ {q | ∃ B ∈ Bs, q ∈ regionPts B}) {z₀ : Point} (hz₀ : z₀ ∉ segsPts A) (iz₀ : Inside A z₀)
    (hm : ∀ B ∈ Bs, ∃ m, m ∈ regionPts A ∧ m ∈ regionPts B ∧ Deep (polysPts ps) m) : ∃ p, ps = [p] := by
  have nE := h.noOverlap
  have dE : ∀ q, Even (degree (ps.flatMap Polygon.edges) q) := h.noOverlap_even.2
  rw [h.polysPts_eq] at e hm
  have sA : regionPts A ⊆ regionPts (ps.flatMap Polygon.edges) := by rw [e]; exact Set.subset_union_left
  have sB : ∀ B ∈ Bs, regionPts B ⊆ regionPts (ps.flatMap Polygon.edges) := by
    intro B hB q hq
    rw [e]
    exact Or.inr ⟨B, hB, hq⟩
  have d₀ := ((deep_region wA.no wA.even).2 ⟨hz₀, iz₀⟩).mono sA
  have hm0 : z₀ ∉ segsPts (ps.flatMap Polygon.edges) := ((deep_region nE dE).1 d₀).1
  have key : ∀ p ∈ ps, Inside p.edges z₀ := by
    intro p hp
    obtain ⟨w, w1, w2⟩ := h.exists_inside hp
    have V := h.valid p hp
    have sub : segsPts p.edges ⊆ segsPts (ps.flatMap Polygon.edges) := by
      rintro r ⟨s, hs, k⟩
      exact ⟨s, List.mem_flatMap.2 ⟨p, hp, hs⟩, k⟩
    obtain ⟨δ, δ0, hδ⟩ := inside_near V.noOverlap.1 V.even fun k => w1 (sub k)
    have wU : w ∈ regionPts A ∪ {q | ∃ B ∈ Bs, q ∈ regionPts B} := by
      rw [← e]
      exact Or.inr (h.inside_of hp w1 w2)
    have reach : ∃ z, Near δ w z ∧ Linked (ps.flatMap Polygon.edges) z₀ z := by
      rcases wU with k | ⟨B, hB, k⟩
      · obtain ⟨z, z1, -, z3, z4⟩ := (mem_region_iff (X := []) wA.no wA.even (by simp)).1 k δ δ0
        exact ⟨z, z1, linked_within wA.no wA.even nE dE wA.conn sA (Or.inr iz₀) d₀ z3 z4⟩
      · have w := wB B hB
        obtain ⟨m, m1, m2, m3⟩ := hm B hB
        obtain ⟨z, z1, -, z3, z4⟩ := (mem_region_iff (X := []) w.no w.even (by simp)).1 k δ δ0
        exact ⟨z, z1, (linked_within wA.no wA.even nE dE wA.conn sA m1 m3 hz₀ iz₀).symm.trans
          (linked_within w.no w.even nE dE w.conn (sB B hB) m2 m3 z3 z4)⟩
    obtain ⟨z, z1, z2⟩ := reach
    exact ((z2.mono sub).inside_iff V.noOverlap.1 V.even).2 ((hδ z z1).2.2 w2)
  match ps, h, e, key, hm0 with
  | [], _, e, _, _ =>
    exfalso
    have : z₀ ∈ regionPts ([].flatMap Polygon.edges) := by rw [e]; exact Or.inl (Or.inr iz₀)
    rcases this with k | k
    · simp [segsPts] at k
    · exact inside_nil z₀ k
  | [p], _, _, _, _ => exact ⟨p, rfl⟩
  | p :: p' :: ps, h, _, key, hm0 =>
    exfalso
    have ap := ((List.pairwise_cons.1 h.apart).1 p' List.mem_cons_self).1
    have mp' : p' ∈ p :: p' :: ps := List.mem_cons_of_mem _ List.mem_cons_self
    refine ap z₀ (Or.inr (key p List.mem_cons_self)) ?_ (key p' mp')
    rintro ⟨s, hs, k⟩
    exact hm0 ⟨s, List.mem_flatMap.2 ⟨p', mp', hs⟩, k⟩

end Clipping

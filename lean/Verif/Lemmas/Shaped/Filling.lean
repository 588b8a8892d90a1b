import Verif.Lemmas.Shaped.RegionsValid
import Verif.Lemmas.Shaped.Exact

/-!
# Common interiors of regions without holes have no holes
-/

namespace Clipping

open Sweep Darts

theorem exists_far (E : List Segment) : ∃ y : Point, ∀ e ∈ E, y.x < e.start.x ∧ y.x < e.stop.x := by
  induction E with
  | nil => exact ⟨⟨0, 0⟩, by simp⟩
  | cons e E ih =>
    obtain ⟨y, hy⟩ := ih
    refine ⟨⟨min y.x (min e.start.x e.stop.x - 1), 0⟩, ?_⟩
    have l1 := min_le_left y.x (min e.start.x e.stop.x - 1)
    have l2 := min_le_right y.x (min e.start.x e.stop.x - 1)
    have l3 := min_le_left e.start.x e.stop.x
    have l4 := min_le_right e.start.x e.stop.x
    intro g hg
    rcases List.mem_cons.1 hg with rfl | hg
    · exact ⟨by dsimp only; linarith, by dsimp only; linarith⟩
    · exact ⟨by dsimp only; linarith [(hy g hg).1], by dsimp only; linarith [(hy g hg).2]⟩

theorem convex_lt {y a b t : ℚ} (t0 : 0 ≤ t) (t1 : t ≤ 1) (ha : y < a) (hb : y < b) : y < a + t * (b - a) := by
  have h2 : 0 ≤ t * (b - y) := mul_nonneg t0 (by linarith)
  rcases t1.lt_or_eq with h | rfl
  · have h1 : 0 < (1 - t) * (a - y) := mul_pos (by linarith) (by linarith)
    linarith
  · linarith

theorem far_off {E : List Segment} {y : Point} (h : ∀ e ∈ E, y.x < e.start.x ∧ y.x < e.stop.x) :
    y ∉ segsPts E ∧ ¬ Inside E y := by
  constructor
  · rintro ⟨e, he, t, t0, t1, hx, -⟩
    obtain ⟨h1, h2⟩ := h e he
    exact (convex_lt t0 t1 h1 h2).ne hx
  · unfold Inside
    rw [List.countP_eq_zero.2]
    · simp
    · intro e he
      simp only [decide_eq_true_eq]
      rintro ⟨h1, -⟩
      obtain ⟨g1, g2⟩ := h e he
      rcases e.lo_mem with ⟨t, t0, t1, hx, -⟩
      linarith [convex_lt t0 t1 g1 g2]

/-- A closed path in a region without holes goes around interior points only. -/
theorem SimpleContour.filling {c : Contour} (hc : SimpleContour c) {L : List Segment} (pL : ∀ e ∈ L, e.Proper)
    (eL : ∀ q, Even (degree L q)) (sub : segsPts L ⊆ regionPts c.edges) {x : Point} (hx : x ∉ segsPts c.edges)
    (hi : Inside L x) : Inside c.edges x := by
  by_contra hn
  obtain ⟨y, hy⟩ := exists_far (c.edges ++ L)
  obtain ⟨y1, y2⟩ := far_off fun e he => hy e (List.mem_append_left L he)
  obtain ⟨-, y3⟩ := far_off fun e he => hy e (List.mem_append_right c.edges he)
  have l := (hc.linked_iff hx y1).2 (iff_of_false hn y2)
  have l' : Linked L x y := by
    clear y1 y2 y3 hy
    induction l with
    | refl => exact Relation.ReflTransGen.refl
    | @tail b d h1 h2 ih =>
      refine ih.tail ?_
      intro r hr hL
      have hb : ¬ Inside c.edges b := fun h => hn ((Linked.inside_iff hc.proper hc.even h1).2 h)
      have hbr : ¬ Inside c.edges r := fun h =>
        hb ((Linked.inside_iff hc.proper hc.even (Free.sub h2 hr).linked).2 h)
      rcases sub hL with h | h
      · exact h2 r hr h
      · exact hbr h
  exact y3 ((Linked.inside_iff pL eL l').1 hi)

theorem ValidPolygons.noOverlap_even {ps : List Polygon} (h : ValidPolygons ps) :
    NoOverlap (ps.flatMap Polygon.edges) ∧ ∀ q, Even (degree (ps.flatMap Polygon.edges) q) := by
  refine ⟨h.noOverlap, fun q => ?_⟩
  have := h.valid
  clear h
  induction ps with
  | nil => exact ⟨0, rfl⟩
  | cons p ps ih =>
    rw [List.flatMap_cons, degree_append]
    exact ((this p (by simp)).even q).add (ih fun p hp => this p (by simp [hp]))

/-- A point of the inside of some of the polygons is in the inside of all. -/
theorem ValidPolygons.inside_of {ps : List Polygon} (h : ValidPolygons ps) {p : Polygon} (hp : p ∈ ps) {z : Point}
    (hz : z ∉ segsPts (ps.flatMap Polygon.edges)) (hi : Inside p.edges z) : Inside (ps.flatMap Polygon.edges) z := by
  rw [← h.mem_off hz]
  refine ⟨p, hp, ?_⟩
  have V := h.valid p hp
  rw [← V.pts_eq, V.sameEdges.regionPts_eq]
  exact Or.inr hi

theorem exists_inside_of {ps : List Polygon} {z : Point} (hi : Inside (ps.flatMap Polygon.edges) z) :
    ∃ p ∈ ps, Inside p.edges z := by
  by_contra hn
  push Not at hn
  exact inside_flatMap_not hn hi

section

variable {P Q : List Polygon} {E : List Segment} (hP : ValidPolygons P) (hQ : ValidPolygons Q)
  (hE : IsBoundaryOf (fun a b => a && b) (P.flatMap Polygon.edges) (Q.flatMap Polygon.edges) E)

include hP hQ hE

/-- Edges of operands are not within the common interior. -/
theorem IsBoundaryOf.inside_off {z : Point} (hz : z ∉ segsPts E) (hi : Inside E z) :
    z ∉ segsPts (P.flatMap Polygon.edges) ∧ z ∉ segsPts (Q.flatMap Polygon.edges) := by
  obtain ⟨δ, δ0, hδ⟩ := inside_near hE.proper hE.even hz
  have both : ∀ w, Near δ z w → w ∉ segsPts (P.flatMap Polygon.edges ++ Q.flatMap Polygon.edges) →
      Inside (P.flatMap Polygon.edges) w ∧ Inside (Q.flatMap Polygon.edges) w := by
    intro w hw hoff
    exact combined_and.1 ((hE.inside w hoff).1 ((hδ w hw).2.2 hi))
  have pr : ∀ s ∈ P.flatMap Polygon.edges ++ Q.flatMap Polygon.edges, s.Proper := by
    intro s hs
    rcases List.mem_append.1 hs with h | h
    · exact hP.noOverlap.1 s h
    · exact hQ.noOverlap.1 s h
  constructor
  · intro h
    obtain ⟨w, h1, h2, -, h4⟩ := (near_both hP.noOverlap_even.1 hP.noOverlap_even.2 h pr δ0).2
    exact h4 (both w h1 h2).1
  · intro h
    obtain ⟨w, h1, h2, -, h4⟩ := (near_both hQ.noOverlap_even.1 hQ.noOverlap_even.2 h pr δ0).2
    exact h4 (both w h1 h2).2

/-- Linked points of the common interior are in the same polygon of each operand. -/
theorem IsBoundaryOf.linked_same {x y : Point} (hi : Inside E x) (hl : Linked E x y) {p : Polygon}
    (hp : p ∈ P ∨ p ∈ Q) : Inside p.edges x ↔ Inside p.edges y := by
  have V : ValidPolygon p := hp.elim (hP.valid p) (hQ.valid p)
  have : Linked p.edges x y := by
    induction hl with
    | refl => exact Relation.ReflTransGen.refl
    | @tail b d h1 h2 ih =>
      refine ih.tail ?_
      intro r hr hL
      have hb : Inside E b := (Linked.inside_iff hE.proper hE.even h1).1 hi
      have hr' : Inside E r := (Linked.inside_iff hE.proper hE.even (Free.sub h2 hr).linked).1 hb
      obtain ⟨o1, o2⟩ := hE.inside_off hP hQ (h2 r hr) hr'
      obtain ⟨e, he, hre⟩ := hL
      rcases hp with hp | hp
      · exact o1 ⟨e, List.mem_flatMap.2 ⟨p, hp, he⟩, hre⟩
      · exact o2 ⟨e, List.mem_flatMap.2 ⟨p, hp, he⟩, hre⟩
  exact Linked.inside_iff V.noOverlap.1 V.even this

end

/-- An edge is in a region if its left side is. -/
theorem left_closure {E : List Segment} {e : Segment} (hp : ∀ g ∈ E, g.Proper) (he : e.Proper) (ha : Alone E e)
    {C : List Segment} (pC : ∀ g ∈ C, g.Proper) (eC : ∀ q, Even (degree C q))
    (hl : ∀ q, SideOf E e 1 q → Inside C q) : e.pts ⊆ regionPts C := by
  intro m hm
  by_contra hn
  have h0 : m ∉ segsPts C := fun h => hn (Or.inl h)
  obtain ⟨δ, δ0, hδ⟩ := inside_near pC eC h0
  obtain ⟨m', hm', hi', hn', -⟩ := exists_alone (X := []) he (by simp) (by simp) hm (half_pos δ0)
  obtain ⟨η, η0, hη⟩ := ha.near_side hp hm' hi'
  obtain ⟨q, hq, hc⟩ := exists_left_near he hm' (lt_min η0 (half_pos δ0))
  have i1 := hl q (hη q 1 (hq.mono (min_le_left _ _)) (by linarith))
  have near : Near δ m q := by
    have := hn'.trans (hq.mono (min_le_right _ _))
    rwa [add_halves] at this
  exact hn (Or.inr ((hδ q near).2.1 i1))

end Clipping

import Verif.Lemmas.Region.UnionPieces
import Verif.Properties.UnionSingle
import Verif.Properties.Determined
import Verif.Lemmas.Shaped.Affine

/-!
# C86: pieces of unions

Uniting does not take polygons apart: each polygon of the result contains a polygon of the operands, each polygon of the operands is in one polygon
of the result, and the result has at most as many polygons as the operands together.
-/

namespace Clipping

open Sweep

/-- polygons of which each one contains one of `operands`, with each of `operands` in one of them, and not more than `operands` -/
structure Gathers (operands result : List Polygon) : Prop where
  contains : ∀ p ∈ result, ∃ a ∈ operands, a.pts ⊆ p.pts
  within : ∀ a ∈ operands, ∃ p ∈ result, a.pts ⊆ p.pts
  length_le : result.length ≤ operands.length

theorem ValidPolygons.gathers {ps as : List Polygon} (h : ValidPolygons ps) (va : ∀ a ∈ as, ValidPolygon a) (ha : ∀ a ∈ as, Detached [a])
    (e : polysPts ps = polysPts as) : Gathers as ps := by
  have w : ∀ A ∈ as.map Polygon.edges, Whole A := by
    intro A hA
    obtain ⟨a, ka, rfl⟩ := List.mem_map.1 hA
    exact (va a ka).whole (ha a ka)
  have e' : polysPts ps = {q | ∃ A ∈ as.map Polygon.edges, q ∈ regionPts A} := by
    rw [e]
    ext q
    simp only [polysPts, Set.mem_ofPred_eq, List.mem_map, exists_exists_and_eq_and, polygon_pts_eq]
  refine ⟨fun p hp => ?_, fun a ka => ?_, ?_⟩
  · obtain ⟨A, hA, s⟩ := h.piece_contains w e' hp
    obtain ⟨a, ka, rfl⟩ := List.mem_map.1 hA
    exact ⟨a, ka, by rwa [polygon_pts_eq a]⟩
  · obtain ⟨z, z1, z2⟩ := (va a ka).exists_inside
    obtain ⟨p, hp, s⟩ := h.piece_within ((va a ka).whole (ha a ka)) (fun q hq => by rw [e]; exact ⟨a, ka, by rwa [polygon_pts_eq]⟩) z1 z2
    exact ⟨p, hp, by rwa [polygon_pts_eq a]⟩
  · simpa using h.pieces_le w e'

/-- **C86** `unite_polygons`: the result has one or two polygons, each of them contains an operand, and each operand is in one of them. -/
theorem unitePolygons_gathers (tb : TieBreak) {a b : Polygon} (va : ValidPolygon a) (vb : ValidPolygon b) (da : Detached [a]) (db : Detached [b]) :
    ∃ g, unitePolygons tb a b = .ok g ∧ ValidPolygons g.polygons ∧ polysPts g.polygons = a.pts ∪ b.pts ∧ Gathers [a, b] g.polygons := by
  obtain ⟨g, h1, -, V, h5⟩ := unitePolygons_detached tb va vb da db
  rw [polygon_pts_eq a, polygon_pts_eq b, closureOff_union va.noOverlap va.even vb.noOverlap vb.even, ← polygon_pts_eq, ← polygon_pts_eq] at h5
  exact ⟨g, h1, V, h5, V.gathers (by simp [va, vb]) (by simp [da, db]) (by rw [h5]; ext q; simp [polysPts])⟩

/-- **C86** `unite_polygon_with_multipolygon`: the result has at most one more polygon than the multipolygon, each of them contains the polygon or one
of the multipolygon, and each of these is in one of them. -/
theorem unitePolygonWithMultipolygon_gathers (tb : TieBreak) {a : Polygon} {b : List Polygon} (va : ValidPolygon a) (nb : b ≠ []) (vb : ValidPolygons b)
    (da : Detached [a]) (db : Detached b) :
    ∃ g, unitePolygonWithMultipolygon tb a b = .ok g ∧ ValidPolygons g.polygons ∧ polysPts g.polygons = a.pts ∪ polysPts b ∧
      Gathers (a :: b) g.polygons := by
  obtain ⟨g, h1, -, V, h5⟩ := unitePolygonWithMultipolygon_detached tb va nb vb da db
  have eb := vb.polysPts_eq
  rw [polygon_pts_eq a, eb, closureOff_union va.noOverlap va.even vb.noOverlap vb.noOverlap_even.2, ← eb, ← polygon_pts_eq] at h5
  exact ⟨g, h1, V, h5, V.gathers (by simpa [va] using vb.valid) (by simpa [da] using fun p hp => db.single hp) (by rw [h5]; ext q; simp [polysPts])⟩

/-- **C86** `unite_multipolygons`: the result has at most as many polygons as the operands together, each of them contains a polygon of the operands,
and each polygon of the operands is in one of them. -/
theorem uniteMultipolygons_gathers (tb : TieBreak) {a b : List Polygon} (na : a ≠ []) (va : ValidPolygons a) (nb : b ≠ []) (vb : ValidPolygons b)
    (da : Detached a) (db : Detached b) :
    ∃ g, uniteMultipolygons tb a b = .ok g ∧ ValidPolygons g.polygons ∧ polysPts g.polygons = polysPts a ∪ polysPts b ∧
      Gathers (a ++ b) g.polygons := by
  obtain ⟨g, h1, -, V, h5⟩ := uniteMultipolygons_detached tb na va nb vb da db
  have ea := va.polysPts_eq
  have eb := vb.polysPts_eq
  rw [ea, eb, closureOff_union va.noOverlap va.noOverlap_even.2 vb.noOverlap vb.noOverlap_even.2, ← ea, ← eb] at h5
  refine ⟨g, h1, V, h5, V.gathers (fun p hp => (List.mem_append.1 hp).elim (va.valid p) (vb.valid p))
    (fun p hp => (List.mem_append.1 hp).elim (fun h => da.single h) (fun h => db.single h)) ?_⟩
  rw [h5]
  ext q
  simp [polysPts, or_and_right, exists_or]

/-- Polygons without common points. -/
theorem Separate.append {a b : List Polygon} (ha : Separate a) (hb : Separate b) (h : Disjoint (polysPts a) (polysPts b)) : Separate (a ++ b) := by
  have off : ∀ {p q : Polygon}, p ∈ a → q ∈ b → ∀ z, z ∈ p.pts → z ∉ q.pts := fun hp hq z hz kz =>
    Set.disjoint_left.1 h ⟨_, hp, hz⟩ ⟨_, hq, kz⟩
  have sub : ∀ {p : Polygon} {c : Contour}, c ∈ p.border :: p.holes → ∀ z ∈ segsPts c.edges, z ∈ p.pts := by
    intro p c hc z ⟨s, hs, k⟩
    rw [polygon_pts_eq]
    refine Or.inl ⟨s, ?_, k⟩
    rcases List.mem_cons.1 hc with rfl | hc
    · exact List.mem_append_left _ hs
    · exact List.mem_append_right _ (List.mem_flatMap.2 ⟨c, hc, hs⟩)
  refine ⟨⟨fun p hp => (List.mem_append.1 hp).elim (ha.valid.valid p) (hb.valid.valid p), ?_, ?_⟩, ?_, ?_⟩
  · rw [List.flatMap_append]
    refine noOverlap_of_disjoint ha.valid.noOverlap hb.valid.noOverlap fun z z1 z2 => Set.disjoint_left.1 h (?_ : z ∈ polysPts a) ?_
    · rw [ha.valid.polysPts_eq]
      exact Or.inl z1
    · rw [hb.valid.polysPts_eq]
      exact Or.inl z2
  · refine List.pairwise_append.2 ⟨ha.valid.apart, hb.valid.apart, fun p hp q hq => ⟨fun z z1 _ z3 => ?_, fun z z1 _ z3 => ?_⟩⟩
    · exact off hp hq z (by rwa [polygon_pts_eq]) (by rw [polygon_pts_eq]; exact Or.inr z3)
    · exact off hp hq z (by rw [polygon_pts_eq]; exact Or.inr z3) (by rwa [polygon_pts_eq])
  · unfold Detached
    rw [List.flatMap_append]
    refine List.pairwise_append.2 ⟨ha.detached, hb.detached, fun c hc d hd z z1 z2 => ?_⟩
    obtain ⟨p, hp, kc⟩ := List.mem_flatMap.1 hc
    obtain ⟨q, hq, kd⟩ := List.mem_flatMap.1 hd
    exact off hp hq z (sub kc z z1) (sub kd z z2)
  · intro c hc
    unfold contoursOf at hc
    rw [List.flatMap_append] at hc
    exact (List.mem_append.1 hc).elim (ha.cornered c) (hb.cornered c)

/-- **C86** Operands without common points: the union and the symmetric difference consist of the polygons of both operands, up to the way they are
written (first vertex, direction, order of polygons and holes). -/
theorem disjoint_same {o : Orient} (ok : OrientOk o) (tb : TieBreak) {a b : List Polygon} (ha : Separate a) (hb : Separate b)
    (h : Disjoint (polysPts a) (polysPts b)) {k : Operation} (hk : k = .union ∨ k = .symmetricDifference) :
    ∃ g, k.call o tb a b = .ok g ∧ SamePolygons (a ++ b) g.polygons := by
  have H := ha.append hb h
  obtain ⟨g, e, V, p⟩ := result_points ok tb ha.valid hb.valid ha.detached hb.detached k H.valid fun q _ => by
    have hd : ¬ (q ∈ polysPts a ∧ q ∈ polysPts b) := fun k => Set.disjoint_left.1 h k.1 k.2
    have m : q ∈ polysPts (a ++ b) ↔ q ∈ polysPts a ∨ q ∈ polysPts b := by
      simp [polysPts, or_and_right, exists_or]
    rw [m]
    rcases hk with rfl | rfl <;> by_cases k1 : q ∈ polysPts a <;> by_cases k2 : q ∈ polysPts b <;> simp_all [Operation.holds]
  exact ⟨g, e, (polygons_unique H V (Operation.call_cornered ok tb k ha.valid hb.valid ha.cornered hb.cornered e) p).2⟩

/-! ### Examples -/

theorem exCup_simple : SimpleContour exCup := simpleCheck_spec (by decide +kernel)

theorem exCup_edges : exCup.edges = [⟨⟨0, 0⟩, ⟨3, 0⟩⟩, ⟨⟨3, 0⟩, ⟨3, 3⟩⟩, ⟨⟨3, 3⟩, ⟨2, 3⟩⟩, ⟨⟨2, 3⟩, ⟨2, 1⟩⟩, ⟨⟨2, 1⟩, ⟨1, 1⟩⟩,
    ⟨⟨1, 1⟩, ⟨1, 3⟩⟩, ⟨⟨1, 3⟩, ⟨0, 3⟩⟩, ⟨⟨0, 3⟩, ⟨0, 0⟩⟩] := by
  decide +kernel

/-- Within the opening of the U, there are no points of it. -/
theorem exCup_opening {z : Point} (h1 : 1 < z.x) (h2 : z.x < 2) (h3 : 1 < z.y) : z ∉ regionPts exCup.edges := by
  have off : ∀ m : Point, 1 < m.x → m.x < 2 → 1 < m.y → m ∉ segsPts exCup.edges := by
    intro m m1 m2 m3
    refine off_segments fun e he => Or.inr ?_
    rw [exCup_edges] at he
    simp only [List.mem_cons, List.not_mem_nil, or_false] at he
    rcases he with rfl | rfl | rfl | rfl | rfl | rfl | rfl | rfl <;> simp only
    · exact Or.inr (Or.inr (Or.inr ⟨by linarith, by linarith⟩))
    · exact Or.inl ⟨by linarith, by linarith⟩
    · exact Or.inl ⟨by linarith, by linarith⟩
    · exact Or.inl ⟨by linarith, by linarith⟩
    · exact Or.inr (Or.inr (Or.inr ⟨by linarith, by linarith⟩))
    · exact Or.inr (Or.inl ⟨by linarith, by linarith⟩)
    · exact Or.inr (Or.inl ⟨by linarith, by linarith⟩)
    · exact Or.inr (Or.inl ⟨by linarith, by linarith⟩)
  rintro (k | k)
  · exact off z h1 h2 h3 k
  · have c := inside_const exCup_simple.noOverlap.1 exCup_simple.even (s := ⟨z, ⟨3 / 2, 2⟩⟩) (by
      rintro m ⟨t, t0, t1, tx, ty⟩
      simp only at tx ty
      refine off m ?_ ?_ ?_
      · rw [tx]; nlinarith
      · rw [tx]; nlinarith
      · rcases le_total z.y 2 with l | l
        · nlinarith [mul_nonneg t0 (sub_nonneg.2 l)]
        · nlinarith [mul_nonneg (sub_nonneg.2 t1) (sub_nonneg.2 l)])
    have n : ¬ Inside exCup.edges ⟨3 / 2, 2⟩ := by decide +kernel
    exact n (c.1 k)

theorem exCup_separate : Separate [⟨exCup, []⟩] := by
  refine ⟨exCup_simple.validPolygon.validPolygons, detached_single rfl, ?_⟩
  intro c hc
  simp only [contoursOf, List.flatMap_cons, List.flatMap_nil, List.append_nil, List.mem_cons, List.not_mem_nil, or_false] at hc
  subst hc
  have : ∀ l ∈ exCup.vertices.cyclicPermutations, (match l with | u :: v :: w :: _ => cross u v w | _ => 1) ≠ 0 := by decide +kernel
  refine cornered_of_all fun l hl u v w rest e => ?_
  have := this l hl
  rw [e] at this
  exact this

theorem exSmall_separate : Separate [⟨squareContour (5 / 4) 2 (1 / 2), []⟩] := by
  refine ⟨(squareContour_simple (by norm_num)).validPolygon.validPolygons, detached_single rfl, ?_⟩
  intro c hc
  simp only [contoursOf, List.flatMap_cons, List.flatMap_nil, List.append_nil, List.mem_cons, List.not_mem_nil, or_false] at hc
  subst hc
  have : ∀ l ∈ (squareContour (5 / 4) 2 (1 / 2)).vertices.cyclicPermutations, (match l with | u :: v :: w :: _ => cross u v w | _ => 1) ≠ 0 := by decide +kernel
  refine cornered_of_all fun l hl u v w rest e => ?_
  have := this l hl
  rw [e] at this
  exact this

/-- A square in the opening of a U: no point is common to both, although the bounding boxes overlap.  The union is what it was. -/
example {o : Orient} (ok : OrientOk o) (tb : TieBreak) : ∃ g, unitePolygons tb ⟨exCup, []⟩ ⟨squareContour (5 / 4) 2 (1 / 2), []⟩ = .ok g ∧
    SamePolygons [⟨exCup, []⟩, ⟨squareContour (5 / 4) 2 (1 / 2), []⟩] g.polygons := by
  refine disjoint_same ok tb exCup_separate exSmall_separate (Set.disjoint_left.2 fun z z1 z2 => ?_) (Or.inl rfl) (k := .union)
  rw [polysPts_singleton, bare_pts] at z1 z2
  rw [square_region (by norm_num)] at z2
  exact exCup_opening (by linarith) (by linarith) (by linarith) z1

/-- A square with a hole, and a rectangle which covers a part of the hole. -/
example (tb : TieBreak) : ∃ g, unitePolygons tb ⟨⟨[⟨0, 0⟩, ⟨4, 0⟩, ⟨4, 4⟩, ⟨0, 4⟩]⟩, [⟨[⟨1, 1⟩, ⟨1, 3⟩, ⟨3, 3⟩, ⟨3, 1⟩]⟩]⟩ ⟨exLid, []⟩ = .ok g ∧
    g.polygons.length ≤ 2 := by
  obtain ⟨g, h, -, -, k⟩ := unitePolygons_gathers tb (exStandard_valid.valid _ (List.mem_singleton_self _))
    (simpleCheck_spec (by decide +kernel) : SimpleContour exLid).validPolygon exStandard_detached (detached_single rfl)
  exact ⟨g, h, k.length_le⟩

/-- The number of polygons of a union can be anything up to the number of polygons of the operands. -/
example (tb : TieBreak) : ∃ g, unitePolygons tb ⟨exCup, []⟩ ⟨exLid, []⟩ = .ok g ∧ ValidPolygons g.polygons ∧
    polysPts g.polygons = (⟨exCup, []⟩ : Polygon).pts ∪ (⟨exLid, []⟩ : Polygon).pts ∧ Gathers [⟨exCup, []⟩, ⟨exLid, []⟩] g.polygons :=
  unitePolygons_gathers tb exCup_simple.validPolygon (simpleCheck_spec (by decide +kernel) : SimpleContour exLid).validPolygon (detached_single rfl)
    (detached_single rfl)

/-- That contours do not touch each other is needed: the inside of this square is taken apart by a hole which touches the border twice, so the union
with a rectangle in its lower part has two polygons, and the square is in none of them. -/
example : unitePolygons TieBreak.id ⟨⟨[⟨0, 0⟩, ⟨4, 0⟩, ⟨4, 4⟩, ⟨0, 4⟩]⟩, [⟨[⟨0, 2⟩, ⟨2, 3⟩, ⟨4, 2⟩, ⟨2, 1⟩]⟩]⟩
    ⟨⟨[⟨1, 0⟩, ⟨3, 0⟩, ⟨3, 1 / 2⟩, ⟨1, 1 / 2⟩]⟩, []⟩ =
    .ok (.multipolygon [⟨⟨[⟨0, 0⟩, ⟨4, 0⟩, ⟨4, 2⟩, ⟨2, 1⟩, ⟨0, 2⟩]⟩, []⟩, ⟨⟨[⟨0, 2⟩, ⟨2, 3⟩, ⟨4, 2⟩, ⟨4, 4⟩, ⟨0, 4⟩]⟩, []⟩]) := by
  decide +kernel

end Clipping

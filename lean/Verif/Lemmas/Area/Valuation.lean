import Verif.Lemmas.Area.Slices
import Verif.Lemmas.Shaped.Operands
import Verif.Spec.Area

/-!
# Areas of regions add up as the regions do
-/

namespace Clipping

open Sweep

/-- the abscissas which have to be avoided -/
def Special (E : List Segment) : Set ℚ :=
  {x | (∃ e ∈ E, e.start.x = x ∨ e.stop.x = x) ∨ ∃ e ∈ E, ∃ e' ∈ E, e' ≠ e ∧ ∃ m : Point, m.x = x ∧ m ∈ e.pts ∧ m ∈ e'.pts}

theorem ends_finite (E : List Segment) : {x | ∃ e ∈ E, e.start.x = x ∨ e.stop.x = x}.Finite := by
  refine ((E.map fun e => e.start.x) ++ E.map fun e => e.stop.x).finite_toSet.subset ?_
  rintro x ⟨e, he, k | k⟩
  · exact List.mem_append_left _ (List.mem_map.2 ⟨e, he, k⟩)
  · exact List.mem_append_right _ (List.mem_map.2 ⟨e, he, k⟩)

theorem special_finite {E : List Segment} (h : NoOverlap E) : (Special E).Finite := by
  have a := ends_finite E
  have b : (⋃ e ∈ {e | e ∈ E}, ⋃ e' ∈ {e | e ∈ E}, {x | e' ≠ e ∧ ∃ m : Point, m.x = x ∧ m ∈ e.pts ∧ m ∈ e'.pts}).Finite := by
    refine E.finite_toSet.biUnion fun e he => E.finite_toSet.biUnion fun e' he' => Set.Subsingleton.finite ?_
    rintro x ⟨ne, m, rfl, h1, h2⟩ y ⟨-, n, rfl, h3, h4⟩
    by_contra k
    have hmn : m ≠ n := fun k' => k (by rw [k'])
    have sym : Std.Symm fun s t : Segment => ¬ Overlapping s t :=
      ⟨fun s t k ⟨p, q, pq, a, b, c, d⟩ => k ⟨p, q, pq, c, d, a, b⟩⟩
    exact h.2.forall he he' ne.symm ⟨m, n, hmn, h1, h3, h2, h4⟩
  refine (a.union b).subset ?_
  rintro x (k | ⟨e, he, e', he', ne, m, k⟩)
  · exact .inl k
  · exact .inr (Set.mem_biUnion he (Set.mem_biUnion he' ⟨ne, m, k⟩))

theorem heights_finite (E : List Segment) (x : ℚ) : {y | ∃ e ∈ E, height e x = y}.Finite := by
  refine (E.map fun e => height e x).finite_toSet.subset ?_
  rintro y ⟨e, he, k⟩
  exact List.mem_map.2 ⟨e, he, k⟩

theorem sum_mul_nonneg {K : Type} [AddCommMonoid K] [PartialOrder K] [IsOrderedAddMonoid K] {α : Type} (l : List α) (f : α → K) (h : ∀ a ∈ l, 0 ≤ f a) : 0 ≤ (l.map f).sum := by
  refine List.sum_nonneg fun x hx => ?_
  obtain ⟨a, ha, rfl⟩ := List.mem_map.1 hx
  exact h a ha

/-- If the weights of the regions around a point never add up to something negative, then the weighted areas do not.  (Points on the segments `Z` do not matter.) -/
theorem trapezoids_valuation {F : List (ℚ × List Segment)} (hF : ∀ p ∈ F, IsBoundary p.2) (Z : List Segment)
    (h : ∀ q, q ∉ segsPts Z → (∀ p ∈ F, q ∉ segsPts p.2) → 0 ≤ (F.map fun p => p.1 * if Inside p.2 q then 1 else 0).sum) :
    0 ≤ (F.map fun p => p.1 * trapezoids p.2).sum := by
  obtain ⟨X, hX, mX⟩ := exists_ascending (S := (⋃ p ∈ {p | p ∈ F}, Special p.2) ∪ {x | ∃ e ∈ Z, e.start.x = x ∨ e.stop.x = x})
    ((F.finite_toSet.biUnion fun p hp => special_finite (hF p hp).noOverlap).union (ends_finite Z))
  have hY : ∀ x, ∃ Y : List ℚ, Y.Pairwise (· < ·) ∧ ∀ y, y ∈ Y ↔ y ∈ (⋃ p ∈ {p | p ∈ F}, {y | ∃ e ∈ p.2, height e x = y}) ∪
      {y | ∃ e ∈ Z, height e x = y} := fun x =>
    exists_ascending ((F.finite_toSet.biUnion fun p _ => heights_finite p.2 x).union (heights_finite Z x))
  choose Y aY mY using hY
  have gen : ∀ u ∈ gaps X, ∀ p ∈ F, mid u ∉ Special p.2 := fun u hu p hp k =>
    gaps_mid hX hu ((mX _).2 (.inl <| Set.mem_biUnion hp k))
  have generic : ∀ u ∈ gaps X, ∀ p ∈ F, Generic p.2 (mid u) := fun u hu p hp e he =>
    ⟨fun k => gen u hu p hp (.inl ⟨e, he, .inl k⟩), fun k => gen u hu p hp (.inl ⟨e, he, .inr k⟩)⟩
  have clear : ∀ u ∈ gaps X, ∀ p ∈ F, Clear p.2 (mid u) := fun u hu p hp e he e' he' m hm h1 h2 => by
    by_contra k
    exact gen u hu p hp (.inr ⟨e, he, e', he', k, m, hm, h1, h2⟩)
  have t : ∀ p ∈ F, p.1 * trapezoids p.2 = ((gaps X).map fun u => (u.2 - u.1) * ((gaps (Y (mid u))).map fun v =>
      (v.2 - v.1) * (p.1 * if Inside p.2 ⟨mid u, mid v⟩ then 1 else 0)).sum).sum := by
    intro p hp
    rw [trapezoids_eq hX fun e he => ⟨(mX _).2 (.inl <| Set.mem_biUnion hp (.inl ⟨e, he, .inl rfl⟩)),
      (mX _).2 (.inl <| Set.mem_biUnion hp (.inl ⟨e, he, .inr rfl⟩))⟩, ← mul_sum]
    congr 1
    refine List.map_congr_left fun u hu => ?_
    rw [slice_eq (hF p hp) (generic u hu p hp) (clear u hu p hp) (aY (mid u)) fun e he _ =>
      (mY _ _).2 (.inl <| Set.mem_biUnion hp ⟨e, he, rfl⟩), mul_left_comm, ← mul_sum]
    congr 2
    refine List.map_congr_left fun v _ => ?_
    ring
  rw [List.map_congr_left t, sum_swap]
  refine sum_mul_nonneg _ _ fun u hu => ?_
  rw [mul_sum, sum_swap]
  refine mul_nonneg (by linarith [(gaps_spec hX hu).1]) (sum_mul_nonneg _ _ fun v hv => ?_)
  rw [mul_sum]
  refine mul_nonneg (by linarith [(gaps_spec (aY _) hv).1]) (h _ ?_ fun p hp k => ?_)
  · rintro ⟨e, he, k⟩
    have g : Generic Z (mid u) := fun e he =>
      ⟨fun k => gaps_mid hX hu ((mX _).2 (.inr ⟨e, he, .inl k⟩)), fun k => gaps_mid hX hu ((mX _).2 (.inr ⟨e, he, .inr k⟩))⟩
    obtain ⟨n1, n2⟩ := g.ends he
    exact gaps_mid (aY _) hv ((mY _ _).2 (.inr ⟨e, he, (mem_active n1 n2 k).2⟩))
  obtain ⟨e, he, k⟩ := k
  obtain ⟨n1, n2⟩ := (generic u hu p hp).ends he
  have w := (mem_active n1 n2 k).2
  exact gaps_mid (aY _) hv ((mY _ _).2 (.inl <| Set.mem_biUnion hp ⟨e, he, w⟩))

/-! ## Areas of contours and polygons -/

theorem trapezoids_append (A B : List Segment) : trapezoids (A ++ B) = trapezoids A + trapezoids B := by
  unfold trapezoids
  rw [List.map_append, List.sum_append]

theorem trapezoids_perm {A B : List Segment} (h : A.Perm B) : trapezoids A = trapezoids B := (h.map _).sum_eq

theorem trapezoids_swap (A : List Segment) : trapezoids (A.map Segment.swap) = - trapezoids A := by
  unfold trapezoids
  induction A with
  | nil => simp
  | cons e A ih =>
    simp only [List.map_cons, List.sum_cons, ih, Segment.swap]
    ring

theorem trapezoids_flatMap {ι : Type} (l : List ι) (f : ι → List Segment) :
    trapezoids (l.flatMap f) = (l.map fun i => trapezoids (f i)).sum := by
  induction l with
  | nil => rfl
  | cons i l ih => rw [List.flatMap_cons, trapezoids_append, ih, List.map_cons, List.sum_cons]

theorem shoelace_eq (E : List Segment) : shoelace E = 2 * trapezoids E +
    ((E.map fun e => e.stop.x * e.stop.y).sum - (E.map fun e => e.start.x * e.start.y).sum) := by
  unfold shoelace trapezoids
  induction E with
  | nil => simp
  | cons e E ih =>
    simp only [List.map_cons, List.sum_cons, ih]
    ring

theorem zipWith_ends (A B : List Point) (h : A.length = B.length) : ((List.zipWith Segment.mk A B).map fun e => e.stop) = B ∧
    ((List.zipWith Segment.mk A B).map fun e => e.start) = A := by
  induction A generalizing B with
  | nil => match B, h with | [], _ => exact ⟨rfl, rfl⟩
  | cons a A ih =>
    match B, h with
    | b :: B, h =>
      obtain ⟨k1, k2⟩ := ih B (Nat.succ_injective h)
      exact ⟨by simp only [List.zipWith_cons_cons, List.map_cons, k1], by simp only [List.zipWith_cons_cons, List.map_cons, k2]⟩

theorem contour_ends_perm (c : Contour) : (c.edges.map fun e => e.stop).Perm (c.edges.map fun e => e.start) := by
  unfold Contour.edges
  match c.vertices with
  | [] => exact .refl _
  | v :: vs =>
    dsimp only
    obtain ⟨k1, k2⟩ := zipWith_ends (v :: vs) (vs ++ [v]) (by simp)
    rw [k1, k2]
    exact List.perm_append_singleton v vs

theorem contour_shoelace (c : Contour) : shoelace c.edges = 2 * trapezoids c.edges := by
  rw [shoelace_eq]
  have k := ((contour_ends_perm c).map fun p : Point => p.x * p.y).sum_eq
  rw [List.map_map, List.map_map] at k
  have k' : (c.edges.map fun e => e.stop.x * e.stop.y).sum = (c.edges.map fun e => e.start.x * e.start.y).sum := k
  rw [k']
  ring

theorem IsBoundary.trapezoids_nonneg {E : List Segment} (h : IsBoundary E) : 0 ≤ trapezoids E := by
  have := trapezoids_valuation (F := [(1, E)]) (by simpa using h) [] fun q _ _ => by simp; split_ifs <;> norm_num
  simpa using this

theorem SimpleContour.area_eq {c : Contour} (h : SimpleContour c) : c.area = trapezoids (contourEdges c false) := by
  have n := h.isBoundary.trapezoids_nonneg
  unfold Contour.area
  rw [contour_shoelace]
  rcases contourEdges_swap c false with k | k
  · have e : trapezoids (contourEdges c false) = trapezoids c.edges := by rw [k, trapezoids_perm h.segments_perm]
    rw [e] at n ⊢
    rw [abs_of_nonneg (by linarith)]
    ring
  · have e : trapezoids (contourEdges c false) = - trapezoids c.edges := by
      rw [trapezoids_perm k, trapezoids_swap, trapezoids_perm h.segments_perm]
    rw [e] at n ⊢
    rw [abs_of_nonpos (by linarith)]
    ring

theorem SimpleContour.area_hole {c : Contour} (h : SimpleContour c) : trapezoids (contourEdges c true) = - c.area := by
  rw [h.area_eq, trapezoids_perm h.clockwise, trapezoids_swap]

theorem area_polygonEdges {p : Polygon} (hb : SimpleContour p.border) (hh : ∀ c ∈ p.holes, SimpleContour c) :
    trapezoids (polygonEdges p) = p.area := by
  unfold polygonEdges Polygon.area
  rw [trapezoids_append, trapezoids_flatMap, hb.area_eq, List.map_congr_left fun c hc => (hh c hc).area_hole]
  generalize p.holes = l
  induction l with
  | nil => simp
  | cons c l ih =>
    simp only [List.map_cons, List.sum_cons]
    linarith

theorem polysArea_eq {ps : List Polygon} (h : ∀ p ∈ ps, SimpleContour p.border ∧ ∀ c ∈ p.holes, SimpleContour c) :
    trapezoids (ps.flatMap polygonEdges) = polysArea ps := by
  rw [trapezoids_flatMap]
  unfold polysArea
  rw [List.map_congr_left fun p hp => area_polygonEdges (h p hp).1 (h p hp).2]

open Classical in
/-- **Areas of valid polygons add up as the polygons do**: if the weights of the polygons around a point never add up to something
negative, then the weighted areas do not. -/
theorem polysArea_valuation {F : List (ℚ × List Polygon)} (hF : ∀ p ∈ F, ValidPolygons p.2) (Z : List Segment)
    (h : ∀ q, q ∉ segsPts Z → (∀ p ∈ F, q ∉ segsPts (p.2.flatMap Polygon.edges)) → 0 ≤ (F.map fun p => p.1 * if q ∈ polysPts p.2 then 1 else 0).sum) :
    0 ≤ (F.map fun p => p.1 * polysArea p.2).sum := by
  have v := trapezoids_valuation (F := F.map fun p => (p.1, p.2.flatMap polygonEdges)) (fun p hp => by
    obtain ⟨p, hp', rfl⟩ := List.mem_map.1 hp
    exact (hF p hp').isBoundary) Z fun q hz hq => by
      have hq' : ∀ p ∈ F, q ∉ segsPts (p.2.flatMap polygonEdges) := fun p hp => hq _ (List.mem_map.2 ⟨p, hp, rfl⟩)
      have k := h q hz fun p hp => by
        rw [← (hF p hp |>.sameEdges).segsPts_eq]
        exact hq' p hp
      rw [List.map_map]
      convert k using 2
      refine List.map_congr_left fun p hp => ?_
      have e := Set.ext_iff.1 (hF p hp).pts_eq q
      have i : Inside (p.2.flatMap polygonEdges) q ↔ q ∈ polysPts p.2 :=
        ⟨fun k => e.1 (.inr k), fun k => (e.2 k).resolve_left (hq' p hp)⟩
      simp only [Function.comp, i]
  rw [List.map_map] at v
  convert v using 2
  refine List.map_congr_left fun p hp => ?_
  have w := hF p hp
  simp only [Function.comp]
  rw [polysArea_eq fun a ha => ⟨(w.valid a ha).border, (w.valid a ha).holes⟩]

end Clipping

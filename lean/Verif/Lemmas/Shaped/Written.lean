import Verif.Spec.Written
import Verif.Lemmas.Shaped.TwinResult
import Verif.Lemmas.Region.Direction

/-!
# The same polygons, written in another way: edges, validity and boxes
-/

namespace Clipping

/-! ## Lists with the same elements up to a relation and order -/

namespace Matched

variable {α β : Type} {R : α → α → Prop} {l l' : List α}

theorem left (h : Matched R l l') {x : α} (hx : x ∈ l) : ∃ y ∈ l', R x y := by
  obtain ⟨m, hm, p⟩ := h
  obtain ⟨i, hi, rfl⟩ := List.mem_iff_getElem.1 hx
  have hi' : i < m.length := hm.length_eq ▸ hi
  exact ⟨m[i], p.mem_iff.1 (List.getElem_mem _), hm.get hi hi'⟩

theorem right (h : Matched R l l') {y : α} (hy : y ∈ l') : ∃ x ∈ l, R x y := by
  obtain ⟨m, hm, p⟩ := h
  obtain ⟨i, hi, rfl⟩ := List.mem_iff_getElem.1 (p.mem_iff.2 hy)
  have hi' : i < l.length := hm.length_eq ▸ hi
  exact ⟨l[i], List.getElem_mem _, hm.get hi' hi⟩

theorem refl (hR : ∀ x ∈ l, R x x) : Matched R l l := ⟨l, List.forall₂_same.2 hR, .refl _⟩

theorem perm (h : Matched R l l') {k k' : List α} (hk : k.Perm l) (hk' : l'.Perm k') : Matched R k k' := by
  obtain ⟨m, hm, p⟩ := h
  obtain ⟨m', h1, h2⟩ := List.perm_comp_forall₂ hk hm
  exact ⟨m', h1, h2.trans (p.trans hk')⟩

theorem append (h : Matched R l l') {k k' : List α} (hk : Matched R k k') : Matched R (l ++ k) (l' ++ k') := by
  obtain ⟨m, hm, p⟩ := h
  obtain ⟨n, hn, q⟩ := hk
  exact ⟨m ++ n, List.rel_append hm hn, p.append q⟩

theorem filter (h : Matched R l l') {f : α → Bool} (hf : ∀ x ∈ l, ∀ y, R x y → f x = f y) :
    Matched R (l.filter f) (l'.filter f) := by
  obtain ⟨m, hm, p⟩ := h
  refine ⟨m.filter f, ?_, p.filter f⟩
  clear p
  induction hm with
  | nil => exact .nil
  | cons hxy _ ih =>
    rename_i x y l m _
    have ih := ih fun x hx => hf x (List.mem_cons_of_mem _ hx)
    have e := hf x (by simp) y hxy
    by_cases hx : f x = true
    · rw [List.filter_cons_of_pos hx, List.filter_cons_of_pos (e ▸ hx)]
      exact .cons hxy ih
    · rw [List.filter_cons_of_neg hx, List.filter_cons_of_neg (e ▸ hx)]
      exact ih

theorem isEmpty (h : Matched R l l') : l.isEmpty = l'.isEmpty := by
  obtain ⟨m, hm, p⟩ := h
  have := hm.length_eq.trans p.length_eq
  cases l <;> cases l' <;> simp_all

theorem ne (h : Matched R l l') (hl : l ≠ []) : l' ≠ [] := by
  rintro rfl
  cases l with
  | nil => exact hl rfl
  | cons x l => obtain ⟨y, hy, -⟩ := h.left (x := x) (by simp); cases hy

theorem flatMap (h : Matched R l l') {f : α → List Segment} (hf : ∀ x ∈ l, ∀ y, R x y → SameEdges (f x) (f y)) :
    SameEdges (l.flatMap f) (l'.flatMap f) := by
  obtain ⟨m, hm, p⟩ := h
  refine SameEdges.trans ?_ (SameEdges.of_perm (p.flatMap_right f))
  clear p
  induction hm with
  | nil => exact List.Perm.refl _
  | cons hxy _ ih =>
    rw [List.flatMap_cons, List.flatMap_cons]
    exact (hf _ (by simp) _ hxy).append (ih fun x hx => hf x (List.mem_cons_of_mem _ hx))

theorem pairwise (h : Matched R l l') {S : α → α → Prop} (sym : ∀ {x y}, S x y → S y x)
    (hS : ∀ x ∈ l, ∀ x' ∈ l, ∀ y y', R x y → R x' y' → S x x' → S y y') (hp : l.Pairwise S) : l'.Pairwise S := by
  obtain ⟨m, hm, p⟩ := h
  refine List.Pairwise.perm ?_ p sym
  clear p
  induction hm with
  | nil => exact .nil
  | cons hxy hr ih =>
    rename_i x y l m
    rw [List.pairwise_cons] at hp ⊢
    refine ⟨?_, ih (fun x hx x' hx' => hS x (by simp [hx]) x' (by simp [hx'])) hp.2⟩
    intro y' hy'
    obtain ⟨x', hx', r⟩ := Matched.right ⟨m, hr, .refl _⟩ hy'
    exact hS x (by simp) x' (by simp [hx']) y y' hxy r (hp.1 x' hx')

theorem map (h : Matched R l l') {S : β → β → Prop} {f : α → β} (hf : ∀ x y, R x y → S (f x) (f y)) :
    Matched S (l.map f) (l'.map f) := by
  obtain ⟨m, hm, p⟩ := h
  exact ⟨m.map f, List.forall₂_map_left_iff.2 (List.forall₂_map_right_iff.2 (hm.imp fun x y r => hf x y r)), p.map f⟩

end Matched

/-! ## Contours -/

theorem reverseVertices_rotated (vs : List Point) : vs.reverse ~r reverseVertices vs := by
  cases vs with
  | nil => exact .refl _
  | cons v vs =>
    rw [List.reverse_cons]
    exact List.isRotated_append

theorem SameContour.perm {c c' : Contour} (h : SameContour c c') : c.vertices.Perm c'.vertices := by
  rcases h with h | h
  · exact h.perm
  · exact (List.reverse_perm _).symm.trans h.perm

theorem SameContour.sameEdges {c c' : Contour} (h : SameContour c c') : SameEdges c.edges c'.edges := by
  rcases h with h | h
  · exact SameEdges.of_perm (edges_rotated h)
  · have h1 := edges_rotated ((reverseVertices_rotated c.vertices).symm.trans h)
    exact (SameEdges.of_swap c.edges).symm.trans
      ((SameEdges.of_perm (edges_reverse_perm c.vertices).symm).trans (SameEdges.of_perm h1))

theorem SameContour.simple {c c' : Contour} (h : SameContour c c') (hc : SimpleContour c) : SimpleContour c' := by
  rcases h with h | h
  · exact SimpleContour.rotated h hc
  · exact SimpleContour.rotated ((reverseVertices_rotated c.vertices).symm.trans h) hc.reversed

theorem SameContour.refl (c : Contour) : SameContour c c := .inl (.refl _)

theorem SamePolygon.refl (p : Polygon) : SamePolygon p p := ⟨.refl _, .refl fun c _ => .refl c⟩

theorem SamePolygon.sameEdges {p p' : Polygon} (h : SamePolygon p p') : SameEdges p.edges p'.edges :=
  h.border.sameEdges.append (h.holes.flatMap fun _ _ _ r => r.sameEdges)

theorem SamePolygons.sameEdges {ps ps' : List Polygon} (h : SamePolygons ps ps') :
    SameEdges (ps.flatMap Polygon.edges) (ps'.flatMap Polygon.edges) :=
  Matched.flatMap h fun _ _ _ r => r.sameEdges

theorem SamePolygon.valid {p p' : Polygon} (h : SamePolygon p p') (hp : ValidPolygon p) : ValidPolygon p' where
  border := h.border.simple hp.border
  holes c hc := by
    obtain ⟨d, hd, r⟩ := h.holes.right hc
    exact r.simple (hp.holes d hd)
  noOverlap := h.sameEdges.noOverlap hp.noOverlap
  inside c hc := by
    obtain ⟨d, hd, r⟩ := h.holes.right hc
    rw [← r.sameEdges.regionPts_eq, ← h.border.sameEdges.regionPts_eq]
    exact hp.inside d hd
  outside c hc m hm hn := by
    obtain ⟨d, hd, r⟩ := h.holes.right hc
    rw [← h.border.sameEdges.segsPts_eq] at hm
    rw [← r.sameEdges.segsPts_eq] at hn
    rw [← r.sameEdges.inside_iff]
    exact hp.outside d hd m hm hn
  apart := h.holes.pairwise (fun ⟨a, b⟩ => ⟨b, a⟩)
    (fun _ _ _ _ _ _ r r' ⟨a, b⟩ => ⟨r.sameEdges.apart r'.sameEdges a, r'.sameEdges.apart r.sameEdges b⟩) hp.apart

theorem SamePolygons.valid {ps ps' : List Polygon} (h : SamePolygons ps ps') (hp : ValidPolygons ps) : ValidPolygons ps' where
  valid p hp' := by
    obtain ⟨q, hq, r⟩ := Matched.right h hp'
    exact r.valid (hp.valid q hq)
  noOverlap := h.sameEdges.noOverlap hp.noOverlap
  apart := Matched.pairwise h (fun ⟨a, b⟩ => ⟨b, a⟩)
    (fun _ _ _ _ _ _ r r' ⟨a, b⟩ => ⟨r.sameEdges.apart r'.sameEdges a, r'.sameEdges.apart r.sameEdges b⟩) hp.apart

theorem SamePolygons.polysPts_eq {ps ps' : List Polygon} (h : SamePolygons ps ps') : polysPts ps = polysPts ps' := by
  ext m
  constructor
  · rintro ⟨p, hp, hm⟩
    obtain ⟨q, hq, r⟩ := Matched.left h hp
    refine ⟨q, hq, ?_⟩
    rw [polygon_pts_eq] at hm ⊢
    rwa [← r.sameEdges.regionPts_eq]
  · rintro ⟨p, hp, hm⟩
    obtain ⟨q, hq, r⟩ := Matched.right h hp
    refine ⟨q, hq, ?_⟩
    rw [polygon_pts_eq] at hm ⊢
    rwa [r.sameEdges.regionPts_eq]

/-! ## Boxes -/

/-- All bounds of a box are within the other one. -/
def Box.Bounded (a b : Box) : Prop := b.minX ≤ a.minX ∧ a.maxX ≤ b.maxX ∧ b.minY ≤ a.minY ∧ a.maxY ≤ b.maxY

theorem Box.Bounded.antisymm {a b : Box} (h : a.Bounded b) (h' : b.Bounded a) : a = b := by
  obtain ⟨h1, h2, h3, h4⟩ := h
  obtain ⟨g1, g2, g3, g4⟩ := h'
  cases a; cases b
  dsimp only at *
  rw [le_antisymm h1 g1, le_antisymm h2 g2, le_antisymm h3 g3, le_antisymm h4 g4]

theorem Box.Bounded.refl (a : Box) : a.Bounded a := ⟨le_rfl, le_rfl, le_rfl, le_rfl⟩

theorem Box.join_bounded {a b d : Box} : (a.join b).Bounded d ↔ a.Bounded d ∧ b.Bounded d := by
  simp only [Box.Bounded, Box.join, le_min_iff, max_le_iff]
  tauto

theorem foldJoin_bounded {α : Type} (f : α → Box) (l : List α) (b d : Box) :
    (l.foldl (fun b q => b.join (f q)) b).Bounded d ↔ b.Bounded d ∧ ∀ x ∈ l, (f x).Bounded d := by
  induction l generalizing b with
  | nil => simp
  | cons x l ih =>
    rw [List.foldl_cons, ih, Box.join_bounded, List.forall_mem_cons]
    tauto

theorem contourBox_bounded {c : Contour} (h : c.vertices ≠ []) (d : Box) :
    (contourBox c).Bounded d ↔ ∀ v ∈ c.vertices, (pointBox v).Bounded d := by
  unfold contourBox
  cases hv : c.vertices with
  | nil => exact absurd hv h
  | cons v vs =>
    dsimp only
    rw [foldJoin_bounded, List.forall_mem_cons]

theorem SameContour.box {c c' : Contour} (h : SameContour c c') (hc : SimpleContour c) : contourBox c = contourBox c' := by
  have hc' := h.simple hc
  have hm := fun v => h.perm.mem_iff (a := v)
  refine Box.Bounded.antisymm ?_ ?_
  · exact (contourBox_bounded hc.ne_nil _).2 fun v hv => (contourBox_bounded hc'.ne_nil _).1 (.refl _) v ((hm v).1 hv)
  · exact (contourBox_bounded hc'.ne_nil _).2 fun v hv => (contourBox_bounded hc.ne_nil _).1 (.refl _) v ((hm v).2 hv)

theorem polygonsBox_bounded {ps : List Polygon} {b : Box} (h : polygonsBox ps = .ok b) (d : Box) :
    b.Bounded d ↔ ∀ p ∈ ps, (contourBox p.border).Bounded d := by
  cases ps with
  | nil => cases h
  | cons p l =>
    cases h
    rw [foldJoin_bounded, List.forall_mem_cons]

theorem SamePolygons.box {ps ps' : List Polygon} (h : SamePolygons ps ps') (hv : ∀ p ∈ ps, ValidPolygon p) :
    polygonsBox ps = polygonsBox ps' := by
  rcases ps with - | ⟨p, l⟩
  · have := Matched.isEmpty h
    cases ps' with
    | nil => rfl
    | cons => cases this
  obtain ⟨b, e⟩ := polygonsBox_ok (ps := p :: l) (by simp)
  obtain ⟨b', e'⟩ := polygonsBox_ok (Matched.ne h (by simp))
  rw [e, e']
  congr 1
  refine Box.Bounded.antisymm ?_ ?_
  · refine (polygonsBox_bounded e _).2 fun p hp => ?_
    obtain ⟨q, hq, r⟩ := Matched.left h hp
    rw [r.border.box (hv p hp).border]
    exact (polygonsBox_bounded e' _).1 (.refl _) q hq
  · refine (polygonsBox_bounded e' _).2 fun p hp => ?_
    obtain ⟨q, hq, r⟩ := Matched.right h hp
    rw [← r.border.box (hv q hq).border]
    exact (polygonsBox_bounded e _).1 (.refl _) q hq

/-- The box of a simple contour has an interior. -/
theorem SimpleContour.box_solid {c : Contour} (h : SimpleContour c) : (contourBox c).Solid := by
  have ho := h.orientation_spec.1
  have n := h.three
  have mem : ∀ i < c.vertices.length, vertexAt c.vertices i ∈ (contourBox c).pts := fun i hi => by
    refine contourBox_mem ?_
    unfold vertexAt
    rw [List.getD_eq_getElem _ _ hi]
    exact List.getElem_mem _
  unfold contourOrientation at ho
  dsimp only at ho
  obtain ⟨hi, -⟩ := minIndex_spec h.ne_nil
  have m1 := mem _ hi
  have m2 : vertexBefore c.vertices (minIndex c.vertices) ∈ (contourBox c).pts := by
    unfold vertexBefore
    apply mem
    split_ifs <;> omega
  have m3 := mem ((minIndex c.vertices + 1) % c.vertices.length) (Nat.mod_lt _ (by omega))
  generalize vertexAt c.vertices (minIndex c.vertices) = u at ho m1
  generalize vertexBefore c.vertices (minIndex c.vertices) = v at ho m2
  generalize vertexAt c.vertices ((minIndex c.vertices + 1) % c.vertices.length) = w at ho m3
  obtain ⟨a1, a2, a3, a4⟩ := m1
  obtain ⟨b1, b2, b3, b4⟩ := m2
  obtain ⟨c1, c2, c3, c4⟩ := m3
  have hx : cross v u w ≠ 0 := fun hz => ho (by unfold orientation; simp [hz])
  constructor
  · refine lt_of_le_of_ne (a1.trans a2) fun e => hx ?_
    have : u.x = v.x := by linarith
    have : w.x = v.x := by linarith
    unfold cross
    simp_all
  · refine lt_of_le_of_ne (a3.trans a4) fun e => hx ?_
    have : u.y = v.y := by linarith
    have : w.y = v.y := by linarith
    unfold cross
    simp_all

theorem polygonsBox_solid {ps : List Polygon} (hv : ∀ p ∈ ps, ValidPolygon p) {b : Box} (h : polygonsBox ps = .ok b) :
    b.Solid := by
  cases ps with
  | nil => cases h
  | cons p l =>
    obtain ⟨g1, g2, g3, g4⟩ := (polygonsBox_bounded h b).1 (.refl _) p (by simp)
    obtain ⟨h1, h2⟩ := (hv p (by simp)).border.box_solid
    exact ⟨by linarith, by linarith⟩

theorem Box.Solid.edges {b : Box} (h : b.Solid) : ∀ e ∈ toEdges b, e.Proper := by
  intro e he
  simp only [toEdges, List.mem_cons, List.not_mem_nil, or_false] at he
  rcases he with rfl | rfl | rfl | rfl <;> intro h'
  · exact h.1.ne (congrArg Point.x h')
  · exact h.2.ne (congrArg Point.y h')
  · exact h.1.ne (congrArg Point.x h')
  · exact h.2.ne (congrArg Point.y h')

end Clipping

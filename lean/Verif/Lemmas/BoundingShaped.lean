import Verif.Lemmas.Region.Polygon
import Verif.Properties.Bounding
import Verif.Spec.Orient

/-!
# Boxes, contours and polygons
-/

namespace Clipping

open Sweep

/-! ## Boxes of contours -/

theorem box_convex {b : Box} {p q r : Point} (hp : p ∈ b.pts) (hq : q ∈ b.pts) (hr : r ∈ (Segment.mk p q).pts) :
    r ∈ b.pts := by
  obtain ⟨t, t0, t1, tx, ty⟩ := hr
  obtain ⟨h1, h2, h3, h4⟩ := hp
  obtain ⟨g1, g2, g3, g4⟩ := hq
  simp only at tx ty
  refine ⟨?_, ?_, ?_, ?_⟩
  · rw [tx]; nlinarith
  · rw [tx]; nlinarith
  · rw [ty]; nlinarith
  · rw [ty]; nlinarith

theorem foldBox_spec : ∀ (l : List Point) (b : Box),
    (b.pts ⊆ (l.foldl (fun b q => b.join (pointBox q)) b).pts ∧
      ∀ q ∈ l, q ∈ (l.foldl (fun b q => b.join (pointBox q)) b).pts) ∧
    ((l.foldl (fun b q => b.join (pointBox q)) b).minX = b.minX ∨
      ∃ q ∈ l, q.x = (l.foldl (fun b q => b.join (pointBox q)) b).minX) := by
  intro l
  induction l with
  | nil => intro b; simp
  | cons u l ih =>
    intro b
    rw [List.foldl_cons]
    obtain ⟨⟨h1, h2⟩, h3⟩ := ih (b.join (pointBox u))
    refine ⟨⟨(join_left _ _).trans h1, ?_⟩, ?_⟩
    · intro q hq
      rcases List.mem_cons.1 hq with rfl | hq
      · exact h1 (join_right _ _ ⟨le_rfl, le_rfl, le_rfl, le_rfl⟩)
      · exact h2 q hq
    · rcases h3 with h3 | ⟨q, hq, h3⟩
      · rw [h3]
        rcases min_choice b.minX u.x with h | h
        · left; exact h
        · right; exact ⟨u, by simp, h.symm⟩
      · right; exact ⟨q, by simp [hq], h3⟩

theorem contourBox_mem {c : Contour} {v : Point} (hv : v ∈ c.vertices) : v ∈ (contourBox c).pts := by
  obtain ⟨V⟩ := c
  cases V with
  | nil => cases hv
  | cons p l =>
    obtain ⟨⟨h1, h2⟩, -⟩ := foldBox_spec l (pointBox p)
    rcases List.mem_cons.1 hv with rfl | hv
    · exact h1 ⟨le_rfl, le_rfl, le_rfl, le_rfl⟩
    · exact h2 v hv

/-- the box is tight on the left -/
theorem contourBox_tight {c : Contour} (hc : c.vertices ≠ []) : ∃ v ∈ c.vertices, v.x = (contourBox c).minX := by
  obtain ⟨V⟩ := c
  cases V with
  | nil => exact absurd rfl hc
  | cons p l =>
    obtain ⟨-, h⟩ := foldBox_spec l (pointBox p)
    rcases h with h | ⟨q, hq, h⟩
    · exact ⟨p, by simp, h.symm⟩
    · exact ⟨q, by simp [hq], h⟩

theorem join_sub {a b d : Box} (ha : isSubsetOf a d = true) (hb : isSubsetOf b d = true) :
    isSubsetOf (a.join b) d = true := by
  unfold isSubsetOf at ha hb ⊢
  simp only [Bool.and_eq_true, decide_eq_true_eq] at ha hb ⊢
  exact ⟨⟨⟨le_min ha.1.1.1 hb.1.1.1, max_le ha.1.1.2 hb.1.1.2⟩, le_min ha.1.2 hb.1.2⟩, max_le ha.2 hb.2⟩

theorem pointBox_sub {q : Point} {d : Box} (h : q ∈ d.pts) : isSubsetOf (pointBox q) d = true := by
  obtain ⟨h1, h2, h3, h4⟩ := h
  unfold isSubsetOf pointBox
  simp [h1, h2, h3, h4]

/-- The box of a contour is the least one. -/
theorem contourBox_sub {c : Contour} (hc : c.vertices ≠ []) {d : Box} (h : ∀ v ∈ c.vertices, v ∈ d.pts) :
    isSubsetOf (contourBox c) d = true := by
  obtain ⟨V⟩ := c
  cases V with
  | nil => exact absurd rfl hc
  | cons p l =>
    have : ∀ (l : List Point) (b : Box), isSubsetOf b d = true → (∀ q ∈ l, q ∈ d.pts) →
        isSubsetOf (l.foldl (fun b q => b.join (pointBox q)) b) d = true := by
      intro l
      induction l with
      | nil => intro b hb _; exact hb
      | cons u l ih =>
        intro b hb hl
        exact ih _ (join_sub hb (pointBox_sub (hl u (by simp)))) fun q hq => hl q (by simp [hq])
    exact this l _ (pointBox_sub (h p (by simp))) fun q hq => h q (by simp [hq])

theorem SimpleContour.ne_nil {c : Contour} (h : SimpleContour c) : c.vertices ≠ [] := by
  intro e; have := h.three; rw [e] at this; simp at this

theorem vtx_mem {c : Contour} (h : c.vertices ≠ []) (i : ℕ) : vtx c i ∈ c.vertices := by
  rw [← vtx_mod, vtx_of_lt (Nat.mod_lt _ (List.length_pos_iff.2 h))]
  exact List.getElem_mem _

theorem SimpleContour.vertex {c : Contour} {v : Point} (hv : v ∈ c.vertices) : ∃ i, v = vtx c i := by
  obtain ⟨i, hi, rfl⟩ := List.getElem_of_mem hv
  exact ⟨i, (vtx_of_lt hi).symm⟩

theorem SimpleContour.mem_segs {c : Contour} {q : Point} (hq : q ∈ segsPts c.edges) :
    ∃ i, q ∈ (Segment.mk (vtx c i) (vtx c (i + 1))).pts := by
  rw [contour_edges_eq] at hq
  obtain ⟨e, he, hq⟩ := hq
  obtain ⟨i, -, rfl⟩ := mem_cycEdges.1 he
  exact ⟨0 + i, hq⟩

theorem SimpleContour.vertex_segs {c : Contour} (_ : SimpleContour c) {v : Point} (hv : v ∈ c.vertices) :
    v ∈ segsPts c.edges := by
  obtain ⟨i, hi, rfl⟩ := List.getElem_of_mem hv
  rw [contour_edges_eq]
  refine ⟨⟨vtx c (0 + i), vtx c (0 + i + 1)⟩, mem_cycEdges.2 ⟨i, hi, rfl⟩, ?_⟩
  have : c.vertices[i] = vtx c (0 + i) := by rw [Nat.zero_add, vtx_of_lt hi]
  rw [this]
  exact Segment.start_mem _

theorem SimpleContour.segs_sub_box {c : Contour} (h : SimpleContour c) : segsPts c.edges ⊆ (contourBox c).pts := by
  intro q hq
  obtain ⟨i, hi⟩ := SimpleContour.mem_segs hq
  exact box_convex (contourBox_mem (vtx_mem h.ne_nil _)) (contourBox_mem (vtx_mem h.ne_nil _)) hi

theorem SimpleContour.box_nonempty {c : Contour} (h : SimpleContour c) : (contourBox c).Nonempty := by
  obtain ⟨h1, h2, h3, h4⟩ := contourBox_mem (vtx_mem h.ne_nil 0)
  exact ⟨h1.trans h2, h3.trans h4⟩

theorem SimpleContour.even {c : Contour} (h : SimpleContour c) (q : Point) : Even (degree c.edges q) := by
  rw [contour_edges_eq]; exact h.cyc.even 0 q

theorem SimpleContour.proper {c : Contour} (h : SimpleContour c) : ∀ e ∈ c.edges, e.Proper := h.noOverlap.1

/-- The parity does not change along a segment without common points with the edges. -/
theorem SimpleContour.const {c : Contour} (h : SimpleContour c) {p q : Point}
    (hs : ∀ r ∈ (Segment.mk p q).pts, r ∉ segsPts c.edges) : Inside c.edges p ↔ Inside c.edges q :=
  inside_const (s := ⟨p, q⟩) h.proper h.even hs

/-- Left of the box and right of it nothing is below. -/
theorem SimpleContour.not_inside_x {c : Contour} (h : SimpleContour c) {q : Point}
    (hq : q.x < (contourBox c).minX ∨ (contourBox c).maxX ≤ q.x) : ¬ Inside c.edges q := by
  intro hi
  have : ind (Inside c.edges q) = 0 := by
    rw [inside_sum]
    apply List.sum_eq_zero
    intro z hz
    obtain ⟨e, he, rfl⟩ := List.mem_map.1 hz
    apply ind_neg
    rintro ⟨g1, g2, -⟩
    have l := h.segs_sub_box ⟨e, he, e.lo_mem⟩
    have l' := h.segs_sub_box ⟨e, he, e.hi_mem⟩
    rcases hq with hq | hq
    · linarith [l.1]
    · linarith [l'.2.1]
  rw [ind_pos hi] at this
  exact absurd this (by decide)

/-- Interior points are strictly within the box. -/
theorem SimpleContour.inside_box {c : Contour} (h : SimpleContour c) {q : Point} (hq : q ∉ segsPts c.edges)
    (hi : Inside c.edges q) : (contourBox c).minX < q.x ∧ q.x < (contourBox c).maxX ∧
      (contourBox c).minY < q.y ∧ q.y < (contourBox c).maxY := by
  have hx1 : (contourBox c).minX ≤ q.x := by
    by_contra hn; push Not at hn; exact h.not_inside_x (Or.inl hn) hi
  have hx2 : q.x < (contourBox c).maxX := by
    by_contra hn; push Not at hn; exact h.not_inside_x (Or.inr hn) hi
  -- leave to the left
  have left : (∀ r : Point, r.y = q.y → r.x ≤ q.x → r ∉ segsPts c.edges) → False := by
    intro hr
    set q' : Point := ⟨(contourBox c).minX - 1, q.y⟩ with hq'
    refine h.not_inside_x (q := q') (Or.inl (by rw [hq']; simp)) ((h.const (p := q) (q := q') ?_).1 hi)
    rintro r ⟨t, t0, t1, tx, ty⟩
    simp only [hq'] at tx ty
    refine hr r (by rw [ty]; ring) ?_
    rw [tx]
    nlinarith
  refine ⟨?_, hx2, ?_, ?_⟩
  · rcases hx1.eq_or_lt with e | lt
    · exfalso
      apply left
      intro r hry hrx hs
      have := (h.segs_sub_box hs).1
      have : r = q := Point.ext' (by linarith) hry
      rw [this] at hs
      exact hq hs
    · exact lt
  · by_contra hn
    push Not at hn
    -- the path is below the box, or in its lower edge
    have down : Inside c.edges ⟨q.x, q.y - 1⟩ := by
      refine (h.const (p := q) (q := ⟨q.x, q.y - 1⟩) ?_).1 hi
      rintro r ⟨t, t0, t1, tx, ty⟩ hs
      simp only at tx ty
      have := (h.segs_sub_box hs).2.2.1
      rcases t0.eq_or_lt with e | lt
      · have : r = q := Point.ext' (by rw [tx]; ring) (by rw [ty, ← e]; ring)
        rw [this] at hs
        exact hq hs
      · nlinarith
    set q' : Point := ⟨(contourBox c).minX - 1, q.y - 1⟩ with hq'
    refine h.not_inside_x (q := q') (Or.inl (by rw [hq']; simp))
      ((h.const (p := ⟨q.x, q.y - 1⟩) (q := q') ?_).1 down)
    rintro r ⟨t, t0, t1, tx, ty⟩ hs
    simp only [hq'] at tx ty
    have := (h.segs_sub_box hs).2.2.1
    rw [ty] at this
    nlinarith
  · by_contra hn
    push Not at hn
    have up : Inside c.edges ⟨q.x, q.y + 1⟩ := by
      refine (h.const (p := q) (q := ⟨q.x, q.y + 1⟩) ?_).1 hi
      rintro r ⟨t, t0, t1, tx, ty⟩ hs
      simp only at tx ty
      have := (h.segs_sub_box hs).2.2.2
      rcases t0.eq_or_lt with e | lt
      · have : r = q := Point.ext' (by rw [tx]; ring) (by rw [ty, ← e]; ring)
        rw [this] at hs
        exact hq hs
      · nlinarith
    set q' : Point := ⟨(contourBox c).minX - 1, q.y + 1⟩ with hq'
    refine h.not_inside_x (q := q') (Or.inl (by rw [hq']; simp))
      ((h.const (p := ⟨q.x, q.y + 1⟩) (q := q') ?_).1 up)
    rintro r ⟨t, t0, t1, tx, ty⟩ hs
    simp only [hq'] at tx ty
    have := (h.segs_sub_box hs).2.2.2
    rw [ty] at this
    nlinarith

theorem SimpleContour.region_sub_box {c : Contour} (h : SimpleContour c) : regionPts c.edges ⊆ (contourBox c).pts := by
  intro q hq
  by_cases hs : q ∈ segsPts c.edges
  · exact h.segs_sub_box hs
  · have hi : Inside c.edges q := hq.resolve_left hs
    obtain ⟨h1, h2, h3, h4⟩ := h.inside_box hs hi
    exact ⟨h1.le, h2.le, h3.le, h4.le⟩

/-! ## Contours and boxes -/

theorem vertices_sub {b : Box} (hb : b.Nonempty) {v : Point} (hv : v ∈ toVertices b) : v ∈ b.pts := by
  obtain ⟨hx, hy⟩ := hb
  simp only [toVertices, List.mem_cons, List.not_mem_nil, or_false] at hv
  rcases hv with rfl | rfl | rfl | rfl <;> exact ⟨by simp [hx], by simp [hx], by simp [hy], by simp [hy]⟩

/-- If no edge meets the box, all points of the box are on the same side. -/
theorem SimpleContour.box_const {c : Contour} (h : SimpleContour c) {b : Box}
    (hn : ∀ q ∈ b.pts, q ∉ segsPts c.edges) {p q : Point} (hp : p ∈ b.pts) (hq : q ∈ b.pts) :
    Inside c.edges p ↔ Inside c.edges q :=
  h.const fun r hr => hn r (box_convex hp hq hr)

/-- A segment from a point of the box to a point which is not in the box meets an edge of the box. -/
theorem leaves_box {b : Box} {p q : Point} (hp : p ∈ b.pts) (hq : q ∉ b.pts) :
    ∃ w ∈ (Segment.mk p q).pts, ∃ e ∈ toEdges b, w ∈ e.pts := by
  obtain ⟨r, r0, r1, hw, he, -⟩ := exit_point hp hq
  exact ⟨_, ⟨r, r0, r1.le, rfl, rfl⟩, mem_edge hw he⟩

/-- A contour which meets the box but not its edges is in the box. -/
theorem SimpleContour.in_box {c : Contour} {b : Box}
    (hd : ∀ e ∈ toEdges b, ∀ q ∈ e.pts, q ∉ segsPts c.edges) {q : Point} (hq : q ∈ b.pts)
    (hqs : q ∈ segsPts c.edges) : ∀ i, vtx c i ∈ b.pts := by
  have edge : ∀ i, (Segment.mk (vtx c i) (vtx c (i + 1))).pts ⊆ segsPts c.edges := by
    intro i r hr
    by_cases hc : c.vertices = []
    · obtain ⟨V⟩ := c
      simp only at hc
      subst hc
      obtain ⟨e, he, -⟩ := hqs
      cases he
    rw [contour_edges_eq]
    refine ⟨_, mem_cycEdges.2 ⟨i % c.vertices.length, Nat.mod_lt _ (List.length_pos_iff.2 hc), rfl⟩, ?_⟩
    rw [Nat.zero_add, vtx_mod, vtx_mod_succ]
    exact hr
  have next : ∀ i r, r ∈ (Segment.mk (vtx c i) (vtx c (i + 1))).pts → r ∈ b.pts →
      vtx c i ∈ b.pts ∧ vtx c (i + 1) ∈ b.pts := by
    intro i r hr hrb
    constructor
    · by_contra hn
      obtain ⟨w, hw, e, he, hwe⟩ := leaves_box hrb hn
      exact hd e he w hwe (edge i (mk_sub hr (Segment.start_mem _) hw))
    · by_contra hn
      obtain ⟨w, hw, e, he, hwe⟩ := leaves_box hrb hn
      exact hd e he w hwe (edge i (mk_sub hr (Segment.stop_mem _) hw))
  obtain ⟨i, hi⟩ := SimpleContour.mem_segs hqs
  have hi0 := (next i q hi hq).1
  have up : ∀ k, vtx c (i + k) ∈ b.pts := by
    intro k
    induction k with
    | zero => exact hi0
    | succ k ih => exact (next (i + k) _ (Segment.start_mem _) ih).2
  intro j
  -- go around
  have : vtx c j = vtx c (i + (j + i * c.vertices.length - i)) := by
    by_cases hz : c.vertices.length = 0
    · have : c.vertices = [] := List.length_eq_zero_iff.1 hz
      unfold vtx vertexAt
      rw [this]
      simp
    · have le : i ≤ j + i * c.vertices.length := by
        have : i * 1 ≤ i * c.vertices.length := Nat.mul_le_mul_left _ (by omega)
        omega
      rw [Nat.add_sub_cancel' le]
      unfold vtx
      rw [Nat.add_mul_mod_self_right]
  rw [this]
  exact up _

/-- no common points of the edges of the box and of the contour, as computed -/
theorem SimpleContour.disjoint_iff {c : Contour} (h : SimpleContour c) {b : Box} :
    ((toEdges b).all fun edge => (contourSegments c).all fun borderEdge =>
      decide (segmentsRelation edge borderEdge = .disjoint)) = true ↔
    ∀ e ∈ toEdges b, ∀ q ∈ e.pts, q ∉ segsPts c.edges := by
  rw [← segsPts_perm h.segments_perm]
  simp only [List.all_eq_true, decide_eq_true_eq]
  have hp : ∀ s ∈ contourSegments c, s.Proper := fun s hs => h.proper s (h.segments_perm.mem_iff.1 hs)
  constructor
  · rintro g e he q hq ⟨s, hs, hqs⟩
    exact (relation_meets e s (hp s hs)).2 ⟨q, hq, hqs⟩ (g e he s hs)
  · intro g e he s hs
    by_contra hn
    obtain ⟨q, h1, h2⟩ := (relation_meets e s (hp s hs)).1 hn
    exact g e he q h1 ⟨s, hs, h2⟩

theorem SimpleContour.meets_iff {c : Contour} (h : SimpleContour c) {b : Box} (hb : b.Nonempty) :
    ((contourSegments c).any fun edge => intersectsWithSegment b edge) = true ↔
    ∃ q ∈ b.pts, q ∈ segsPts c.edges := by
  rw [← segsPts_perm h.segments_perm]
  simp only [List.any_eq_true]
  have hp : ∀ s ∈ contourSegments c, s.Proper := fun s hs => h.proper s (h.segments_perm.mem_iff.1 hs)
  constructor
  · rintro ⟨s, hs, g⟩
    obtain ⟨q, h1, h2⟩ := (intersectsWithSegment_iff b s hb (hp s hs)).1 g
    exact ⟨q, h1, s, hs, h2⟩
  · rintro ⟨q, h1, s, hs, h2⟩
    exact ⟨s, hs, (intersectsWithSegment_iff b s hb (hp s hs)).2 ⟨q, h1, h2⟩⟩

variable {o : Orient}

theorem OrientOk.exterior (ok : OrientOk o) {c : Contour} (h : SimpleContour c) (p : Point) :
    o.pointInRegion p c ≠ .exterior ↔ p ∈ regionPts c.edges := by
  have h1 := ok.boundary c p h
  have h2 := ok.interior c p h
  unfold regionPts
  rw [Set.mem_ofPred_eq]
  cases hl : o.pointInRegion p c with
  | exterior =>
    rw [hl] at h1 h2
    simp only [reduceCtorEq, false_iff] at h1 h2
    simp only [ne_eq, not_true_eq_false, false_iff]
    tauto
  | boundary =>
    simp only [ne_eq, reduceCtorEq, not_false_eq_true, true_iff]
    exact Or.inl (h1.1 hl)
  | interior =>
    simp only [ne_eq, reduceCtorEq, not_false_eq_true, true_iff]
    exact Or.inr (h2.1 hl).2

/-- `within_of_region` together with the preceding test of boxes: the box is in the interior of the region. -/
theorem withinOfRegion_iff (ok : OrientOk o) {c : Contour} (h : SimpleContour c) {b : Box} (hb : b.Nonempty) :
    (withinOf b (contourBox c) && withinOfRegion o b c) = true ↔
    ∀ q ∈ b.pts, q ∉ segsPts c.edges ∧ Inside c.edges q := by
  unfold withinOfRegion
  simp only [Bool.and_eq_true]
  rw [h.disjoint_iff, (isSubsetOf_withinOf_iff b _ hb).2]
  simp only [List.all_eq_true, decide_eq_true_eq]
  constructor
  · rintro ⟨h1, h2, h3⟩
    have hn : ∀ q ∈ b.pts, q ∉ segsPts c.edges := by
      intro q hq hqs
      have hall := SimpleContour.in_box h3 hq hqs
      obtain ⟨v, hv, hvx⟩ := contourBox_tight h.ne_nil
      obtain ⟨i, rfl⟩ := SimpleContour.vertex hv
      linarith [(h1 _ (hall i)).1]
    have hv : (⟨b.minX, b.minY⟩ : Point) ∈ toVertices b := by simp [toVertices]
    intro q hq
    refine ⟨hn q hq, ?_⟩
    rw [h.box_const hn hq (vertices_sub hb hv)]
    exact ((ok.interior c _ h).1 (h2 _ hv)).2
  · intro g
    refine ⟨fun q hq => h.inside_box (g q hq).1 (g q hq).2, ?_, ?_⟩
    · intro v hv
      exact (ok.interior c v h).2 (g v (vertices_sub hb hv))
    · intro e he q hq
      exact (g q (edges_sub hb he hq)).1

/-- `intersects_with_region` -/
theorem intersectsWithRegion_spec (ok : OrientOk o) {c : Contour} (h : SimpleContour c) {b : Box} (hb : b.Nonempty) :
    intersectsWithRegion o b c = true ↔ ∃ q ∈ b.pts, q ∈ regionPts c.edges := by
  unfold intersectsWithRegion
  simp only [Bool.and_eq_true, Bool.or_eq_true]
  rw [h.meets_iff hb]
  simp only [List.any_eq_true, decide_eq_true_eq]
  constructor
  · rintro ⟨-, ((g | ⟨v, hv, g⟩) | ⟨v, hv, g⟩) | ⟨q, hq, g⟩⟩
    · rw [isSubsetOf_iff _ _ h.box_nonempty] at g
      exact ⟨vtx c 0, g (contourBox_mem (vtx_mem h.ne_nil 0)), Or.inl (h.vertex_segs (vtx_mem h.ne_nil 0))⟩
    · exact ⟨v, (containsPoint_coversPoint_iff b v).1.1 g, Or.inl (h.vertex_segs hv)⟩
    · exact ⟨v, vertices_sub hb hv, (ok.exterior h v).1 g⟩
    · exact ⟨q, hq, Or.inl g⟩
  · rintro ⟨q, hq, hr⟩
    refine ⟨(intersectsWith_iff _ _ h.box_nonempty hb).2 ⟨q, h.region_sub_box hr, hq⟩, ?_⟩
    by_cases hm : ∃ q ∈ b.pts, q ∈ segsPts c.edges
    · exact Or.inr hm
    · left; right
      push Not at hm
      have hv : (⟨b.minX, b.minY⟩ : Point) ∈ toVertices b := by simp [toVertices]
      refine ⟨_, hv, (ok.exterior h _).2 (Or.inr ?_)⟩
      rw [h.box_const hm (vertices_sub hb hv) hq]
      exact hr.resolve_left (hm q hq)

/-! ## Polygons and boxes -/

theorem ValidPolygon.edges_holes (p : Polygon) (m : Point) :
    m ∈ segsPts p.edges ↔ m ∈ segsPts p.border.edges ∨ ∃ h ∈ p.holes, m ∈ segsPts h.edges := by
  unfold Polygon.edges
  rw [segsPts_append, Set.mem_union, segsPts_flatMap]

/-- in the interior of one hole, in no other -/
theorem ValidPolygon.inside_holes {p : Polygon} (h : ValidPolygon p) {c : Contour} (hc : c ∈ p.holes) {m : Point}
    (hn : m ∉ segsPts c.edges) (hi : Inside c.edges m) :
    Inside (p.holes.flatMap Contour.edges) m ∧ ∀ d ∈ p.holes, m ∉ segsPts d.edges := by
  have hap := h.apart
  obtain ⟨l1, l2, hl⟩ := List.append_of_mem hc
  rw [hl] at hap ⊢
  rw [List.pairwise_append, List.pairwise_cons] at hap
  obtain ⟨-, ⟨a1, -⟩, a2⟩ := hap
  have o1 : ∀ d ∈ l1, m ∉ segsPts d.edges := fun d hd hm => (a2 d hd c (by simp)).1 m (Or.inl hm) hn hi
  have o2 : ∀ d ∈ l2, m ∉ segsPts d.edges := fun d hd hm => (a1 d hd).2 m (Or.inl hm) hn hi
  have n1 : ∀ d ∈ l1, ¬ Inside d.edges m := fun d hd => (a2 d hd c (by simp)).2 m (Or.inr hi) (o1 d hd)
  have n2 : ∀ d ∈ l2, ¬ Inside d.edges m := fun d hd => (a1 d hd).1 m (Or.inr hi) (o2 d hd)
  constructor
  · rw [List.flatMap_append, List.flatMap_cons, inside_append, inside_append]
    have g1 := inside_flatMap_not n1
    have g2 := inside_flatMap_not n2
    tauto
  · intro d hd
    rcases List.mem_append.1 hd with hd | hd
    · exact o1 d hd
    · rcases List.mem_cons.1 hd with rfl | hd
      · exact hn
      · exact o2 d hd

/-- The interior of a hole is not a part of the polygon. -/
theorem ValidPolygon.not_in_hole {p : Polygon} (h : ValidPolygon p) {c : Contour} (hc : c ∈ p.holes) {m : Point}
    (hn : m ∉ segsPts c.edges) (hi : Inside c.edges m) : m ∉ regionPts p.edges := by
  obtain ⟨i1, o1⟩ := h.inside_holes hc hn hi
  have ob : m ∉ segsPts p.border.edges := fun hb => h.outside c hc m hb hn hi
  rintro (hs | hs)
  · rw [ValidPolygon.edges_holes] at hs
    rcases hs with hs | ⟨d, hd, hs⟩
    · exact ob hs
    · exact o1 d hd hs
  · unfold Polygon.edges at hs
    rw [inside_append] at hs
    have : Inside p.border.edges m := (h.inside c hc (Or.inr hi)).resolve_left ob
    tauto

theorem ValidPolygon.region_sub_border {p : Polygon} (h : ValidPolygon p) :
    regionPts p.edges ⊆ regionPts p.border.edges := by
  intro m hm
  rcases hm with hm | hm
  · rw [ValidPolygon.edges_holes] at hm
    rcases hm with hm | ⟨d, hd, hm⟩
    · exact Or.inl hm
    · exact h.inside d hd (Or.inl hm)
  · unfold Polygon.edges at hm
    rw [inside_append] at hm
    by_cases hb : Inside p.border.edges m
    · exact Or.inr hb
    · have : Inside (p.holes.flatMap Contour.edges) m := by tauto
      by_contra hn
      refine inside_flatMap_not (fun d hd hi => ?_) this
      exact hn (h.inside d hd (Or.inr hi))

/-- Points of the border region which are not in the interior of a hole are points of the polygon. -/
theorem ValidPolygon.of_border {p : Polygon} {m : Point} (hm : m ∈ regionPts p.border.edges)
    (hh : ∀ c ∈ p.holes, m ∉ segsPts c.edges → ¬ Inside c.edges m) : m ∈ regionPts p.edges := by
  by_cases hs : m ∈ segsPts p.edges
  · exact Or.inl hs
  · right
    rw [ValidPolygon.edges_holes] at hs
    push Not at hs
    have hb := hm.resolve_left hs.1
    have : ¬ Inside (p.holes.flatMap Contour.edges) m := inside_flatMap_not fun c hc => hh c hc (hs.2 c hc)
    unfold Polygon.edges
    rw [inside_append]
    tauto

/-- `intersects_with_polygon` -/
theorem intersectsWithPolygon_spec (ok : OrientOk o) {p : Polygon} (h : ValidPolygon p) {b : Box} (hb : b.Nonempty) :
    intersectsWithPolygon o b p = true ↔ ∃ q ∈ b.pts, q ∈ regionPts p.edges := by
  have hB := h.border
  have segs : ∀ q ∈ b.pts, q ∈ segsPts p.border.edges → ∃ q ∈ b.pts, q ∈ regionPts p.edges := fun q hq hs =>
    ⟨q, hq, Or.inl ((ValidPolygon.edges_holes p q).2 (Or.inl hs))⟩
  have hv : (⟨b.minX, b.minY⟩ : Point) ∈ toVertices b := by simp [toVertices]
  have hvb := vertices_sub hb hv
  unfold intersectsWithPolygon
  dsimp only
  by_cases h1 : intersectsWith (contourBox p.border) b = true
  · rw [h1]
    simp only [Bool.not_true, Bool.false_eq_true, if_false]
    split_ifs with h2 h3
    · simp only [true_iff]
      rw [Bool.or_eq_true] at h2
      rcases h2 with g | g
      · rw [isSubsetOf_iff _ _ hB.box_nonempty] at g
        exact segs _ (g (contourBox_mem (vtx_mem hB.ne_nil 0))) (hB.vertex_segs (vtx_mem hB.ne_nil 0))
      · simp only [List.any_eq_true] at g
        obtain ⟨v, hv, g⟩ := g
        exact segs v ((containsPoint_coversPoint_iff b v).1.1 g) (hB.vertex_segs hv)
    · -- the box is in the interior of the border
      have hin : ∀ q ∈ b.pts, q ∉ segsPts p.border.edges ∧ Inside p.border.edges q := by
        rw [← withinOfRegion_iff ok hB hb]
        unfold withinOfRegion
        simp only [Bool.and_eq_true, List.all_map, Function.comp_def] at h3 ⊢
        exact ⟨h3.1.1, h3.1.2, h3.2⟩
      rw [Bool.not_eq_true', ← Bool.not_eq_true]
      simp only [List.any_eq_true]
      constructor
      · intro g
        by_contra hn
        push Not at hn
        -- the lower left vertex is in a hole
        have : ∃ c ∈ p.holes, (⟨b.minX, b.minY⟩ : Point) ∉ segsPts c.edges ∧ Inside c.edges ⟨b.minX, b.minY⟩ := by
          by_contra hc
          push Not at hc
          exact hn _ hvb (ValidPolygon.of_border (Or.inr (hin _ hvb).2) hc)
        obtain ⟨c, hc, c1, c2⟩ := this
        refine g ⟨c, hc, (withinOfRegion_iff ok (h.holes c hc) hb).2 ?_⟩
        have off : ∀ q ∈ b.pts, q ∉ segsPts c.edges := fun q hq hs =>
          hn q hq (Or.inl ((ValidPolygon.edges_holes p q).2 (Or.inr ⟨c, hc, hs⟩)))
        intro q hq
        exact ⟨off q hq, ((h.holes c hc).box_const off hvb hq).1 c2⟩
      · rintro ⟨q, hq, hr⟩ ⟨c, hc, g⟩
        have := (withinOfRegion_iff ok (h.holes c hc) hb).1 g q hq
        exact h.not_in_hole hc this.1 this.2 hr
    · rw [Bool.or_eq_true, hB.meets_iff hb]
      simp only [List.any_map, List.any_eq_true, Function.comp_def, decide_eq_true_eq]
      constructor
      · rintro (⟨v, hv', g⟩ | ⟨q, hq, g⟩)
        · by_contra hn
          push Not at hn
          have off : ∀ q ∈ b.pts, q ∉ segsPts p.border.edges := fun q hq hs =>
            hn q hq (Or.inl ((ValidPolygon.edges_holes p q).2 (Or.inl hs)))
          have hvb' := vertices_sub hb hv'
          have hi : Inside p.border.edges v := ((ok.exterior hB v).1 g).resolve_left (off v hvb')
          apply h3
          have := (withinOfRegion_iff ok hB hb).2 fun q hq => ⟨off q hq, (hB.box_const off hvb' hq).1 hi⟩
          unfold withinOfRegion at this
          simp only [Bool.and_eq_true, List.all_map, Function.comp_def] at this ⊢
          exact ⟨⟨this.1, this.2.1⟩, this.2.2⟩
        · exact segs q hq g
      · rintro ⟨q, hq, hr⟩
        by_cases hm : ∃ q ∈ b.pts, q ∈ segsPts p.border.edges
        · exact Or.inr hm
        · left
          push Not at hm
          refine ⟨_, hv, (ok.exterior hB _).2 (Or.inr ?_)⟩
          rw [hB.box_const hm hvb hq]
          exact (h.region_sub_border hr).resolve_left (hm q hq)
  · rw [Bool.not_eq_true] at h1
    rw [h1]
    simp only [Bool.not_false, if_true, Bool.false_eq_true, false_iff]
    rintro ⟨q, hq, hr⟩
    rw [← Bool.not_eq_true, intersectsWith_iff _ _ hB.box_nonempty hb] at h1
    exact h1 ⟨q, hB.region_sub_box (h.region_sub_border hr), hq⟩

end Clipping

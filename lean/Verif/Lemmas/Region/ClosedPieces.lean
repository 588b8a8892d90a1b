import Verif.Lemmas.Region.UnionPieces
import Mathlib.Data.Set.Finite.Lemmas

/-!
# Polygons within disjoint regions
-/

namespace Clipping

open Sweep

theorem region_off {E : List Segment} (no : NoOverlap E) (hd : ∀ q, Even (degree E q)) {q : Point} (hq : q ∉ regionPts E) :
    ∃ δ > 0, ∀ z, Near δ q z → z ∉ regionPts E := by
  obtain ⟨δ, δ0, h⟩ := inside_near no.1 hd fun k => hq (Or.inl k)
  exact ⟨δ, δ0, fun z hz k => k.elim (h z hz).1 fun k => hq (Or.inr ((h z hz).2.1 k))⟩

/-- Two regions without common points. -/
structure Parted (A B : List Segment) : Prop where
  noA : NoOverlap A
  evenA : ∀ q, Even (degree A q)
  noB : NoOverlap B
  evenB : ∀ q, Even (degree B q)
  off : ∀ q ∈ regionPts A, q ∉ regionPts B

theorem Parted.symm {A B : List Segment} (h : Parted A B) : Parted B A := ⟨h.noB, h.evenB, h.noA, h.evenA, fun q k k' => h.off q k' k⟩

/-- A segment within the regions is in one of them. -/
theorem Parted.segment {A B : List Segment} (h : Parted A B) {x y : Point} (hs : ∀ r ∈ (Segment.mk x y).pts, r ∈ regionPts A ∪ regionPts B)
    (hx : x ∈ regionPts A) : y ∈ regionPts A := by
  by_contra hy
  have hyA : y ∉ segsPts A := fun k => hy (Or.inl k)
  obtain ⟨w, w1, w2, w3⟩ := first_hit h.noA.1 (q := y) (m := x) hyA
  have wA : w ∈ regionPts A := w2.elim (fun k => k ▸ hx) Or.inl
  obtain ⟨δ, δ0, hδ⟩ := region_off h.noB h.evenB (h.off w wA)
  obtain ⟨ε, ε0, ε1, hε⟩ := exists_small δ0 (M := |y.x - w.x| + |y.y - w.y|) (by positivity)
  set r : Point := ⟨w.x + ε * (y.x - w.x), w.y + ε * (y.y - w.y)⟩ with hr
  have r1 : r ∈ (Segment.mk w y).pts := ⟨ε, ε0.le, ε1, rfl, rfl⟩
  have r2 : r ∈ (Segment.mk y w).pts := by rwa [Segment.pts_swap] at r1
  have hyw : y ≠ w := fun k => hy (k ▸ wA)
  have hrw : r ≠ w := by
    intro k
    have kx : ε * (y.x - w.x) = 0 := by have := congrArg Point.x k; simp only [hr] at this; linarith
    have ky : ε * (y.y - w.y) = 0 := by have := congrArg Point.y k; simp only [hr] at this; linarith
    have kx := (mul_eq_zero.1 kx).resolve_left ε0.ne'
    have ky := (mul_eq_zero.1 ky).resolve_left ε0.ne'
    exact hyw (Point.ext' (by linarith) (by linarith))
  have near : Near δ w r := by
    constructor
    · simp only [hr, add_sub_cancel_left, abs_mul, abs_of_pos ε0]
      refine lt_of_le_of_lt (mul_le_mul_of_nonneg_left ?_ ε0.le) hε
      linarith [abs_nonneg (y.y - w.y)]
    · simp only [hr, add_sub_cancel_left, abs_mul, abs_of_pos ε0]
      refine lt_of_le_of_lt (mul_le_mul_of_nonneg_left ?_ ε0.le) hε
      linarith [abs_nonneg (y.x - w.x)]
  have r3 : r ∈ (Segment.mk x y).pts := by
    rw [Segment.pts_swap]
    exact mk_sub (Segment.start_mem _) w1 r2
  have rA : r ∈ regionPts A := (hs r r3).resolve_right (hδ r near)
  have rA' : r ∉ segsPts A := fun k => hrw (w3 r r2 k)
  have f : ∀ z ∈ (Segment.mk y r).pts, z ∉ segsPts A := by
    intro z hz k
    have := w3 z (mk_sub (Segment.start_mem _) r2 hz) k
    rw [this] at hz
    exact hrw (mem_antisymm r2 hz)
  exact hy (Or.inr ((inside_const h.noA.1 h.evenA (s := ⟨y, r⟩) f).2 (rA.resolve_left rA')))

/-- A contour within the regions is in one of them. -/
theorem Parted.contour {A B : List Segment} (h : Parted A B) {c : Contour} (hc : SimpleContour c) (hs : segsPts c.edges ⊆ regionPts A ∪ regionPts B)
    {q : Point} (hq : q ∈ segsPts c.edges) (hA : q ∈ regionPts A) : segsPts c.edges ⊆ regionPts A := by
  have edge : ∀ i, ∀ {x y : Point}, x ∈ (Segment.mk (vtx c i) (vtx c (i + 1))).pts → y ∈ (Segment.mk (vtx c i) (vtx c (i + 1))).pts →
      x ∈ regionPts A → y ∈ regionPts A := fun i x y hx hy k =>
    h.segment (fun r hr => hs ⟨_, vtx_edge hc.nonempty i, mk_sub hx hy hr⟩) k
  obtain ⟨i, hi⟩ := SimpleContour.mem_segs hq
  have start : ∀ k, vtx c (i + k) ∈ regionPts A := by
    intro k
    induction k with
    | zero => exact edge i hi (Segment.start_mem _) hA
    | succ k ih => exact edge (i + k) (Segment.start_mem _) (Segment.stop_mem _) ih
  intro r hr
  obtain ⟨j, hj⟩ := SimpleContour.mem_segs hr
  have n1 : 1 ≤ c.vertices.length := List.length_pos_iff.2 hc.nonempty
  have e : vtx c j = vtx c (i + (j + c.vertices.length * i - i)) := by
    have : i + (j + c.vertices.length * i - i) = j + c.vertices.length * i := by
      have := Nat.mul_le_mul_right i n1
      omega
    rw [this, ← vtx_mod c (j + _), Nat.add_mul_mod_self_left, vtx_mod]
  exact edge j (Segment.start_mem _) hj (by rw [e]; exact start _)

/-- From a point inside of a polygon, an edge is reached by going to the left. -/
theorem ValidPolygon.go_left {p : Polygon} (h : ValidPolygon p) {z : Point} (hz : z ∉ segsPts p.edges) (iz : Inside p.edges z) :
    ∃ w ∈ segsPts p.edges, w.x < z.x ∧ ∀ r ∈ (Segment.mk z w).pts, r ∈ regionPts p.edges := by
  set f : Point := ⟨min z.x (contourBox p.border).minX - 1, z.y⟩ with hf
  have fz : f.x < z.x := by
    have := min_le_left z.x (contourBox p.border).minX
    simp only [hf]
    linarith
  have ff : f ∉ regionPts p.edges := by
    intro k
    have := (h.border.region_sub_box (h.region_sub_border k)).1
    have := min_le_right z.x (contourBox p.border).minX
    simp only [hf] at *
    linarith
  obtain ⟨w, w1, w2, w3⟩ := first_hit h.noOverlap.1 (q := z) (m := f) hz
  have hw : w ∈ segsPts p.edges := by
    by_contra k
    obtain rfl := w2.resolve_right k
    refine ff (Or.inr ((inside_const h.noOverlap.1 h.even (s := ⟨z, f⟩) fun r hr kr => ?_).1 iz))
    exact k (w3 r hr kr ▸ kr)
  refine ⟨w, hw, ?_, fun r hr => ?_⟩
  · obtain ⟨t, t0, t1, tx, ty⟩ := w1
    simp only at tx ty
    have t0' : 0 < t := by
      refine lt_of_le_of_ne t0 fun k => hz ?_
      have : z = w := Point.ext' (by rw [tx, ← k]; ring) (by rw [ty, ← k]; ring)
      rwa [this]
    rw [tx]
    nlinarith [mul_pos t0' (sub_pos.2 fz)]
  · by_cases k : r ∈ segsPts p.edges
    · exact Or.inl k
    · refine Or.inr ((inside_const h.noOverlap.1 h.even (s := ⟨z, r⟩) fun q hq kq => ?_).1 iz)
      have := w3 q (mk_sub (Segment.start_mem _) hr hq) kq
      rw [this] at hq
      exact k (mem_antisymm hr hq ▸ hw)

theorem exists_common_delta {l : List ι} {v : Point} {P : ι → Point → Prop} (h : ∀ i ∈ l, ∃ δ > 0, ∀ z, Near δ v z → P i z) :
    ∃ δ > 0, ∀ z, Near δ v z → ∀ i ∈ l, P i z := by
  induction l with
  | nil => exact ⟨1, one_pos, by simp⟩
  | cons i l ih =>
    obtain ⟨δ, δ0, h1⟩ := h i (by simp)
    obtain ⟨δ', δ0', h2⟩ := ih fun j hj => h j (by simp [hj])
    refine ⟨min δ δ', lt_min δ0 δ0', fun z hz j hj => ?_⟩
    rcases List.mem_cons.1 hj with rfl | hj
    · exact h1 z (hz.mono (min_le_left _ _))
    · exact h2 z (hz.mono (min_le_right _ _)) j hj

/-- A polygon within the regions is in the one which its border is in. -/
theorem Parted.polygon {A B : List Segment} (h : Parted A B) {p : Polygon} (hp : ValidPolygon p) (hs : regionPts p.edges ⊆ regionPts A ∪ regionPts B)
    {q : Point} (hq : q ∈ segsPts p.border.edges) (hA : q ∈ regionPts A) : regionPts p.edges ⊆ regionPts A := by
  have sb : segsPts p.border.edges ⊆ segsPts p.edges := fun r hr => (ValidPolygon.edges_holes p r).2 (Or.inl hr)
  have sh : ∀ c ∈ p.holes, segsPts c.edges ⊆ segsPts p.edges := fun c hc r hr => (ValidPolygon.edges_holes p r).2 (Or.inr ⟨c, hc, hr⟩)
  have bA : segsPts p.border.edges ⊆ regionPts A := h.contour hp.border (fun r hr => hs (Or.inl (sb hr))) hq hA
  have hole : ∀ c ∈ p.holes, ∀ r ∈ segsPts c.edges, r ∈ regionPts B → segsPts c.edges ⊆ regionPts B := fun c hc r hr hB =>
    h.symm.contour (hp.holes c hc) (fun z hz => (hs (Or.inl (sh c hc hz))).symm) hr hB
  intro y hy
  by_contra hyA
  have yB : y ∈ regionPts B := (hs hy).resolve_left hyA
  -- an edge of a hole
  have on : ∀ r ∈ segsPts p.edges, r ∈ regionPts B → ∃ c ∈ p.holes, r ∈ segsPts c.edges := by
    intro r hr hB
    rcases (ValidPolygon.edges_holes p r).1 hr with k | k
    · exact absurd hB (h.off r (bA k))
    · exact k
  have go : ∀ z, z ∉ segsPts p.edges → Inside p.edges z → z ∈ regionPts B → ∃ c ∈ p.holes, ∃ w ∈ segsPts c.edges, w.x < z.x ∧ w ∈ regionPts B := by
    intro z hz iz hB
    obtain ⟨w, w1, w2, w3⟩ := hp.go_left hz iz
    have wB := h.symm.segment (fun r hr => (hs (w3 r hr)).symm) hB
    obtain ⟨c, hc, hw⟩ := on w w1 wB
    exact ⟨c, hc, w, hw, w2, wB⟩
  set S : Set Contour := {c | c ∈ p.holes ∧ ∃ r ∈ segsPts c.edges, r ∈ regionPts B} with hS
  have Sf : S.Finite := (List.finite_toSet p.holes).subset fun c hc => hc.1
  have Sn : S.Nonempty := by
    by_cases k : y ∈ segsPts p.edges
    · obtain ⟨c, hc, hr⟩ := on y k yB
      exact ⟨c, hc, y, hr, yB⟩
    · obtain ⟨c, hc, w, hw, -, wB⟩ := go y k (hy.resolve_left k) yB
      exact ⟨c, hc, w, hw, wB⟩
  obtain ⟨d, ⟨hd, r, hr, rB⟩, least⟩ := Set.exists_min_image S (fun c => (contourBox c).minX) Sf Sn
  have dB := hole d hd r hr rB
  have sd := hp.holes d hd
  obtain ⟨v, hv, vx⟩ := contourBox_tight sd.ne_nil
  have vd : v ∈ segsPts d.edges := sd.vertex_segs hv
  have vB := dB vd
  have vA : v ∉ regionPts A := h.symm.off v vB
  have vp : v ∈ regionPts p.edges := Or.inl (sh d hd vd)
  -- points to the left
  obtain ⟨δ1, δ1p, h1⟩ := inside_near hp.border.noOverlap.1 hp.border.even fun k => vA (bA k)
  have ib : Inside p.border.edges v := (hp.region_sub_border vp).resolve_left fun k => vA (bA k)
  obtain ⟨δ2, δ2p, h2⟩ := exists_common_delta (l := p.holes) (v := v) (P := fun c z => z.x < v.x → z ∉ segsPts c.edges ∧ ¬ Inside c.edges z) (by
    intro c hc
    have sc := hp.holes c hc
    by_cases k : c ∈ S
    · refine ⟨1, one_pos, fun z _ hz => ?_⟩
      have : z ∉ regionPts c.edges := fun k' => by
        have := (sc.region_sub_box k').1
        have := least c k
        linarith
      exact ⟨fun k' => this (Or.inl k'), fun k' => this (Or.inr k')⟩
    · have n : v ∉ segsPts c.edges := fun k' => k ⟨hc, v, k', vB⟩
      obtain ⟨δ, δ0, g⟩ := inside_near sc.noOverlap.1 sc.even n
      exact ⟨δ, δ0, fun z hz _ => ⟨(g z hz).1, fun k' => hp.not_in_hole hc n ((g z hz).2.1 k') vp⟩⟩)
  have left : ∀ z, Near (min δ1 δ2) v z → z.x < v.x → z ∉ segsPts p.edges ∧ Inside p.edges z := by
    intro z hz zx
    have g1 := h1 z (hz.mono (min_le_left _ _))
    have g2 := h2 z (hz.mono (min_le_right _ _))
    constructor
    · rw [ValidPolygon.edges_holes]
      rintro (k | ⟨c, hc, k⟩)
      · exact g1.1 k
      · exact (g2 c hc zx).1 k
    · unfold Polygon.edges
      rw [inside_append]
      have := inside_flatMap_not fun c hc => (g2 c hc zx).2
      have := g1.2.2 ib
      tauto
  have m0 : 0 < min δ1 δ2 := lt_min δ1p δ2p
  set z : Point := ⟨v.x - min δ1 δ2 / 2, v.y⟩ with hz
  have nz : Near (min δ1 δ2) v z := by
    constructor
    · simp only [hz]
      rw [abs_lt]
      constructor <;> linarith
    · simpa [hz] using m0
  have zx : z.x < v.x := by simp only [hz]; linarith
  have zB : z ∈ regionPts B := by
    refine h.symm.segment (x := v) (fun r hr => (hs ?_).symm) vB
    have nr := nz.path r hr
    obtain ⟨t, t0, t1, tx, ty⟩ := hr
    simp only at tx ty
    rcases eq_or_lt_of_le t0 with k | k
    · have : r = v := Point.ext' (by rw [tx, ← k]; ring) (by rw [ty, ← k]; ring)
      rwa [this]
    · exact Or.inr (left r nr (by rw [tx]; nlinarith [mul_pos k (sub_pos.2 zx)])).2
  obtain ⟨c, hc, w, hw, wx, wB⟩ := go z (left z nz zx).1 (left z nz zx).2 zB
  have := least c ⟨hc, w, hw, wB⟩
  have := ((hp.holes c hc).segs_sub_box hw).1
  linarith

theorem Detached.perm {ps qs : List Polygon} (h : Detached ps) (e : ps.Perm qs) : Detached qs :=
  ((e.flatMap_right _).pairwise_iff (fun {_ _} g q hq hq' => g q hq' hq)).1 h

/-- Polygons the contours of which do not touch each other: one of them and the others have no common points. -/
theorem ValidPolygons.parted {bs : List Polygon} {a : Polygon} (h : ValidPolygons (a :: bs)) (hd : Detached (a :: bs)) :
    Parted a.edges (bs.flatMap Polygon.edges) ∧ polysPts (a :: bs) = regionPts a.edges ∪ regionPts (bs.flatMap Polygon.edges) := by
  have hb : ValidPolygons bs := h.sublist (List.sublist_cons_self a bs)
  have ha := h.valid a (by simp)
  refine ⟨⟨ha.noOverlap, ha.even, hb.noOverlap, hb.noOverlap_even.2, fun q hq hq' => ?_⟩, ?_⟩
  · rw [← hb.polysPts_eq] at hq'
    obtain ⟨b, b1, b2⟩ := hq'
    rw [polygon_pts_eq] at b2
    have ap := (List.pairwise_cons.1 h.apart).1 b b1
    unfold Detached at hd
    rw [List.flatMap_cons, List.pairwise_append] at hd
    by_cases k : q ∈ segsPts b.edges
    · by_cases k' : q ∈ segsPts a.edges
      · have ca : ∃ c ∈ a.border :: a.holes, q ∈ segsPts c.edges := by simpa [ValidPolygon.edges_holes] using k'
        have cb : ∃ c ∈ b.border :: b.holes, q ∈ segsPts c.edges := by simpa [ValidPolygon.edges_holes] using k
        obtain ⟨c, c1, c2⟩ := ca
        obtain ⟨d, d1, d2⟩ := cb
        exact hd.2.2 c c1 d (List.mem_flatMap.2 ⟨b, b1, d1⟩) q c2 d2
      · exact ap.2 q b2 k' (hq.resolve_left k')
    · exact ap.1 q hq k (b2.resolve_left k)
  · rw [← hb.polysPts_eq, ← polygon_pts_eq]
    ext q
    simp [polysPts]

/-- A polygon which is a part of polygons, the contours of which do not touch each other, is a part of one of them. -/
theorem ValidPolygons.within_detached {ps : List Polygon} (h : ValidPolygons ps) (hd : Detached ps) {p : Polygon} (vp : ValidPolygon p)
    (s : p.pts ⊆ polysPts ps) : ∃ q ∈ ps, p.pts ⊆ q.pts := by
  obtain ⟨e, he⟩ := vp.border.exists_edge
  have hq : e.start ∈ segsPts p.border.edges := ⟨e, he, Segment.start_mem _⟩
  have hp : e.start ∈ p.pts := by
    rw [polygon_pts_eq]
    exact Or.inl ((ValidPolygon.edges_holes p _).2 (Or.inl hq))
  obtain ⟨a, a1, a2⟩ := s hp
  obtain ⟨l1, l2, rfl⟩ := List.append_of_mem a1
  have pm : (l1 ++ a :: l2).Perm (a :: (l1 ++ l2)) := List.perm_middle
  obtain ⟨P, e'⟩ := (h.perm pm).parted (hd.perm pm)
  have e2 : polysPts (l1 ++ a :: l2) = polysPts (a :: (l1 ++ l2)) := by
    ext q
    simp only [polysPts, pm.mem_iff]
  rw [e2, e', polygon_pts_eq] at s
  rw [polygon_pts_eq] at a2
  refine ⟨a, a1, ?_⟩
  rw [polygon_pts_eq, polygon_pts_eq]
  exact P.polygon vp s hq a2

end Clipping

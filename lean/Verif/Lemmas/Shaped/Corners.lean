import Verif.Lemmas.Shaped.Normal
import Verif.Spec.Arrangement

/-!
# Corners of contours which run along segments
-/

namespace Clipping

/-- A segment along some segments starts along one of them. -/
theorem starts_along {L : List Segment} (pr : ∀ s ∈ L, s.Proper) {v u : Point} (hne : u ≠ v)
    (h : (Segment.mk v u).pts ⊆ segsPts L) :
    ∃ s ∈ L, v ∈ s.pts ∧ ∃ c : ℚ, 0 < c ∧ ⟨v.x + c * (u.x - v.x), v.y + c * (u.y - v.y)⟩ ∈ s.pts := by
  classical
  obtain ⟨δ, hδ, hoff⟩ := exists_near_off_all (E := L.filter fun s => decide (v ∉ s.pts)) (m := v)
    (fun s hs => pr s (List.mem_filter.1 hs).1) (by
      rintro ⟨s, hs, hv⟩
      have := (List.mem_filter.1 hs).2
      simp at this
      exact this hv)
  set K : ℚ := 1 + |u.x - v.x| + |u.y - v.y| with hK
  have a1 := abs_nonneg (u.x - v.x)
  have a2 := abs_nonneg (u.y - v.y)
  have k1 : 0 < K := by linarith
  set c : ℚ := min 1 (δ / K) with hc
  have c0 : 0 < c := lt_min one_pos (div_pos hδ k1)
  have c1 : c ≤ 1 := min_le_left _ _
  have c2 : c * K ≤ δ := by
    have h1 : c ≤ δ / K := min_le_right _ _
    have h2 := div_mul_cancel₀ δ k1.ne'
    nlinarith
  obtain ⟨s, hs, hz⟩ := h (show (⟨v.x + c * (u.x - v.x), v.y + c * (u.y - v.y)⟩ : Point) ∈ (Segment.mk v u).pts from
    ⟨c, c0.le, c1, rfl, rfl⟩)
  refine ⟨s, hs, ?_, c, c0, hz⟩
  by_contra hv
  refine hoff _ ⟨?_, ?_⟩ ⟨s, List.mem_filter.2 ⟨hs, by simpa using hv⟩, hz⟩
  · simp only [add_sub_cancel_left, abs_mul, abs_of_pos c0]
    nlinarith
  · simp only [add_sub_cancel_left, abs_mul, abs_of_pos c0]
    nlinarith

/-- A corner of a way along segments is an end of one of them or the only common point of two of them. -/
theorem corner_vertex {L : List Segment} (pr : ∀ s ∈ L, s.Proper) {u v w : Point} (h1 : (Segment.mk v u).pts ⊆ segsPts L)
    (h2 : (Segment.mk v w).pts ⊆ segsPts L) (hc : cross u v w ≠ 0) : Vertex L v := by
  have n1 : u ≠ v := by rintro rfl; apply hc; unfold cross; ring
  have n2 : w ≠ v := by rintro rfl; apply hc; unfold cross; ring
  obtain ⟨s, hs, vs, c, c0, zs⟩ := starts_along pr n1 h1
  obtain ⟨t, ht, vt, d, d0, zt⟩ := starts_along pr n2 h2
  refine Or.inr ⟨s, hs, t, ht, ?_⟩
  refine Set.Subset.antisymm ?_ (by rintro q rfl; exact ⟨vs, vt⟩)
  rintro q ⟨q1, q2⟩
  have e1 : ∀ {s : Segment} {p : Point} {c : ℚ}, 0 < c → v ∈ s.pts → q ∈ s.pts →
      (⟨v.x + c * (p.x - v.x), v.y + c * (p.y - v.y)⟩ : Point) ∈ s.pts →
      (q.x - v.x) * (p.y - v.y) = (q.y - v.y) * (p.x - v.x) := by
    rintro s p c c0 ⟨a, -, -, ax, ay⟩ ⟨b, -, -, bx, by'⟩ ⟨r, -, -, rx, ry⟩
    simp only at rx ry
    have hx : c * (p.x - v.x) = (r - a) * (s.stop.x - s.start.x) := by linarith
    have hy : c * (p.y - v.y) = (r - a) * (s.stop.y - s.start.y) := by linarith
    have qx : q.x - v.x = (b - a) * (s.stop.x - s.start.x) := by linarith
    have qy : q.y - v.y = (b - a) * (s.stop.y - s.start.y) := by linarith
    refine mul_left_cancel₀ c0.ne' ?_
    calc c * ((q.x - v.x) * (p.y - v.y)) = (q.x - v.x) * (c * (p.y - v.y)) := by ring
      _ = (q.y - v.y) * (c * (p.x - v.x)) := by rw [hx, hy, qx, qy]; ring
      _ = _ := by ring
  have g1 := e1 c0 vs q1 zs
  have g2 := e1 d0 vt q2 zt
  have hc' : (u.x - v.x) * (w.y - v.y) - (u.y - v.y) * (w.x - v.x) ≠ 0 := by
    intro h; apply hc; unfold cross; linarith
  have x0 : (q.x - v.x) * ((u.x - v.x) * (w.y - v.y) - (u.y - v.y) * (w.x - v.x)) = 0 := by
    linear_combination (u.x - v.x) * g2 - (w.x - v.x) * g1
  have y0 : (q.y - v.y) * ((u.x - v.x) * (w.y - v.y) - (u.y - v.y) * (w.x - v.x)) = 0 := by
    linear_combination (u.y - v.y) * g2 - (w.y - v.y) * g1
  have x1 := (mul_eq_zero.1 x0).resolve_right hc'
  have y1 := (mul_eq_zero.1 y0).resolve_right hc'
  show q = v
  ext <;> linarith

/-- Every vertex of a contour with three vertices or more is between others. -/
theorem rotated_middle {vs : List Point} (h3 : 3 ≤ vs.length) {v : Point} (hv : v ∈ vs) :
    ∃ u w rest, vs ~r (u :: v :: w :: rest) := by
  obtain ⟨l, r, rfl⟩ := List.append_of_mem hv
  have e : (l ++ v :: r) ~r (v :: (r ++ l)) := by
    simpa using List.isRotated_append (l := l) (l' := v :: r)
  have len : 2 ≤ (r ++ l).length := by
    have : (l ++ v :: r).length = (r ++ l).length + 1 := by simp; omega
    omega
  generalize r ++ l = m at e len
  match m, len with
  | w :: m, len =>
    have hm : m ≠ [] := by rintro rfl; simp at len
    refine ⟨m.getLast hm, w, m.dropLast, e.trans ?_⟩
    have : v :: w :: m = (v :: w :: m.dropLast) ++ [m.getLast hm] := by simp [List.dropLast_append_getLast hm]
    rw [this]
    simpa using List.isRotated_append (l := v :: w :: m.dropLast) (l' := [m.getLast hm])

/-- Vertices of a contour in normal form which runs along segments. -/
theorem Contour.Normal.vertex {L : List Segment} (pr : ∀ s ∈ L, s.Proper) {c : Contour} (hn : c.Normal) (hs : SimpleContour c)
    (hw : segsPts c.edges ⊆ segsPts L) {v : Point} (hv : v ∈ c.vertices) : Vertex L v := by
  obtain ⟨u, w, rest, hr⟩ := rotated_middle hs.three hv
  have e := edges_rotated hr
  have mem : ∀ s ∈ (Contour.mk (u :: v :: w :: rest)).edges, s.pts ⊆ segsPts L := fun s h q hq => hw ⟨s, e.mem_iff.2 h, hq⟩
  rw [(edges_three u v w rest).1] at mem
  refine corner_vertex pr (u := u) (w := w) ?_ (mem ⟨v, w⟩ (by simp)) (hn.corners u v w rest hr)
  have := mem ⟨u, v⟩ (by simp)
  intro q hq
  exact this (by rwa [Segment.pts_swap] at hq)

theorem Vertex.mono {l l' : List Segment} (h : l ⊆ l') {p : Point} : Vertex l p → Vertex l' p
  | .inl ⟨s, hs, e⟩ => .inl ⟨s, h hs, e⟩
  | .inr ⟨s, hs, t, ht, e⟩ => .inr ⟨s, h hs, t, h ht, e⟩

end Clipping

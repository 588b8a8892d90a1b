import Verif.Spec.Complete
import Verif.Lemmas.Region.Convex
import Verif.Lemmas.Region.Jordan
import Verif.Lemmas.BoundingShaped

/-!
# Convex intersections: their parts
-/

namespace Clipping

open Sweep

/-- A hole is between points of the polygon. -/
theorem ValidPolygon.convex_holes {p : Polygon} (h : ValidPolygon p) (hc : ConvexSet p.pts) : p.holes = [] := by
  rw [polygon_pts_eq] at hc
  by_contra hn
  obtain ⟨c, c1⟩ := List.exists_mem_of_ne_nil _ hn
  have sc := h.holes c c1
  obtain ⟨e, he⟩ := sc.exists_edge
  obtain ⟨⟨z, -, -, z1, z2⟩, -⟩ := near_both (X := []) sc.noOverlap sc.even ⟨e, he, e.start_mem⟩ (by simp) one_pos
  obtain ⟨M, -, far⟩ := far_bound c.edges
  have meets : ∀ x : ℚ, M < |x| → ∃ r ∈ (Segment.mk z ⟨x, z.y⟩).pts, r ∈ segsPts c.edges := by
    intro x hx
    by_contra hno
    push Not at hno
    exact (far ⟨x, z.y⟩ hx).2 ((inside_const sc.noOverlap.1 sc.even (s := ⟨z, ⟨x, z.y⟩⟩) hno).1 z2)
  have on : ∀ r, r ∈ segsPts c.edges → r ∈ regionPts p.edges := by
    rintro r ⟨s, hs, hr⟩
    refine Or.inl ⟨s, ?_, hr⟩
    unfold Polygon.edges
    exact List.mem_append_right _ (List.mem_flatMap.2 ⟨c, c1, hs⟩)
  have a1 := le_abs_self M
  have a2 := le_abs_self z.x
  have a3 := neg_abs_le z.x
  have p0 := abs_nonneg M
  have p1 := abs_nonneg z.x
  obtain ⟨l, ⟨t, t0, t1, lx, ly⟩, l2⟩ := meets (-(|M| + |z.x| + 1)) (by rw [abs_neg, abs_of_pos (by linarith)]; linarith)
  obtain ⟨r, ⟨u, u0, u1, rx, ry⟩, r2⟩ := meets (|M| + |z.x| + 1) (by rw [abs_of_pos (by linarith)]; linarith)
  simp only at lx ly rx ry
  have ly' : l.y = z.y := by rw [ly]; ring
  have ry' : r.y = z.y := by rw [ry]; ring
  have lz : l.x ≤ z.x := by rw [lx]; nlinarith
  have rz : z.x ≤ r.x := by rw [rx]; nlinarith
  refine h.not_in_hole c1 z1 z2 (hc l (on l l2) r (on r r2) ?_)
  rcases eq_or_lt_of_le (lz.trans rz) with e | e
  · have : z = l := Point.ext' (by linarith) ly'.symm
    rw [this]; exact Segment.start_mem _
  · have d : 0 < r.x - l.x := by linarith
    refine ⟨(z.x - l.x) / (r.x - l.x), div_nonneg (by linarith) d.le, (div_le_one d).2 (by linarith), ?_, ?_⟩
    · simp only; rw [div_mul_cancel₀ _ d.ne']; ring
    · simp only; rw [ly', ry']; ring

/-- Points and segments have no inner points. -/
theorem no_deep {P : List Point} {L : List Segment} (hL : ∀ s ∈ L, s.Proper) (q : Point) : ¬ Deep {r | r ∈ P ∨ r ∈ segsPts L} q := by
  rintro ⟨δ, δ0, h⟩
  obtain ⟨z, hz, z1⟩ := exists_off (X := P.map (fun r => (⟨r, ⟨r.x + 1, r.y⟩⟩ : Segment)) ++ L) (by
    intro s hs
    rcases List.mem_append.1 hs with hs | hs
    · obtain ⟨r, -, rfl⟩ := List.mem_map.1 hs
      intro e
      have := congrArg Point.x e
      simp at this
    · exact hL s hs) q δ0
  rw [segsPts_append] at z1
  rcases h z hz with k | k
  · exact z1 (Or.inl ⟨_, List.mem_map.2 ⟨z, k, rfl⟩, Segment.start_mem _⟩)
  · exact z1 (Or.inr k)

/-- Near a point outside of polygons there are no points of them. -/
theorem ValidPolygons.away {ps : List Polygon} (h : ValidPolygons ps) {q : Point} (hq : q ∉ polysPts ps) : ∃ δ > 0, ∀ z, Near δ q z → z ∉ polysPts ps := by
  rw [h.polysPts_eq] at hq ⊢
  obtain ⟨δ, δ0, k⟩ := inside_near h.noOverlap.1 h.noOverlap_even.2 (fun g => hq (Or.inl g))
  refine ⟨δ, δ0, fun z hz => ?_⟩
  rintro (g | g)
  · exact (k z hz).1 g
  · exact hq (Or.inr ((k z hz).2.1 g))

/-- A convex set contains the triangle between three of its points. -/
theorem ConvexSet.triangle {K : Set Point} (h : ConvexSet K) {a b c z : Point} (ha : a ∈ K) (hb : b ∈ K) (hc : c ∈ K) {u v : ℚ} (u0 : 0 ≤ u)
    (v0 : 0 ≤ v) (uv : u + v ≤ 1) (zx : z.x = a.x + u * (b.x - a.x) + v * (c.x - a.x)) (zy : z.y = a.y + u * (b.y - a.y) + v * (c.y - a.y)) :
    z ∈ K := by
  rcases eq_or_lt_of_le (add_nonneg u0 v0) with e | uv0
  · have : z = a := by
      have u1 : u = 0 := by linarith
      have v1 : v = 0 := by linarith
      subst u1 v1
      exact Point.ext' (by rw [zx]; ring) (by rw [zy]; ring)
    rwa [this]
  · have hw : (⟨b.x + v / (u + v) * (c.x - b.x), b.y + v / (u + v) * (c.y - b.y)⟩ : Point) ∈ K :=
      h b hb c hc ⟨v / (u + v), div_nonneg v0 uv0.le, (div_le_one uv0).2 (by linarith), rfl, rfl⟩
    have ev : (u + v) * (v / (u + v)) = v := mul_div_cancel₀ _ uv0.ne'
    refine h a ha _ hw ⟨u + v, uv0.le, uv, ?_, ?_⟩
    · simp only
      linear_combination zx - (c.x - b.x) * ev
    · simp only
      linear_combination zy - (c.y - b.y) * ev

/-- The centre of three points of a convex set which are not on a line is an inner point. -/
theorem ConvexSet.deep_centre {K : Set Point} (h : ConvexSet K) {a b c : Point} (ha : a ∈ K) (hb : b ∈ K) (hc : c ∈ K) (hD : cross a b c ≠ 0) :
    Deep K ⟨(a.x + b.x + c.x) / 3, (a.y + b.y + c.y) / 3⟩ := by
  set M : ℚ := 1 + |b.x - a.x| + |b.y - a.y| + |c.x - a.x| + |c.y - a.y| with hM
  have n1 := abs_nonneg (b.x - a.x)
  have n2 := abs_nonneg (b.y - a.y)
  have n3 := abs_nonneg (c.x - a.x)
  have n4 := abs_nonneg (c.y - a.y)
  have M0 : 0 < M := by linarith
  have D0 : 0 < |cross a b c| := abs_pos.2 hD
  refine ⟨|cross a b c| / (6 * M), by positivity, fun z hz => ?_⟩
  obtain ⟨zx, zy⟩ := hz
  simp only at zx zy
  set dx := z.x - (a.x + b.x + c.x) / 3 with hdx
  set dy := z.y - (a.y + b.y + c.y) / 3 with hdy
  have small : ∀ s t : ℚ, |s| + |t| < M → |(dx * t - dy * s) / cross a b c| < 1 / 6 := by
    intro s t hst
    rw [abs_div, div_lt_iff₀ D0]
    have e : |cross a b c| / (6 * M) * M = 1 / 6 * |cross a b c| := by
      rw [div_mul_eq_mul_div, mul_comm 6 M, ← div_div, mul_div_assoc, div_self M0.ne']
      ring
    rw [← e]
    set η := |cross a b c| / (6 * M) with hη
    have η0 : 0 < η := by positivity
    have := abs_sub (dx * t) (dy * s)
    rw [abs_mul, abs_mul] at this
    have s0 := abs_nonneg s
    have t0 := abs_nonneg t
    nlinarith [mul_le_mul_of_nonneg_right zx.le t0, mul_le_mul_of_nonneg_right zy.le s0]
  have u1 := small (c.x - a.x) (c.y - a.y) (by linarith)
  have v1 := small (b.x - a.x) (b.y - a.y) (by linarith)
  set U := (dx * (c.y - a.y) - dy * (c.x - a.x)) / cross a b c with hU
  set V := (dx * (b.y - a.y) - dy * (b.x - a.x)) / cross a b c with hV
  have eU : U * cross a b c = dx * (c.y - a.y) - dy * (c.x - a.x) := div_mul_cancel₀ _ hD
  have eV : V * cross a b c = dx * (b.y - a.y) - dy * (b.x - a.x) := div_mul_cancel₀ _ hD
  rw [abs_lt] at u1 v1
  -- barycentric coordinates
  set u := 1 / 3 + U with hu
  set v := 1 / 3 - V with hv
  have u0 : 0 < u := by linarith
  have v0 : 0 < v := by linarith
  have uv : u + v ≤ 1 := by linarith
  have ex : dx = U * (b.x - a.x) - V * (c.x - a.x) := by
    clear_value dx dy U V
    apply mul_right_cancel₀ hD
    rw [sub_mul, mul_right_comm, eU, mul_right_comm, eV]
    unfold cross; ring
  have ey : dy = U * (b.y - a.y) - V * (c.y - a.y) := by
    clear_value dx dy U V
    apply mul_right_cancel₀ hD
    rw [sub_mul, mul_right_comm, eU, mul_right_comm, eV]
    unfold cross; ring
  refine h.triangle ha hb hc u0.le v0.le uv ?_ ?_
  · linear_combination hdx.symm + ex - (b.x - a.x) * hu - (c.x - a.x) * hv
  · linear_combination hdy.symm + ey - (b.y - a.y) * hu - (c.y - a.y) * hv

/-- Half the way from a point between two points to a third one is an inner point. -/
theorem ConvexSet.deep_half {K : Set Point} (h : ConvexSet K) {a b c m : Point} (ha : a ∈ K) (hb : b ∈ K) (hc : c ∈ K) (hD : cross a b c ≠ 0)
    {t : ℚ} (t0 : 0 < t) (t1 : t < 1) (mx : m.x = (a.x + t * (b.x - a.x) + c.x) / 2) (my : m.y = (a.y + t * (b.y - a.y) + c.y) / 2) : Deep K m := by
  set s := t * (1 - t) with hs
  have s0 : 0 < s := mul_pos t0 (by linarith)
  have s1 : s < 1 := by nlinarith
  have d0 : 0 < 1 - s := by linarith
  set u := (t / 2 - s / 3) / (1 - s) with hu
  set v := (1 / 2 - s / 3) / (1 - s) with hv
  have eu : u * (1 - s) = t / 2 - s / 3 := div_mul_cancel₀ _ d0.ne'
  have ev : v * (1 - s) = 1 / 2 - s / 3 := div_mul_cancel₀ _ d0.ne'
  have u0 : 0 ≤ u := div_nonneg (by nlinarith) d0.le
  have v0 : 0 ≤ v := div_nonneg (by nlinarith) d0.le
  have uv : u + v ≤ 1 := by
    rw [hu, hv, ← add_div, div_le_one d0]
    nlinarith
  have hp : (⟨a.x + u * (b.x - a.x) + v * (c.x - a.x), a.y + u * (b.y - a.y) + v * (c.y - a.y)⟩ : Point) ∈ K :=
    h.triangle ha hb hc u0 v0 uv rfl rfl
  refine h.deep_toward hp (h.deep_centre ha hb hc hD) s0 s1.le ?_ ?_
  · simp only
    linear_combination mx - (b.x - a.x) * eu - (c.x - a.x) * ev
  · simp only
    linear_combination my - (b.y - a.y) * eu - (c.y - a.y) * ev

/-- A convex set of points and segments is on a line. -/
theorem ConvexSet.collinear {P : List Point} {L : List Segment} (hL : ∀ s ∈ L, s.Proper) (h : ConvexSet {r | r ∈ P ∨ r ∈ segsPts L})
    {a b c : Point} (ha : a ∈ P ∨ a ∈ segsPts L) (hb : b ∈ P ∨ b ∈ segsPts L) (hc : c ∈ P ∨ c ∈ segsPts L) : cross a b c = 0 := by
  by_contra hD
  exact no_deep hL _ (h.deep_centre ha hb hc hD)

theorem exists_least {L : List Segment} (hL : ∀ s ∈ L, s.start < s.stop) (hn : L ≠ []) : ∃ p ∈ segsPts L, ∀ q ∈ segsPts L, p ≤ q := by
  induction L with
  | nil => exact absurd rfl hn
  | cons s L ih =>
    have hs := hL s (by simp)
    by_cases hn' : L = []
    · subst hn'
      refine ⟨s.start, ⟨s, by simp, s.start_mem⟩, ?_⟩
      rintro q ⟨t, ht, hq⟩
      rw [List.mem_singleton] at ht
      subst ht
      exact (mem_between hs hq).1
    · obtain ⟨p, ⟨u, hu, hp⟩, hle⟩ := ih (fun s hs => hL s (by simp [hs])) hn'
      rcases le_total p s.start with k | k
      · refine ⟨p, ⟨u, by simp [hu], hp⟩, ?_⟩
        rintro q ⟨t, ht, hq⟩
        rcases List.mem_cons.1 ht with rfl | ht
        · exact k.trans (mem_between hs hq).1
        · exact hle q ⟨t, ht, hq⟩
      · refine ⟨s.start, ⟨s, by simp, s.start_mem⟩, ?_⟩
        rintro q ⟨t, ht, hq⟩
        rcases List.mem_cons.1 ht with rfl | ht
        · exact (mem_between hs hq).1
        · exact k.trans (hle q ⟨t, ht, hq⟩)

theorem exists_greatest {L : List Segment} (hL : ∀ s ∈ L, s.start < s.stop) (hn : L ≠ []) : ∃ p ∈ segsPts L, ∀ q ∈ segsPts L, q ≤ p := by
  induction L with
  | nil => exact absurd rfl hn
  | cons s L ih =>
    have hs := hL s (by simp)
    by_cases hn' : L = []
    · subst hn'
      refine ⟨s.stop, ⟨s, by simp, s.stop_mem⟩, ?_⟩
      rintro q ⟨t, ht, hq⟩
      rw [List.mem_singleton] at ht
      subst ht
      exact (mem_between hs hq).2
    · obtain ⟨p, ⟨u, hu, hp⟩, hle⟩ := ih (fun s hs => hL s (by simp [hs])) hn'
      rcases le_total s.stop p with k | k
      · refine ⟨p, ⟨u, by simp [hu], hp⟩, ?_⟩
        rintro q ⟨t, ht, hq⟩
        rcases List.mem_cons.1 ht with rfl | ht
        · exact (mem_between hs hq).2.trans k
        · exact hle q ⟨t, ht, hq⟩
      · refine ⟨s.stop, ⟨s, by simp, s.stop_mem⟩, ?_⟩
        rintro q ⟨t, ht, hq⟩
        rcases List.mem_cons.1 ht with rfl | ht
        · exact (mem_between hs hq).2
        · exact (hle q ⟨t, ht, hq⟩).trans k

/-- A convex set of points and segments is empty, a point or a segment. -/
theorem ConvexSet.linear {P : List Point} {L : List Segment} (pr : ∀ s ∈ L, s.Proper) (nd : P.Nodup) (alone : ∀ q ∈ P, q ∉ segsPts L)
    (hC : ConvexSet {r | r ∈ P ∨ r ∈ segsPts L}) :
    (P = [] ∧ L = []) ∨ (∃ q, P = [q] ∧ L = []) ∨ (∃ s : Segment, s.Proper ∧ P = [] ∧ L ≠ [] ∧ segsPts L = s.pts) := by
  by_cases hP : P = []
  · by_cases hL : L = []
    · exact Or.inl ⟨hP, hL⟩
    · right; right
      subst hP
      have en : segsPts (L.map Segment.norm) = segsPts L := by
        ext q
        constructor
        · rintro ⟨t, ht, hq⟩
          obtain ⟨s, hs, rfl⟩ := List.mem_map.1 ht
          exact ⟨s, hs, by rwa [Segment.pts_norm] at hq⟩
        · rintro ⟨s, hs, hq⟩
          exact ⟨s.norm, List.mem_map.2 ⟨s, hs, rfl⟩, by rwa [Segment.pts_norm]⟩
      have dir : ∀ s ∈ L.map Segment.norm, s.start < s.stop := by
        intro t ht
        obtain ⟨s, hs, rfl⟩ := List.mem_map.1 ht
        exact Segment.lo_lt_hi (pr s hs)
      have hL' : L.map Segment.norm ≠ [] := by simpa using hL
      obtain ⟨p, p1, p2⟩ := exists_least dir hL'
      obtain ⟨q, q1, q2⟩ := exists_greatest dir hL'
      have hpq : p < q := by
        obtain ⟨s, hs⟩ := List.exists_mem_of_ne_nil _ hL'
        exact (p2 _ ⟨s, hs, s.start_mem⟩).trans_lt ((dir s hs).trans_le (q2 _ ⟨s, hs, s.stop_mem⟩))
      rw [en] at p1 p2 q1 q2
      refine ⟨⟨p, q⟩, hpq.ne, rfl, hL, ?_⟩
      apply Set.Subset.antisymm
      · intro r k
        rw [Segment.mem_iff (s := ⟨p, q⟩) hpq.ne]
        simp only [Segment.lo, Segment.hi, min_eq_left hpq.le, max_eq_right hpq.le]
        exact ⟨hC.collinear pr (Or.inr p1) (Or.inr q1) (Or.inr k), p2 r k, q2 r k⟩
      · intro r hr
        rcases hC p (Or.inr p1) q (Or.inr q1) hr with k | k
        · simp at k
        · exact k
  · right; left
    obtain ⟨q, hq⟩ := List.exists_mem_of_ne_nil _ hP
    have only : ∀ r, r ∈ P ∨ r ∈ segsPts L → r = q := by
      intro r hr
      by_contra hne
      obtain ⟨δ, δ0, hδ⟩ := clearance_all' (m := q) (m' := q) pr (by
        intro z hz
        rw [show z = q by
          obtain ⟨t, -, -, hx, hy⟩ := hz
          simp only [sub_self, mul_zero, add_zero] at hx hy
          exact Point.ext' hx hy]
        exact alone q hq)
      obtain ⟨w, w1, w2, w3⟩ := exists_toward δ0 (q := q) (m := r) (fun e => hne e.symm)
      refine overlapping_of_finite_false (s := ⟨q, w⟩) (fun e => w3 e.symm) ((List.finite_toSet P).subset ?_)
      intro z hz
      have sub : z ∈ (Segment.mk q r).pts := by
        obtain ⟨t, t0, t1, wx, wy⟩ := w1
        obtain ⟨u, u0, u1, zx, zy⟩ := hz
        simp only at wx wy zx zy
        refine ⟨u * t, mul_nonneg u0 t0, mul_le_one₀ u1 t0 t1, ?_, ?_⟩
        · simp only; rw [zx, wx]; ring
        · simp only; rw [zy, wy]; ring
      rcases hC q (Or.inl hq) r hr sub with k | k
      · exact k
      · exact absurd k (hδ q (Segment.start_mem _) z (w2.path z hz))
    have eP : P = [q] := by
      have : ∀ r ∈ P, r = q := fun r hr => only r (Or.inl hr)
      match P, hP, this, nd with
      | [r], _, this, _ => rw [this r (by simp)]
      | r :: r' :: P', _, this, nd =>
        have e1 := this r (by simp)
        have e2 := this r' (by simp)
        simp [e1, e2] at nd
    have eL : L = [] := by
      by_contra hL
      obtain ⟨s, hs⟩ := List.exists_mem_of_ne_nil _ hL
      have e1 := only s.start (Or.inr ⟨s, hs, s.start_mem⟩)
      have e2 := only s.stop (Or.inr ⟨s, hs, s.stop_mem⟩)
      exact pr s hs (e1.trans e2.symm)
    exact ⟨q, eP, eL⟩

/-- The parts of a convex intersection: nothing, a point, a segment in pieces, or a polygon without holes. -/
theorem CompleteParts.convex {X Y : Set Point} {P : List Point} {L : List Segment} {ps : List Polygon} (h : CompleteParts X Y P L (polysPts ps))
    (V : ValidPolygons ps) (hX : ConvexSet X) (hY : ConvexSet Y) :
    (P = [] ∧ L = [] ∧ ps = [] ∧ X ∩ Y = ∅) ∨
    (∃ q, P = [q] ∧ L = [] ∧ ps = [] ∧ X ∩ Y = {q}) ∨
    (∃ s : Segment, s.Proper ∧ P = [] ∧ L ≠ [] ∧ ps = [] ∧ X ∩ Y = s.pts) ∨
    (∃ p, P = [] ∧ L = [] ∧ ps = [p] ∧ p.holes = [] ∧ X ∩ Y = p.pts) := by
  have hC := hX.inter hY
  have pr : ∀ s ∈ L, s.Proper := fun s hs => (h.directed s hs).ne
  have all : ∀ q, q ∈ X ∩ Y ↔ (q ∈ P ∨ q ∈ segsPts L ∨ q ∈ polysPts ps) := fun q => (h.all q).symm
  by_cases hps : ps = []
  · subst hps
    have eC : X ∩ Y = {r | r ∈ P ∨ r ∈ segsPts L} := by
      ext q
      rw [all]
      constructor
      · rintro (k | k | ⟨p, hp, -⟩)
        · exact Or.inl k
        · exact Or.inr k
        · simp at hp
      · rintro (k | k)
        · exact Or.inl k
        · exact Or.inr (Or.inl k)
    rw [eC] at hC
    rcases hC.linear pr h.nodup (fun q hq => (h.alone q hq).1) with ⟨rfl, rfl⟩ | ⟨q, rfl, rfl⟩ | ⟨s, h0, rfl, hL, e⟩
    · refine Or.inl ⟨rfl, rfl, rfl, ?_⟩
      rw [eC]
      ext q
      simp [segsPts_nil]
    · refine Or.inr (Or.inl ⟨q, rfl, rfl, rfl, ?_⟩)
      rw [eC]
      ext r
      simp [segsPts_nil]
    · refine Or.inr (Or.inr (Or.inl ⟨s, h0, rfl, hL, rfl, ?_⟩))
      rw [eC, ← e]
      ext r
      simp
  · right; right; right
    obtain ⟨p, hp⟩ := List.exists_mem_of_ne_nil _ hps
    obtain ⟨z, z1, z2⟩ := V.exists_inside hp
    have sub : polysPts ps ⊆ X ∩ Y := fun q hq => (all q).2 (Or.inr (Or.inr hq))
    have dz : Deep (X ∩ Y) z := by
      refine Deep.mono sub ?_
      rw [V.polysPts_eq]
      exact (deep_region V.noOverlap V.noOverlap_even.2).2 ⟨z1, V.inside_of hp z1 z2⟩
    have eq : ∀ q ∈ X ∩ Y, q ∈ polysPts ps := by
      intro q hq
      by_contra hn
      obtain ⟨δ, δ0, hδ⟩ := V.away hn
      have hne : q ≠ z := fun e => hn (e ▸ (by rw [V.polysPts_eq]; exact Or.inr (V.inside_of hp z1 z2)))
      obtain ⟨r, ⟨t, t0, t1, rx, ry⟩, r2, r3⟩ := exists_toward (half_pos δ0) hne
      simp only at rx ry
      have t0' : 0 < t := by
        refine lt_of_le_of_ne t0 fun e => r3 ?_
        subst e
        exact Point.ext' (by rw [rx]; ring) (by rw [ry]; ring)
      obtain ⟨η, η0, hη⟩ := hC.deep_toward hq dz t0' t1 rx ry
      refine no_deep (P := P) pr r ⟨min η (δ / 2), lt_min η0 (half_pos δ0), fun w hw => ?_⟩
      have w1 := hη w (hw.mono (min_le_left _ _))
      have w2 : w ∉ polysPts ps := hδ w (by
        have := r2.trans (hw.mono (min_le_right _ _))
        rwa [add_halves] at this)
      rcases (all w).1 w1 with k | k | k
      · exact Or.inl k
      · exact Or.inr k
      · exact absurd k w2
    have eS : X ∩ Y = polysPts ps := Set.Subset.antisymm eq sub
    have eP : P = [] := by
      by_contra hn
      obtain ⟨q, hq⟩ := List.exists_mem_of_ne_nil _ hn
      exact (h.alone q hq).2 (eq q ((all q).2 (Or.inl hq)))
    have eL : L = [] := by
      by_contra hn
      obtain ⟨s, hs⟩ := List.exists_mem_of_ne_nil _ hn
      obtain ⟨m, m1, m2⟩ := exists_inner (pr s hs)
      exact m2 (h.meet s hs m m1 (eq m ((all m).2 (Or.inr (Or.inl ⟨s, hs, m1⟩)))))
    rw [eS] at hC
    obtain rfl | ⟨p', rfl⟩ := V.convex_single hC
    · exact absurd rfl hps
    · have e1 : polysPts [p'] = p'.pts := by ext q; simp [polysPts]
      rw [e1] at hC
      exact ⟨p', eP, eL, rfl, (V.valid p' (by simp)).convex_holes hC, by rw [eS, e1]⟩

end Clipping

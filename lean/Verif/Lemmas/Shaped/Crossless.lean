import Verif.Lemmas.Region.Local
import Verif.Lemmas.Region.Dense
import Verif.Lemmas.Region.Oriented
import Verif.Lemmas.Shaped.Result
import Verif.Spec.Arrangement

/-!
# Edges of valid polygons have no crossings where no edge ends
-/

namespace Clipping

open Sweep

theorem pairwise_ne {α : Type} {R : α → α → Prop} (sym : ∀ {x y}, R x y → R y x) {l : List α} (h : l.Pairwise R) {a b : α} (ha : a ∈ l)
    (hb : b ∈ l) (hne : a ≠ b) : R a b :=
  haveI : Std.Symm R := ⟨fun _ _ => sym⟩
  h.forall ha hb hne

/-- Segments which have one common point, inside of both, are not on the same line. -/
theorem crossing_line {s t : Segment} (hs : s.Proper) (ht : t.Proper) {v : Point} (h : s.pts ∩ t.pts = {v}) (es : ¬ s.IsEnd v)
    (et : ¬ t.IsEnd v) : cross t.lo t.hi s.hi ≠ 0 := by
  intro hc
  have hv : v ∈ s.pts ∩ t.pts := by rw [h]; rfl
  obtain ⟨c1, l1, u1⟩ := (Segment.mem_iff hs).1 hv.1
  obtain ⟨c2, l2, u2⟩ := (Segment.mem_iff ht).1 hv.2
  rw [Segment.isEnd_iff, not_or] at es et
  have a1 : v < s.hi := lt_of_le_of_ne u1 es.2
  have a2 : v < t.hi := lt_of_le_of_ne u2 et.2
  have lt := lo_lt_hi ht
  have c3 : cross v s.hi t.hi = 0 := by
    have n : t.hi.x - t.lo.x ≠ 0 ∨ t.hi.y - t.lo.y ≠ 0 := by
      by_contra hn
      push Not at hn
      exact lt.ne (by ext <;> linarith [hn.1, hn.2])
    unfold cross at *
    rcases n with n | n
    · exact mul_left_cancel₀ n (by linear_combination -(s.hi.x - v.x) * c2 - (t.hi.x - v.x) * (hc - c2))
    · exact mul_left_cancel₀ n (by linear_combination -(s.hi.y - v.y) * c2 - (t.hi.y - v.y) * (hc - c2))
  rcases same_ray (Or.inl ⟨a1, a2⟩) c3 with m | m
  · have : s.hi ∈ s.pts ∩ t.pts := ⟨(Segment.mem_iff hs).2 ⟨by unfold cross; ring, (lo_lt_hi hs).le, le_rfl⟩,
      pts_convex hv.2 ((Segment.mem_iff ht).2 ⟨by unfold cross; ring, lt.le, le_rfl⟩) m⟩
    rw [h] at this
    exact a1.ne' this
  · have : t.hi ∈ s.pts ∩ t.pts := ⟨pts_convex hv.1
      ((Segment.mem_iff hs).2 ⟨by unfold cross; ring, (lo_lt_hi hs).le, le_rfl⟩) m,
      (Segment.mem_iff ht).2 ⟨by unfold cross; ring, lt.le, le_rfl⟩⟩
    rw [h] at this
    exact a2.ne' this

/-- A segment which crosses an edge of a region has points in its interior. -/
theorem crossing_inside {E : List Segment} {t : Segment} (hp : ∀ e ∈ t :: E, e.Proper) (hd : ∀ q, Even (degree (t :: E) q))
    {s : Segment} (hs : s.Proper) {v : Point} (h : s.pts ∩ t.pts = {v}) (es : ¬ s.IsEnd v) (et : ¬ t.IsEnd v)
    (off : v ∉ segsPts E) : ∃ q ∈ s.pts, q ∉ segsPts (t :: E) ∧ Inside (t :: E) q := by
  have ht := hp t (by simp)
  have hc := crossing_line hs ht h es et
  have hv : v ∈ s.pts ∩ t.pts := by rw [h]; rfl
  obtain ⟨c1, l1, u1⟩ := (Segment.mem_iff hs).1 hv.1
  obtain ⟨c2, l2, u2⟩ := (Segment.mem_iff ht).1 hv.2
  obtain ⟨δ, δ0, hδ⟩ := local_sides hp hd hv.2 et off
  -- points of the segment on both sides of the edge
  have side : ∀ w, w ∈ s.pts → cross t.lo t.hi w ≠ 0 → ∃ z ∈ s.pts, Near δ v z ∧ z ∉ segsPts (t :: E) ∧
      0 < cross t.lo t.hi w * cross t.lo t.hi z := by
    intro w hw hcw
    have hne : v ≠ w := by rintro rfl; exact hcw c2
    obtain ⟨z, hz, hn, hzv⟩ := exists_toward δ0 hne
    have hz' := pts_convex hv.1 hw hz
    obtain ⟨a, a0, a1, ax, ay⟩ := hz
    simp only at ax ay
    have e : cross t.lo t.hi z = a * cross t.lo t.hi w := by
      unfold cross at c2 ⊢
      rw [ax, ay]
      linear_combination (1 - a) * c2
    have a0' : 0 < a := by
      refine lt_of_le_of_ne a0 fun h => hzv ?_
      subst h
      ext
      · rw [ax]; ring
      · rw [ay]; ring
    refine ⟨z, hz', hn, ?_, ?_⟩
    · rintro ⟨g, hg, hq⟩
      rcases List.mem_cons.1 hg with rfl | hg
      · have := ((Segment.mem_iff ht).1 hq).1
        rw [e] at this
        exact mul_ne_zero a0'.ne' hcw this
      · exact (hδ z hn).1 ⟨g, hg, hq⟩
    · rw [e]
      have := mul_pos a0' (mul_self_pos.2 hcw)
      nlinarith
  -- the other end is on the other side
  have opp : ∃ w ∈ s.pts, cross t.lo t.hi w * cross t.lo t.hi s.hi < 0 := by
    refine ⟨s.lo, Segment.lo_mem s, ?_⟩
    have hv1 : v ∈ (Segment.mk s.lo s.hi).pts := mem_pts_lo_hi.2 hv.1
    obtain ⟨a, a0, a1, ax, ay⟩ := hv1
    simp only at ax ay
    rw [Segment.isEnd_iff, not_or] at es
    have e : (1 - a) * cross t.lo t.hi s.lo + a * cross t.lo t.hi s.hi = 0 := by
      rw [← c2]
      unfold cross
      rw [ax, ay]; ring
    have a0' : 0 < a := by
      refine lt_of_le_of_ne a0 fun h => es.1 ?_
      subst h
      ext
      · rw [ax]; ring
      · rw [ay]; ring
    have a1' : a < 1 := by
      refine lt_of_le_of_ne a1 fun h => es.2 ?_
      subst h
      ext
      · rw [ax]; ring
      · rw [ay]; ring
    have p1 := mul_pos a0' (mul_self_pos.2 hc)
    by_contra hn
    push Not at hn
    have p2 := mul_nonneg (sub_nonneg.2 a1) hn
    have : (1 - a) * (cross t.lo t.hi s.lo * cross t.lo t.hi s.hi) + a * (cross t.lo t.hi s.hi * cross t.lo t.hi s.hi) = 0 := by
      linear_combination cross t.lo t.hi s.hi * e
    linarith
  obtain ⟨w, hw, hneg⟩ := opp
  have hcw : cross t.lo t.hi w ≠ 0 := by
    intro h; rw [h] at hneg; simp at hneg
  obtain ⟨z1, m1, n1, o1, s1⟩ := side s.hi (Segment.hi_mem s) hc
  obtain ⟨z2, m2, n2, o2, s2⟩ := side w hw hcw
  have both : ∀ z z', Near δ v z → Near δ v z' → 0 < cross t.lo t.hi z → cross t.lo t.hi z' < 0 →
      Inside (t :: E) z ∨ Inside (t :: E) z' := by
    intro z z' n n' c c'
    have g1 := (hδ z n).2.1 c
    have g2 := (hδ z' n').2.2 c'
    clear * - g1 g2
    tauto
  rcases lt_or_gt_of_ne hc with c | c
  · have k1 : cross t.lo t.hi z1 < 0 := by nlinarith
    have k2 : 0 < cross t.lo t.hi w := by nlinarith
    have k3 : 0 < cross t.lo t.hi z2 := by nlinarith
    rcases both z2 z1 n2 n1 k3 k1 with i | i
    · exact ⟨z2, m2, o2, i⟩
    · exact ⟨z1, m1, o1, i⟩
  · have k1 : 0 < cross t.lo t.hi z1 := by nlinarith
    have k2 : cross t.lo t.hi w < 0 := by nlinarith
    have k3 : cross t.lo t.hi z2 < 0 := by nlinarith
    rcases both z1 z2 n1 n2 k1 k3 with i | i
    · exact ⟨z1, m1, o1, i⟩
    · exact ⟨z2, m2, o2, i⟩

/-- the same for an edge of a list -/
theorem crossing_inside' {E : List Segment} (hp : ∀ e ∈ E, e.Proper) (hd : ∀ q, Even (degree E q)) {t : Segment} (ht : t ∈ E)
    {s : Segment} (hs : s.Proper) {v : Point} (h : s.pts ∩ t.pts = {v}) (es : ¬ s.IsEnd v) (et : ¬ t.IsEnd v)
    (off : v ∉ segsPts (E.erase t)) : ∃ q ∈ s.pts, q ∉ segsPts E ∧ Inside E q := by
  have pe := List.perm_cons_erase ht
  obtain ⟨q, h1, h2, h3⟩ := crossing_inside (fun e he => hp e (pe.mem_iff.2 he)) (fun q => by rw [← degree_perm pe]; exact hd q)
    hs h es et off
  exact ⟨q, h1, by rwa [segsPts_perm pe], (inside_perm pe q).2 h3⟩

theorem SimpleContour.off_erase {c : Contour} (hc : SimpleContour c) {t : Segment} (ht : t ∈ c.edges) {v : Point} (hv : v ∈ t.pts)
    (et : ¬ t.IsEnd v) : v ∉ segsPts (c.edges.erase t) := by
  rintro ⟨u, hu, hq⟩
  have pe := List.perm_cons_erase ht
  have e := hc.ends.perm pe
  exact et ((List.pairwise_cons.1 e).1 u hu v hv hq).1

/-- Contours of a polygon. -/
theorem ValidPolygon.crossless {p : Polygon} (hp : ValidPolygon p) {s t : Segment} (hs : s ∈ p.edges) (ht : t ∈ p.edges) {v : Point}
    (h : s.pts ∩ t.pts = {v}) (es : ¬ s.IsEnd v) (et : ¬ t.IsEnd v) : False := by
  have pr := hp.noOverlap.1
  have hv : v ∈ s.pts ∩ t.pts := by rw [h]; rfl
  have same : ∀ c, SimpleContour c → s ∈ c.edges → t ∈ c.edges → False := by
    intro c hc h1 h2
    by_cases e : s = t
    · subst e
      have l : s.lo ∈ s.pts ∩ s.pts := ⟨Segment.lo_mem s, Segment.lo_mem s⟩
      rw [h] at l
      exact es (Segment.isEnd_iff.2 (Or.inl l.symm))
    · exact es ((pairwise_ne (fun h q a b => (h q b a).symm) hc.ends h1 h2 e v hv.1 hv.2)).1
  have key : ∀ {s t : Segment} {c d : Contour}, s.pts ∩ t.pts = {v} → ¬ s.IsEnd v → ¬ t.IsEnd v → s.Proper → SimpleContour d →
      t ∈ d.edges → (∀ m ∈ s.pts, m ∉ segsPts d.edges → ¬ Inside d.edges m) → False := by
    intro s t c d h es et ps hd htd ho
    have hv : v ∈ s.pts ∩ t.pts := by rw [h]; rfl
    obtain ⟨q, q1, q2, q3⟩ := crossing_inside' hd.proper hd.even htd ps h es et (hd.off_erase htd hv.2 et)
    exact ho q q1 q2 q3
  have h' : t.pts ∩ s.pts = {v} := by rw [Set.inter_comm]; exact h
  have hs' := hs
  have ht' := ht
  unfold Polygon.edges at hs' ht'
  rw [List.mem_append, List.mem_flatMap] at hs' ht'
  rcases hs' with hs' | ⟨c, hc, hs'⟩ <;> rcases ht' with ht' | ⟨d, hd, ht'⟩
  · exact same _ hp.border hs' ht'
  · exact key (c := p.border) h es et (pr s hs) (hp.holes d hd) ht' fun m hm => hp.outside d hd m ⟨s, hs', hm⟩
  · exact key (c := p.border) h' et es (pr t ht) (hp.holes c hc) hs' fun m hm => hp.outside c hc m ⟨t, ht', hm⟩
  · by_cases e : c = d
    · subst e; exact same _ (hp.holes c hc) hs' ht'
    · have a := pairwise_ne (fun h => h.symm) hp.apart hc hd e
      exact key (c := c) h es et (pr s hs) (hp.holes d hd) ht' fun m hm => a.1 m (Or.inl ⟨s, hs', hm⟩)

theorem not_overlapping_inter {s t : Segment} (h : ¬ Overlapping s t) {v : Point} (h1 : v ∈ s.pts) (h2 : v ∈ t.pts) : s.pts ∩ t.pts = {v} := by
  refine Set.Subset.antisymm ?_ (by rintro q rfl; exact ⟨h1, h2⟩)
  rintro q ⟨q1, q2⟩
  by_contra hne
  exact h ⟨v, q, fun e => hne e.symm, h1, q1, h2, q2⟩

/-- Where edges of valid polygons meet in one point, one of them has an end. -/
theorem ValidPolygons.crossless {ps : List Polygon} (hp : ValidPolygons ps) {v : Point} (h : Vertex (ps.flatMap Polygon.edges) v) :
    ∃ s ∈ ps.flatMap Polygon.edges, s.IsEnd v := by
  rcases h with h | ⟨s, hs, t, ht, h⟩
  · exact h
  by_contra hn
  push Not at hn
  have hv : v ∈ s.pts ∩ t.pts := by rw [h]; rfl
  obtain ⟨p, hpp, hs'⟩ := List.mem_flatMap.1 hs
  obtain ⟨q, hqq, ht'⟩ := List.mem_flatMap.1 ht
  by_cases e : p = q
  · subst e
    exact (hp.valid p hpp).crossless hs' ht' h (hn s hs) (hn t ht)
  have a := pairwise_ne (fun h => h.symm) hp.apart hpp hqq e
  have vq := hp.valid q hqq
  have off : v ∉ segsPts (q.edges.erase t) := by
    rintro ⟨u, hu, hq⟩
    have pe := List.perm_cons_erase ht'
    have no := vq.noOverlap.2.perm pe (fun {x y} h ⟨a, b, n, h1, h2, h3, h4⟩ => h ⟨a, b, n, h3, h4, h1, h2⟩)
    have hu' : u ∈ q.edges := List.mem_of_mem_erase hu
    exact vq.crossless ht' hu' (not_overlapping_inter ((List.pairwise_cons.1 no).1 u hu) hv.2 hq) (hn t ht)
      (hn u (List.mem_flatMap.2 ⟨q, hqq, hu'⟩))
  obtain ⟨r, r1, r2, r3⟩ := crossing_inside' vq.noOverlap.1 vq.even ht' (hp.noOverlap.1 s hs) h (hn s hs) (hn t ht) off
  exact a.1 r (Or.inl ⟨s, hs', r1⟩) r2 r3

end Clipping

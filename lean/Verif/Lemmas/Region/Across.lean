import Verif.Lemmas.Region.OverlayBoundary

/-!
# The two sides of an edge

Points on both sides of an edge, for any number of regions at once: a region has the edge in its boundary exactly if one of the points is inside and
the other one is not.
-/

namespace Clipping

open Sweep

/-- the point on the other side of `m` -/
def Point.mirror (m q : Point) : Point := ⟨2 * m.x - q.x, 2 * m.y - q.y⟩

theorem Near.mirror {δ : ℚ} {m q : Point} (h : Near δ m q) : Near δ m (m.mirror q) := by
  constructor
  · have : 2 * m.x - q.x - m.x = -(q.x - m.x) := by ring
    simp only [Point.mirror, this, abs_neg]
    exact h.1
  · have : 2 * m.y - q.y - m.y = -(q.y - m.y) := by ring
    simp only [Point.mirror, this, abs_neg]
    exact h.2

theorem cross_mirror {a b m q : Point} (h : cross a b m = 0) : cross a b (m.mirror q) = - cross a b q := by
  unfold cross Point.mirror at *
  simp only
  linear_combination 2 * h

/-- neighbourhoods in which several statements hold -/
theorem near_every {α : Type} {m : Point} {P : α → Point → Prop} {l : List α} (h : ∀ x ∈ l, ∃ δ > 0, ∀ q, Near δ m q → P x q) :
    ∃ δ > 0, ∀ q, Near δ m q → ∀ x ∈ l, P x q := by
  induction l with
  | nil => exact ⟨1, one_pos, fun q _ x hx => absurd hx List.not_mem_nil⟩
  | cons y l ih =>
    obtain ⟨δ, hδ, h1⟩ := ih fun x hx => h x (List.mem_cons_of_mem _ hx)
    obtain ⟨δ', hδ', h2⟩ := h y List.mem_cons_self
    refine ⟨min δ δ', lt_min hδ hδ', fun q hq x hx => ?_⟩
    rcases List.mem_cons.1 hx with rfl | hx
    · exact h2 q (hq.mono (min_le_right _ _))
    · exact h1 q (hq.mono (min_le_left _ _)) x hx

variable {W : List Segment} (hW : ∀ s ∈ W, s.Proper) {m : Point} (hv : ¬ Vertex W m) {e : Segment} (he : e ∈ W) (hm : m ∈ e.pts)

include hW hv he hm

/-- Segments through a point which is not a vertex are on the same line. -/
theorem same_line {s : Segment} (hs : s ∈ W) (ms : m ∈ s.pts) (q : Point) : cross s.lo s.hi q = 0 ↔ cross e.lo e.hi q = 0 := by
  have key : ∀ {s e : Segment}, s ∈ W → e ∈ W → m ∈ s.pts → m ∈ e.pts → cross s.lo s.hi q = 0 → cross e.lo e.hi q = 0 := by
    intro s e hs he ms me hq
    have : ∃ p ∈ s.pts, p ∈ e.pts ∧ p ≠ m := by
      by_contra hcon
      push Not at hcon
      refine hv (Or.inr ⟨s, hs, e, he, ?_⟩)
      ext p
      constructor
      · rintro ⟨h1, h2⟩; exact hcon p h1 h2
      · rintro rfl; exact ⟨ms, me⟩
    obtain ⟨p, hp1, hp2, hpm⟩ := this
    have g : ∀ {r}, r ∈ e.pts → cross s.lo s.hi r = 0 := fun hr =>
      collinear_of_common (s := ⟨s.lo, s.hi⟩) hpm (mem_pts_lo_hi.2 hp1) (mem_pts_lo_hi.2 ms) hp2 me hr
    have c1 := g e.lo_mem
    have c2 := g e.hi_mem
    have hne : s.lo ≠ s.hi := (lo_lt_hi (hW s hs)).ne
    have hne' : s.hi.x - s.lo.x ≠ 0 ∨ s.hi.y - s.lo.y ≠ 0 := by
      by_contra hcon
      push Not at hcon
      exact hne (Point.ext' (by linarith [hcon.1]) (by linarith [hcon.2]))
    unfold cross at c1 c2 hq ⊢
    rcases hne' with h | h
    · refine (mul_eq_zero.1 ?_).resolve_left h
      linear_combination (e.hi.x - e.lo.x) * (hq - c1) - (q.x - e.lo.x) * (c2 - c1)
    · refine (mul_eq_zero.1 ?_).resolve_left h
      linear_combination (e.hi.y - e.lo.y) * (hq - c1) - (q.y - e.lo.y) * (c2 - c1)
  exact ⟨key hs he ms hm, key he hs hm ms⟩

theorem off_line {s : Segment} (hs : s ∈ W) : ∃ δ > 0, ∀ q, Near δ m q → cross e.lo e.hi q ≠ 0 → q ∉ s.pts := by
  by_cases ms : m ∈ s.pts
  · refine ⟨1, one_pos, fun q _ hc hq => hc ?_⟩
    rw [← same_line hW hv he hm hs ms]
    obtain ⟨t, -, -, tx, ty⟩ := mem_pts_lo_hi.2 hq
    unfold cross
    simp only at tx ty
    rw [tx, ty]
    ring
  · obtain ⟨δ, δ0, h⟩ := exists_near_off (hW s hs) ms
    exact ⟨δ, δ0, fun q hq _ => h q hq⟩

theorem across_one {X : List Segment} (hX : ∀ s ∈ X, s ∈ W) (no : NoOverlap X) (hd : ∀ q, Even (degree X q)) :
    ∃ δ > 0, ∀ q, Near δ m q → cross e.lo e.hi q ≠ 0 → (m ∈ segsPts X ↔ ¬ (Inside X q ↔ Inside X (m.mirror q))) := by
  classical
  by_cases mX : m ∈ segsPts X
  · obtain ⟨t, ht, hmt⟩ := mX
    have hend : ¬ t.IsEnd m := fun h => hv (Or.inl ⟨t, hX t ht, h⟩)
    have perm := List.perm_cons_erase ht
    have no' : NoOverlap (t :: X.erase t) := no.perm perm
    have off : m ∉ segsPts (X.erase t) := by
      rintro ⟨t', ht', hm'⟩
      have hn := (List.pairwise_cons.1 no'.2).1 t' ht'
      refine hv (Or.inr ⟨t, hX t ht, t', hX t' (List.mem_of_mem_erase ht'), ?_⟩)
      ext p
      constructor
      · rintro ⟨h1, h2⟩
        by_contra hp
        exact hn ⟨p, m, hp, h1, hmt, h2, hm'⟩
      · rintro rfl; exact ⟨hmt, hm'⟩
    obtain ⟨δ, δ0, h⟩ := local_sides (E := X.erase t) (e := t) no'.1 (fun q => by rw [← degree_perm perm]; exact hd q) hmt hend off
    refine ⟨δ, δ0, fun q hq hc => ?_⟩
    have i1 := (h q hq).2
    have i2 := (h _ hq.mirror).2
    rw [← inside_perm perm, ← inside_perm perm] at i1 i2
    have c0 : cross t.lo t.hi m = 0 := by
      obtain ⟨r, -, -, tx, ty⟩ := mem_pts_lo_hi.2 hmt
      unfold cross
      simp only at tx ty
      rw [tx, ty]
      ring
    have hc' : cross t.lo t.hi q ≠ 0 := fun h0 => hc ((same_line hW hv he hm (hX t ht) hmt q).1 h0)
    rw [cross_mirror c0] at i2
    refine ⟨fun _ => ?_, fun _ => ⟨t, ht, hmt⟩⟩
    rcases lt_or_gt_of_ne hc' with hlt | hlt
    · have a := i1.2 hlt
      have b := i2.1 (by linarith)
      rw [a, b]
      tauto
    · have a := i1.1 hlt
      have b := i2.2 (by linarith)
      rw [a, b]
      tauto
  · obtain ⟨δ, δ0, h⟩ := exists_near_off_all no.1 mX
    refine ⟨δ, δ0, fun q hq _ => ⟨fun h' => absurd h' mX, fun h' => absurd ?_ h'⟩⟩
    have c : ∀ {q}, Near δ m q → (Inside X m ↔ Inside X q) := fun {q} hq =>
      inside_const no.1 hd (s := ⟨m, q⟩) fun r hr => h r (hq.path r hr)
    rw [← c hq, ← c hq.mirror]

/-- The points of both sides of an edge. -/
theorem across {D : List (List Segment)} (hD : ∀ X ∈ D, (∀ s ∈ X, s ∈ W) ∧ NoOverlap X ∧ ∀ q, Even (degree X q)) :
    ∃ q q', q ∉ segsPts W ∧ q' ∉ segsPts W ∧ ∀ X ∈ D, (m ∈ segsPts X ↔ ¬ (Inside X q ↔ Inside X q')) := by
  obtain ⟨δ, δ0, h1⟩ := near_every (l := W) (P := fun s q => cross e.lo e.hi q ≠ 0 → q ∉ s.pts) fun s hs => off_line hW hv he hm hs
  obtain ⟨δ', δ0', h2⟩ := near_every (l := D)
    (P := fun X q => cross e.lo e.hi q ≠ 0 → (m ∈ segsPts X ↔ ¬ (Inside X q ↔ Inside X (m.mirror q)))) fun X hX =>
      across_one hW hv he hm (hD X hX).1 (hD X hX).2.1 (hD X hX).2.2
  have hproper : (Segment.mk e.lo e.hi).Proper := (lo_lt_hi (hW e he)).ne
  obtain ⟨q, hq, cq⟩ := exists_left_near hproper (mem_pts_lo_hi.2 hm) (lt_min δ0 δ0')
  simp only at cq
  have c0 : cross e.lo e.hi m = 0 := by
    obtain ⟨r, -, -, tx, ty⟩ := mem_pts_lo_hi.2 hm
    unfold cross
    simp only at tx ty
    rw [tx, ty]
    ring
  refine ⟨q, m.mirror q, ?_, ?_, fun X hX => h2 q (hq.mono (min_le_right _ _)) X hX cq.ne'⟩
  · rintro ⟨s, hs, h⟩
    exact h1 q (hq.mono (min_le_left _ _)) s hs cq.ne' h
  · rintro ⟨s, hs, h⟩
    refine h1 _ (hq.mono (min_le_left _ _)).mirror s hs ?_ h
    rw [cross_mirror c0]
    exact (neg_neg_of_pos cq).ne

end Clipping

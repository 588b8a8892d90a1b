import Verif.Spec.Complete
import Verif.Spec.Touch
import Verif.Spec.Regions
import Verif.Lemmas.Region.Affine
import Verif.Lemmas.Region.Closed

/-!
# Parts of complete intersections are determined by the common points
-/

namespace Clipping

open Sweep

/-- Points near `q`, apart from `q` itself, are not in `X`. -/
def Isolated (X : Set Point) (q : Point) : Prop := q ∈ X ∧ ∃ δ > 0, ∀ z, Near δ q z → z ≠ q → z ∉ X

theorem exists_near_ne {l : List Point} {q : Point} : ∃ δ > 0, ∀ z, Near δ q z → z ≠ q → z ∉ l := by
  induction l with
  | nil => exact ⟨1, one_pos, by simp⟩
  | cons p l ih =>
    obtain ⟨δ, hδ, h⟩ := ih
    by_cases e : p = q
    · subst e
      refine ⟨δ, hδ, fun z hz hn hm => ?_⟩
      rcases List.mem_cons.1 hm with g | g
      · exact hn g
      · exact h z hz hn g
    · have pos : 0 < max |p.x - q.x| |p.y - q.y| := by
        by_contra hc
        push Not at hc
        have h1 := abs_nonpos_iff.1 ((le_max_left _ _).trans hc)
        have h2 := abs_nonpos_iff.1 ((le_max_right _ _).trans hc)
        exact e (by cases p; cases q; simp only [Point.mk.injEq]; exact ⟨by linarith, by linarith⟩)
      refine ⟨min δ (max |p.x - q.x| |p.y - q.y|), lt_min hδ pos, fun z hz hn hm => ?_⟩
      rcases List.mem_cons.1 hm with rfl | g
      · have h3 := max_lt hz.1 hz.2
        exact absurd h3 (not_lt.2 (min_le_right _ _))
      · exact h z (hz.mono (min_le_left _ _)) hn g

variable {X Y : Set Point} {points : List Point} {segments E : List Segment}

/-- The isolated points of a complete intersection are the isolated common points. -/
theorem CompleteParts.points_iff (C : CompleteParts X Y points segments (regionPts E)) (no : NoOverlap E)
    (hd : ∀ q, Even (degree E q)) (q : Point) : q ∈ points ↔ Isolated (X ∩ Y) q := by
  constructor
  · intro hq
    obtain ⟨h1, h2⟩ := C.alone q hq
    refine ⟨(C.all q).1 (Or.inl hq), ?_⟩
    obtain ⟨δ₁, p1, H1⟩ := exists_near_off_all (fun e he => (C.directed e he).ne) h1
    obtain ⟨δ₂, p2, H2⟩ := exists_near_ne (l := points) (q := q)
    have : ∃ δ > 0, ∀ z, Near δ q z → z ∉ regionPts E := by
      by_contra hc
      push Not at hc
      refine h2 ((mem_region_iff no hd (X := []) (by simp)).2 fun δ hδ => ?_)
      obtain ⟨z, hz, hz'⟩ := hc (δ / 2) (by linarith)
      obtain ⟨w, hw, n1, n2, n3⟩ := (mem_region_iff no hd (X := []) (by simp)).1 hz' (δ / 2) (by linarith)
      exact ⟨w, (hz.trans hw).mono (by linarith), n1, n2, n3⟩
    obtain ⟨δ₃, p3, H3⟩ := this
    refine ⟨min δ₁ (min δ₂ δ₃), lt_min p1 (lt_min p2 p3), fun z hz hn hX => ?_⟩
    rcases (C.all z).2 hX with g | g | g
    · exact H2 z (hz.mono ((min_le_right _ _).trans (min_le_left _ _))) hn g
    · exact H1 z (hz.mono (min_le_left _ _)) g
    · exact H3 z (hz.mono ((min_le_right _ _).trans (min_le_right _ _))) g
  · rintro ⟨hq, δ, hδ, H⟩
    rcases (C.all q).2 hq with g | g | g
    · exact g
    · obtain ⟨t, ht, hqt⟩ := g
      exfalso
      obtain ⟨m, hm, hne⟩ : ∃ m ∈ t.pts, q ≠ m := by
        by_cases e : q = t.start
        · exact ⟨t.stop, t.stop_mem, e ▸ (C.directed t ht).ne⟩
        · exact ⟨t.start, t.start_mem, e⟩
      obtain ⟨z, hz, hn, hne'⟩ := exists_toward hδ hne
      exact H z hn hne' ((C.all z).1 (Or.inr (Or.inl ⟨t, ht, pts_convex hqt hm hz⟩)))
    · exfalso
      have pr : (Segment.mk q ⟨q.x + 1, q.y⟩).Proper := by
        intro e
        have := congrArg Point.x e
        simp at this
      obtain ⟨z, hz, n1, -, n3⟩ := (mem_region_iff no hd (X := [⟨q, ⟨q.x + 1, q.y⟩⟩]) (by simpa using pr)).1 g δ hδ
      have hne : z ≠ q := by
        rintro rfl
        exact n1 ⟨_, List.mem_singleton_self _, Segment.start_mem _⟩
      exact H z hz hne ((C.all z).1 (Or.inr (Or.inr (Or.inr n3))))

/-- The segments of a complete intersection are the closure of the common points which are neither isolated nor in the region. -/
theorem CompleteParts.segments_iff (C : CompleteParts X Y points segments (regionPts E)) (no : NoOverlap E)
    (hd : ∀ q, Even (degree E q)) (q : Point) : q ∈ segsPts segments ↔
      ∀ δ > 0, ∃ z, Near δ q z ∧ z ∈ X ∩ Y ∧ z ∉ regionPts E ∧ ¬ Isolated (X ∩ Y) z := by
  constructor
  · rintro ⟨t, ht, hq⟩ δ hδ
    obtain ⟨m, hm, hn, hnear, -⟩ := exists_alone (C.directed t ht).ne (X := []) (by simp) (by simp) hq hδ
    refine ⟨m, hnear, (C.all m).1 (Or.inr (Or.inl ⟨t, ht, hm⟩)), fun g => hn (C.meet t ht m hm g), fun g => ?_⟩
    exact (C.alone m ((C.points_iff no hd m).2 g)).1 ⟨t, ht, hm⟩
  · intro h
    by_contra hq
    obtain ⟨δ, hδ, H⟩ := exists_near_off_all (fun e he => (C.directed e he).ne) hq
    obtain ⟨z, h1, h2, h3, h4⟩ := h δ hδ
    rcases (C.all z).2 h2 with g | g | g
    · exact h4 ((C.points_iff no hd z).1 g)
    · exact H z h1 g
    · exact h3 g

namespace Affine

theorem near_inv (T : Affine) {δ : ℚ} (hδ : 0 < δ) : ∃ ε > 0, ∀ m q, Near ε (T.point m) (T.point q) → Near δ m q := by
  set K := |T.inv.a| + |T.inv.b| + |T.inv.c| + |T.inv.d| + 1 with hK
  have a0 := abs_nonneg T.inv.a
  have b0 := abs_nonneg T.inv.b
  have c0 := abs_nonneg T.inv.c
  have d0 := abs_nonneg T.inv.d
  have K0 : 0 < K := by linarith
  refine ⟨δ / K, div_pos hδ K0, fun m q hn => ?_⟩
  have ε0 : 0 < δ / K := div_pos hδ K0
  have hε : δ / K * K = δ := div_mul_cancel₀ δ K0.ne'
  have hm := T.inv_point m
  have hq := T.inv_point q
  generalize T.point m = m' at hn hm
  generalize T.point q = q' at hn hq
  subst hm hq
  obtain ⟨h1, h2⟩ := hn
  generalize δ / K = ε at *
  have bound : ∀ a b : ℚ, |a| + |b| + 1 ≤ K → |a * (q'.x - m'.x) + b * (q'.y - m'.y)| < δ := by
    intro a b hab
    have t1 := abs_add_le (a * (q'.x - m'.x)) (b * (q'.y - m'.y))
    rw [abs_mul, abs_mul] at t1
    have t2 : |a| * |q'.x - m'.x| ≤ |a| * ε := mul_le_mul_of_nonneg_left h1.le (abs_nonneg a)
    have t3 : |b| * |q'.y - m'.y| ≤ |b| * ε := mul_le_mul_of_nonneg_left h2.le (abs_nonneg b)
    have t4 : ε * (|a| + |b| + 1) ≤ ε * K := mul_le_mul_of_nonneg_left hab ε0.le
    linarith
  constructor
  · have e : (T.inv.point q').x - (T.inv.point m').x = T.inv.a * (q'.x - m'.x) + T.inv.b * (q'.y - m'.y) := by
      simp only [point]; ring
    rw [e]
    exact bound _ _ (by linarith)
  · have e : (T.inv.point q').y - (T.inv.point m').y = T.inv.c * (q'.x - m'.x) + T.inv.d * (q'.y - m'.y) := by
      simp only [point]; ring
    rw [e]
    exact bound _ _ (by linarith)

variable (T : Affine)

theorem near_image {δ : ℚ} (hδ : 0 < δ) : ∃ ε > 0, ∀ m q, Near ε m q → Near δ (T.point m) (T.point q) := by
  obtain ⟨ε, hε, h⟩ := T.inv.near_inv hδ
  refine ⟨ε, hε, fun m q hn => ?_⟩
  refine h _ _ ?_
  rwa [inv_point, inv_point]

theorem isolated_of {X : Set Point} {q : Point} (h : Isolated X q) : Isolated (T.point '' X) (T.point q) := by
  obtain ⟨h1, δ, hδ, H⟩ := h
  obtain ⟨ε, hε, E⟩ := T.near_inv hδ
  refine ⟨⟨q, h1, rfl⟩, ε, hε, fun z hz hn hX => ?_⟩
  obtain ⟨z, hzX, rfl⟩ := hX
  exact H z (E q z hz) (fun e => hn (by rw [e])) hzX

theorem inv_image (X : Set Point) : T.inv.point '' (T.point '' X) = X := by
  ext q
  constructor
  · rintro ⟨_, ⟨p, hp, rfl⟩, rfl⟩
    rwa [inv_point]
  · exact fun h => ⟨T.point q, ⟨q, h, rfl⟩, T.inv_point q⟩

theorem isolated {X : Set Point} {q : Point} : Isolated (T.point '' X) (T.point q) ↔ Isolated X q := by
  refine ⟨fun h => ?_, T.isolated_of⟩
  have := T.inv.isolated_of h
  rwa [inv_point, inv_image] at this

theorem closure_of {P P' : Point → Prop} (h : ∀ z, P z → P' (T.point z)) {q : Point} (H : ∀ δ > 0, ∃ z, Near δ q z ∧ P z) :
    ∀ δ > 0, ∃ z, Near δ (T.point q) z ∧ P' z := by
  intro δ hδ
  obtain ⟨ε, hε, E⟩ := T.near_image hδ
  obtain ⟨z, h1, h2⟩ := H ε hε
  exact ⟨T.point z, E q z h1, h z h2⟩

/-- Images of closures. -/
theorem closure_iff {P P' : Point → Prop} (h : ∀ z, P' (T.point z) ↔ P z) {q : Point} :
    (∀ δ > 0, ∃ z, Near δ (T.point q) z ∧ P' z) ↔ ∀ δ > 0, ∃ z, Near δ q z ∧ P z := by
  refine ⟨fun H => ?_, T.closure_of fun z => (h z).2⟩
  have := T.inv.closure_of (P' := P) (fun z hz => (h _).1 (by rwa [point_inv])) H
  rwa [inv_point] at this

theorem closureOff_map (E : List Segment) (X : Set Point) :
    closureOff (E.map T.segment) (T.point '' X) = T.point '' closureOff E X := by
  ext q
  obtain ⟨q, rfl⟩ := T.surjective q
  rw [mem_image]
  refine T.closure_iff fun z => ?_
  rw [segsPts_map, mem_image, mem_image]

/-- Parts of complete intersections of images are images of parts of complete intersections. -/
theorem completeParts {points' : List Point} {segments' E' : List Segment} (C : CompleteParts X Y points segments (regionPts E))
    (no : NoOverlap E) (hd : ∀ q, Even (degree E q))
    (C' : CompleteParts (T.point '' X) (T.point '' Y) points' segments' (regionPts E')) (no' : NoOverlap E')
    (hd' : ∀ q, Even (degree E' q)) (hE : regionPts E' = T.point '' regionPts E) :
    points'.Perm (points.map T.point) ∧ segsPts segments' = T.point '' segsPts segments := by
  have inter : T.point '' X ∩ T.point '' Y = T.point '' (X ∩ Y) := (Set.image_inter T.injective).symm
  constructor
  · rw [List.perm_ext_iff_of_nodup C'.nodup (C.nodup.map T.injective)]
    intro q
    obtain ⟨q, rfl⟩ := T.surjective q
    rw [C'.points_iff no' hd', inter, isolated, ← C.points_iff no hd, List.mem_map_of_injective T.injective]
  · ext q
    obtain ⟨q, rfl⟩ := T.surjective q
    rw [mem_image, C'.segments_iff no' hd', C.segments_iff no hd]
    refine T.closure_iff fun z => ?_
    rw [inter, mem_image, hE, mem_image, isolated]

end Affine

end Clipping

import Verif.Lemmas.Region.AffineParts
import Verif.Spec.Affine
import Verif.Lemmas.MultisegmentOps
import Verif.Lemmas.Pieces

/-!
# Linear geometries are determined by their points up to finitely many of them
-/

namespace Clipping

open Sweep

/-- Points of proper segments are determined by all but finitely many of them. -/
theorem segsPts_subset_of_finite {l l' : List Segment} (hl : ∀ s ∈ l, s.Proper) (hl' : ∀ s ∈ l', s.Proper)
    (h : (segsPts l \ segsPts l').Finite) : segsPts l ⊆ segsPts l' := by
  rintro q ⟨s, hs, hq⟩
  by_contra hn
  obtain ⟨δ, hδ, H⟩ := exists_near_off_all hl' hn
  obtain ⟨m, hm, hne⟩ : ∃ m ∈ s.pts, q ≠ m := by
    by_cases e : q = s.start
    · exact ⟨s.stop, s.stop_mem, e ▸ hl s hs⟩
    · exact ⟨s.start, s.start_mem, e⟩
  obtain ⟨z, hz, hnear, hzq⟩ := exists_toward hδ hne
  have inf := overlapping_of_finite_false (s := ⟨q, z⟩) (Ne.symm hzq)
  refine inf (h.subset fun r hr => ⟨⟨s, hs, pts_convex hq (pts_convex hq hm hz) hr⟩, H r ?_⟩)
  obtain ⟨t, t0, t1, hx, hy⟩ := hr
  simp only at hx hy
  refine ⟨?_, ?_⟩
  · rw [hx, add_sub_cancel_left, abs_mul, abs_of_nonneg t0]
    exact (mul_le_of_le_one_left (abs_nonneg _) t1).trans_lt hnear.1
  · rw [hy, add_sub_cancel_left, abs_mul, abs_of_nonneg t0]
    exact (mul_le_of_le_one_left (abs_nonneg _) t1).trans_lt hnear.2

theorem segsPts_eq_of_finite {l l' : List Segment} (hl : ∀ s ∈ l, s.Proper) (hl' : ∀ s ∈ l', s.Proper)
    (h : (segsPts l \ segsPts l').Finite) (h' : (segsPts l' \ segsPts l).Finite) : segsPts l = segsPts l' :=
  Set.Subset.antisymm (segsPts_subset_of_finite hl hl' h) (segsPts_subset_of_finite hl' hl h')

section

variable {A B R R' : Set Point}

theorem IsIntersection.diff_finite (h : IsIntersection A B R) (h' : IsIntersection A B R') : (R \ R').Finite :=
  h'.finite.subset fun _ hq => ⟨h.within hq.1, hq.2⟩

theorem IsDifference.diff_finite (h : IsDifference A B R) (h' : IsDifference A B R') : (R \ R').Finite :=
  h.finite.subset fun q hq => ⟨hq.1, by
    by_contra hb
    exact hq.2 (h'.covers ⟨h.within hq.1, hb⟩)⟩

theorem IsSymmetricDifference.diff_finite (h : IsSymmetricDifference A B R) (h' : IsSymmetricDifference A B R') : (R \ R').Finite :=
  h.finite.subset fun q hq => ⟨hq.1, by
    by_contra hb
    refine hq.2 (h'.covers ?_)
    rcases h.within hq.1 with g | g
    · exact Or.inl ⟨g, fun k => hb ⟨g, k⟩⟩
    · exact Or.inr ⟨g, fun k => hb ⟨k, g⟩⟩⟩

variable (T : Affine)

theorem IsIntersection.image (h : IsIntersection A B R) : IsIntersection (T.point '' A) (T.point '' B) (T.point '' R) := by
  refine ⟨?_, ?_⟩
  · rw [← Set.image_inter T.injective]
    exact Set.image_mono h.within
  · rw [← Set.image_inter T.injective, ← Set.image_sdiff T.injective]
    exact h.finite.image _

theorem IsDifference.image (h : IsDifference A B R) : IsDifference (T.point '' A) (T.point '' B) (T.point '' R) := by
  refine ⟨?_, Set.image_mono h.within, ?_⟩
  · rw [← Set.image_sdiff T.injective]
    exact Set.image_mono h.covers
  · rw [← Set.image_inter T.injective]
    exact h.finite.image _

theorem IsSymmetricDifference.image (h : IsSymmetricDifference A B R) :
    IsSymmetricDifference (T.point '' A) (T.point '' B) (T.point '' R) := by
  refine ⟨?_, ?_, ?_⟩
  · rw [← Set.image_sdiff T.injective, ← Set.image_sdiff T.injective, ← Set.image_union]
    exact Set.image_mono h.covers
  · rw [← Set.image_union]
    exact Set.image_mono h.within
  · rw [← Set.image_inter T.injective, ← Set.image_inter T.injective]
    exact h.finite.image _

end

theorem Geometry.LinearOk.proper {g : Geometry} (h : g.LinearOk) : ∀ s ∈ g.linearSegments, s.Proper := by
  cases g with
  | segment s =>
    have h' : s.Proper := h
    simpa [Geometry.linearSegments] using h'
  | multisegment l => exact h.2.1
  | mix d l s =>
    obtain ⟨-, ⟨t, rfl, ht⟩ | ⟨t, rfl, -, ht⟩, -⟩ := h
    · simpa [Geometry.linearSegments] using ht
    · exact ht.1
  | _ => simp [Geometry.linearSegments]

theorem Geometry.LinearOk.nodup {g : Geometry} (h : g.LinearOk) : g.discretePoints.Nodup := by
  cases g with
  | multipoint ps => exact h.2
  | mix d l s =>
    obtain ⟨⟨ps, rfl, -, hp⟩, -⟩ := h
    exact hp
  | _ => simp [Geometry.discretePoints]

theorem Geometry.LinearOk.shaped {g : Geometry} (h : g.LinearOk) : g.shapedPolygons = [] := by
  cases g with
  | polygon p => exact h.elim
  | multipolygon ps => exact h.elim
  | mix d l s =>
    obtain ⟨-, -, rfl⟩ := h
    rfl
  | _ => rfl

theorem Geometry.LinearOk.pts_iff {g : Geometry} (h : g.LinearOk) (q : Point) :
    q ∈ g.pts ↔ q ∈ g.discretePoints ∨ q ∈ segsPts g.linearSegments := by
  cases g with
  | empty => simp [Geometry.pts, Geometry.discretePoints, Geometry.linearSegments, segsPts]
  | multipoint ps => simp [Geometry.pts, Geometry.discretePoints, Geometry.linearSegments, segsPts]
  | segment s => simp [Geometry.pts, Geometry.discretePoints, Geometry.linearSegments, segsPts]
  | multisegment l => simp [Geometry.pts, Geometry.discretePoints, Geometry.linearSegments, segsPts]
  | polygon p => exact h.elim
  | multipolygon ps => exact h.elim
  | mix d l s =>
    obtain ⟨⟨ps, rfl, -, hp⟩, ⟨t, rfl, ht⟩ | ⟨t, rfl, -, ht⟩, rfl⟩ := h <;>
      simp [Geometry.pts, Geometry.discretePoints, Geometry.linearSegments, segsPts]

theorem Geometry.IsSegments.pts_eq {g : Geometry} (h : g.IsSegments) : g.pts = segsPts g.linearSegments := by
  cases g <;> first | exact h.elim | (ext q; simp [Geometry.pts, Geometry.linearSegments, segsPts])

theorem Geometry.IsSegments.discrete {g : Geometry} (h : g.IsSegments) : g.discretePoints = [] := by
  cases g <;> first | exact h.elim | rfl

/-- Isolated points of linear geometries. -/
theorem isolated_iff {X : Set Point} {points : List Point} {segments : List Segment}
    (all : ∀ q, q ∈ X ↔ q ∈ points ∨ q ∈ segsPts segments) (alone : ∀ q ∈ points, q ∉ segsPts segments)
    (pr : ∀ s ∈ segments, s.Proper) (q : Point) : q ∈ points ↔ Isolated X q := by
  constructor
  · intro hq
    refine ⟨(all q).2 (Or.inl hq), ?_⟩
    obtain ⟨δ₁, p1, H1⟩ := exists_near_off_all pr (alone q hq)
    obtain ⟨δ₂, p2, H2⟩ := exists_near_ne (l := points) (q := q)
    refine ⟨min δ₁ δ₂, lt_min p1 p2, fun z hz hn hX => ?_⟩
    rcases (all z).1 hX with g | g
    · exact H2 z (hz.mono (min_le_right _ _)) hn g
    · exact H1 z (hz.mono (min_le_left _ _)) g
  · rintro ⟨hq, δ, hδ, H⟩
    rcases (all q).1 hq with g | ⟨t, ht, hqt⟩
    · exact g
    · exfalso
      obtain ⟨m, hm, hne⟩ : ∃ m ∈ t.pts, q ≠ m := by
        by_cases e : q = t.start
        · exact ⟨t.stop, t.stop_mem, e ▸ pr t ht⟩
        · exact ⟨t.start, t.start_mem, e⟩
      obtain ⟨z, hz, hn, hne'⟩ := exists_toward hδ hne
      exact H z hn hne' ((all z).2 (Or.inr ⟨t, ht, pts_convex hqt hm hz⟩))

section

variable {T : Affine} {g g' : Geometry}

/-- Geometries of segments which are images of each other up to finitely many points. -/
theorem PartsImage.of_finite (hs : g.IsSegments) (hok : g.LinearOk) (hs' : g'.IsSegments) (hok' : g'.LinearOk)
    (h1 : (g'.pts \ T.point '' g.pts).Finite) (h2 : (T.point '' g.pts \ g'.pts).Finite) : PartsImage T g g' where
  discrete := by rw [hs.discrete, hs'.discrete]; exact .refl _
  shaped := by rw [hok.shaped, hok'.shaped, List.flatMap_nil, regionPts_nil, Set.image_empty]
  linear := by
    rw [hs.pts_eq, hs'.pts_eq, ← T.segsPts_map] at h1 h2
    rw [← T.segsPts_map]
    refine segsPts_eq_of_finite hok'.proper (fun s hs => ?_) h1 h2
    obtain ⟨t, ht, rfl⟩ := List.mem_map.1 hs
    exact T.proper.2 (hok.proper t ht)

/-- Linear geometries whose points are images of each other. -/
theorem PartsImage.of_points (hok : g.LinearOk) (hok' : g'.LinearOk) (h : g'.pts = T.point '' g.pts)
    (ha : ∀ q ∈ g.discretePoints, q ∉ segsPts g.linearSegments) (ha' : ∀ q ∈ g'.discretePoints, q ∉ segsPts g'.linearSegments) :
    PartsImage T g g' := by
  have k1 := isolated_iff hok.pts_iff ha hok.proper
  have k2 := isolated_iff hok'.pts_iff ha' hok'.proper
  have k3 : ∀ q, T.point q ∈ g'.discretePoints ↔ q ∈ g.discretePoints := fun q => by rw [k1, k2, h, T.isolated]
  refine ⟨?_, ?_, by rw [hok.shaped, hok'.shaped, List.flatMap_nil, regionPts_nil, Set.image_empty]⟩
  · rw [List.perm_ext_iff_of_nodup hok'.nodup (hok.nodup.map T.injective)]
    intro q
    obtain ⟨q, rfl⟩ := T.surjective q
    rw [k3, List.mem_map_of_injective T.injective]
  · ext q
    obtain ⟨q, rfl⟩ := T.surjective q
    rw [T.mem_image]
    have e1 : q ∈ segsPts g.linearSegments ↔ q ∈ g.pts ∧ q ∉ g.discretePoints := by
      rw [hok.pts_iff]
      refine ⟨fun x => ⟨Or.inr x, fun y => ha q y x⟩, fun x => x.1.resolve_left x.2⟩
    have e2 : T.point q ∈ segsPts g'.linearSegments ↔ T.point q ∈ g'.pts ∧ T.point q ∉ g'.discretePoints := by
      rw [hok'.pts_iff]
      refine ⟨fun x => ⟨Or.inr x, fun y => ha' _ y x⟩, fun x => x.1.resolve_left x.2⟩
    rw [e1, e2, k3, h, T.mem_image]

theorem PartsImage.of_intersection {A B : Set Point} (hs : g.IsSegments) (hok : g.LinearOk) (hs' : g'.IsSegments) (hok' : g'.LinearOk)
    (h : IsIntersection A B g.pts) (h' : IsIntersection (T.point '' A) (T.point '' B) g'.pts) : PartsImage T g g' :=
  .of_finite hs hok hs' hok' (h'.diff_finite (h.image T)) ((h.image T).diff_finite h')

theorem PartsImage.of_difference {A B : Set Point} (hs : g.IsSegments) (hok : g.LinearOk) (hs' : g'.IsSegments) (hok' : g'.LinearOk)
    (h : IsDifference A B g.pts) (h' : IsDifference (T.point '' A) (T.point '' B) g'.pts) : PartsImage T g g' :=
  .of_finite hs hok hs' hok' (h'.diff_finite (h.image T)) ((h.image T).diff_finite h')

theorem PartsImage.of_symmetricDifference {A B : Set Point} (hs : g.IsSegments) (hok : g.LinearOk) (hs' : g'.IsSegments)
    (hok' : g'.LinearOk) (h : IsSymmetricDifference A B g.pts) (h' : IsSymmetricDifference (T.point '' A) (T.point '' B) g'.pts) :
    PartsImage T g g' :=
  .of_finite hs hok hs' hok' (h'.diff_finite (h.image T)) ((h.image T).diff_finite h')

end

end Clipping

import Verif.Lemmas.TreeSweep.Marks
import Verif.Lemmas.Mixed.Result
import Verif.Properties.TreeSweep
import Verif.Properties.Mixed

/-!
# C76: any linear operand and any polygons

As C74 and C75 for operations on a linear and a shaped operand.  Polygons may cross themselves, overlap each other and be empty inside;
only consecutive vertices are different and every polygon has vertices.
-/

namespace Clipping

open TreeSweep Sweep

variable {orient : Orient} {a : List Segment} {linear : LinearOperand} {shaped : ShapedOperand}

/-- The edges of the shaped operand. -/
abbrev ShapedOperand.edges (shaped : ShapedOperand) : List Segment := shaped.polygons.flatMap polygonEdges

theorem edges_filter {ps : List Polygon} (f : Polygon → Bool) : ((ps.filter f).flatMap polygonEdges).Sublist (ps.flatMap polygonEdges) :=
  List.Sublist.flatMap List.filter_sublist _

/-- **C76** For valid operands the balancing of the tree has no influence on the results. -/
theorem mixed_any_tree (B : Balancing) (tb : TieBreak) (na : NoOverlap linear.segments) (nb : NoOverlap shaped.edges) :
    treeMixedDifference orient B tb linear shaped = mixedDifference orient tb linear shaped ∧
    treeMixedIntersection orient B tb linear shaped = mixedIntersection orient tb linear shaped ∧
    treeMixedCompleteIntersection orient B tb linear shaped = mixedCompleteIntersection orient tb linear shaped ∧
    treeMixedUnion orient B tb linear shaped = mixedUnion orient tb linear shaped := by
  have sw : ∀ {a' : List Segment} (f : Polygon → Bool) (g : Bool → MixedData → Bool) (xmax), a'.Sublist linear.segments →
      treeMixedSweep B g tb xmax a' (shaped.polygons.filter f) = mixedSweep g tb xmax a' (shaped.polygons.filter f) := by
    intro a' f g xmax h1
    obtain ⟨s, log, tree, e, h, -⟩ := sweep_any_tree B (mixedOps g) ⟨false, false, false, false⟩ tb (stopAt xmax) (na.sublist h1)
      (nb.sublist (edges_filter f))
    unfold treeMixedSweep mixedSweep
    rw [e, h]
  refine ⟨?_, ?_, ?_, ?_⟩
  · unfold treeMixedDifference mixedDifference toCoupledPolygons
    simp only [fun f g m => sw (a' := linear.segments) f g m (List.Sublist.refl _)]
  · unfold treeMixedIntersection mixedIntersection toIntersectingPolygons toIntersectingSegments
    simp only [fun k f g m => sw (a' := linear.segments.filter k) f g m List.filter_sublist]
  · unfold treeMixedCompleteIntersection mixedCompleteIntersection toIntersectingPolygons toIntersectingSegments
    simp only [fun k f g m => sw (a' := linear.segments.filter k) f g m List.filter_sublist]
    rfl
  · unfold treeMixedUnion mixedUnion toIntersectingPolygons splitIntersectingSegments
    simp only [fun k f g m => sw (a' := linear.segments.filter k) f g m List.filter_sublist]

theorem treeMixedSweep_raises {B : Balancing} {tb : TieBreak} {xmax : Option ℚ} {g : Bool → MixedData → Bool} {L : List Segment}
    {ps : List Polygon} (h : treeMixedSweep B g tb xmax L ps = .error .sameOperandOverlap) {L' E' : List Segment} (hL : L.Sublist L')
    (hE : (ps.flatMap polygonEdges).Sublist E') : ¬ (NoOverlap L' ∧ NoOverlap E') := by
  rintro ⟨na, nb⟩
  obtain ⟨s, log, tree, -, e, -⟩ := sweep_any_tree B (mixedOps g) ⟨false, false, false, false⟩ tb (stopAt xmax) (na.sublist hL)
    (nb.sublist hE)
  unfold treeMixedSweep at h
  rw [e] at h
  cases h

section
variable (B : Balancing) (tb : TieBreak) (hl : linear = multisegmentOperand a ∨ ∃ s, a = [s] ∧ linear = segmentOperand s)
  (ha : a ≠ []) (pa : ∀ s ∈ a, s.Proper) (hb : shaped.polygons ≠ [])
  (hv : ∀ p ∈ shaped.polygons, p.border.vertices ≠ []) (pb : ∀ s ∈ shaped.edges, s.Proper)

include hl in
theorem linear_given : linear.segments = a ∧ linear.value.IsSegments ∧ linear.value.pts = segsPts a := by
  rcases hl with rfl | ⟨s, rfl, rfl⟩
  · exact ⟨rfl, trivial, rfl⟩
  · refine ⟨rfl, trivial, ?_⟩
    ext q
    simp [segmentOperand, Geometry.pts, segsPts]

theorem polygonsMaxX_any {ps : List Polygon} (h : ps ≠ []) (hv : ∀ p ∈ ps, p.border.vertices ≠ []) : ∃ m, polygonsMaxX ps = .ok m := by
  unfold polygonsMaxX
  cases ps with
  | nil => exact absurd rfl h
  | cons p l =>
    cases hp : p.border.vertices with
    | nil => exact absurd hp (hv p (by simp))
    | cons v w => rw [List.flatMap_cons, hp]; exact ⟨_, rfl⟩

include hl ha pa hb pb

/-- **C76** A difference has only parts of the minuend. -/
theorem subtract_any_polygons :
    (treeMixedDifference orient B tb linear shaped = .error .sameOperandOverlap ∧ ¬ (NoOverlap a ∧ NoOverlap shaped.edges)) ∨
    ∃ g, treeMixedDifference orient B tb linear shaped = .ok g ∧ g.IsSegments ∧ g.pts ⊆ segsPts a := by
  obtain ⟨hs, hi, hp⟩ := linear_given hl
  obtain ⟨b₁, hb₁⟩ := boxOf_ok ha
  obtain ⟨b₂, hb₂⟩ := polygonsBox_ok hb
  obtain ⟨m, hm⟩ := maxXOf_ok ha
  unfold treeMixedDifference
  dsimp only
  rw [hs, hb₁, hb₂]
  simp only [bind, Except.bind, pure, Except.pure]
  split_ifs
  · exact Or.inr ⟨_, rfl, hi, hp.le⟩
  · exact Or.inr ⟨_, rfl, hi, hp.le⟩
  rw [hm]
  dsimp only
  rcases treeMixedSweep_good B (g := selectOutside) (fun _ => rfl) tb (some m) pa (ps := toCoupledPolygons orient b₁ shaped.polygons)
    (fun s hs => pb s ((edges_filter _).subset hs)) with h | ⟨h, log, e, P, M⟩
  · rw [h]; exact Or.inl ⟨rfl, treeMixedSweep_raises h (List.Sublist.refl _) (edges_filter _)⟩
  · rw [e]
    refine Or.inr ⟨_, rfl, unpackSegments_isSegments _, ?_⟩
    rw [unpackSegments_pts]
    exact partOf_pts fun c hc => (P.result M (fun i hi => P.rights_lt hi) c hc).1

/-- **C76** A union has parts of the linear operand, and the shaped operand as it was given. -/
theorem unite_any_polygons :
    (treeMixedUnion orient B tb linear shaped = .error .sameOperandOverlap ∧ ¬ (NoOverlap a ∧ NoOverlap shaped.edges)) ∨
    treeMixedUnion orient B tb linear shaped = .ok shaped.value ∨
    ∃ l, treeMixedUnion orient B tb linear shaped = .ok (.mix .empty l shaped.value) ∧ l.IsSegments ∧ l.pts ⊆ segsPts a := by
  obtain ⟨hs, hi, hp⟩ := linear_given hl
  obtain ⟨b₁, hb₁⟩ := boxOf_ok ha
  obtain ⟨b₂, hb₂⟩ := polygonsBox_ok hb
  unfold treeMixedUnion splitIntersectingSegments
  dsimp only
  rw [hs, hb₁, hb₂]
  simp only [bind, Except.bind, pure, Except.pure]
  split_ifs
  · exact Or.inr (Or.inr ⟨_, rfl, hi, hp.le⟩)
  rcases treeMixedSweep_good B (g := selectOutside) (fun _ => rfl) tb none (L := a.filter fun s => intersectsWithSegment b₂ s)
    (fun s hs => pa s (List.filter_sublist.subset hs)) (ps := toIntersectingPolygons orient b₁ shaped.polygons)
    (fun s hs => pb s ((edges_filter _).subset hs)) with h | ⟨h, log, e, P, M⟩
  · rw [h]; exact Or.inl ⟨rfl, treeMixedSweep_raises h List.filter_sublist (edges_filter _)⟩
  · rw [e]
    dsimp only
    split_ifs
    · exact Or.inr (Or.inl rfl)
    · refine Or.inr (Or.inr ⟨_, rfl, unpackSegments_isSegments _, ?_⟩)
      rw [unpackSegments_pts]
      refine partOf_pts fun c hc => ?_
      rcases List.mem_append.1 hc with hc | hc
      · obtain ⟨t, ht, hct⟩ := (P.result M (fun i hi => P.lefts_lt hi) c hc).1
        exact ⟨t, List.filter_sublist.subset ht, hct⟩
      · exact ⟨c, List.filter_sublist.subset hc, subset_rfl⟩

include hv

/-- **C76** An intersection has only parts of the linear operand. -/
theorem intersect_any_polygons :
    (treeMixedIntersection orient B tb linear shaped = .error .sameOperandOverlap ∧ ¬ (NoOverlap a ∧ NoOverlap shaped.edges)) ∨
    ∃ g, treeMixedIntersection orient B tb linear shaped = .ok g ∧ g.IsSegments ∧ g.pts ⊆ segsPts a := by
  obtain ⟨hs, -, -⟩ := linear_given hl
  obtain ⟨b₁, hb₁⟩ := boxOf_ok ha
  obtain ⟨b₂, hb₂⟩ := polygonsBox_ok hb
  unfold treeMixedIntersection
  dsimp only
  rw [hs, hb₁, hb₂]
  simp only [bind, Except.bind, pure, Except.pure]
  have emp : (∃ g, (Except.ok Geometry.empty : Except Err Geometry) = .ok g ∧ g.IsSegments ∧ g.pts ⊆ segsPts a) :=
    ⟨_, rfl, trivial, Set.empty_subset _⟩
  split_ifs with h1 h2 h3
  · exact Or.inr emp
  · exact Or.inr emp
  · exact Or.inr emp
  obtain ⟨m, hm⟩ := maxXOf_ok (l := toIntersectingSegments b₂ a) (by simpa using h2)
  obtain ⟨m', hm'⟩ := polygonsMaxX_any (ps := toIntersectingPolygons orient b₁ shaped.polygons) (by simpa using h3)
    (fun p hp => hv p (List.filter_sublist.subset hp))
  rw [hm, hm']
  dsimp only
  rcases treeMixedSweep_good B (g := selectInside) (fun _ => rfl) tb (some (min m m')) (L := toIntersectingSegments b₂ a)
    (fun s hs => pa s (List.filter_sublist.subset hs)) (ps := toIntersectingPolygons orient b₁ shaped.polygons)
    (fun s hs => pb s ((edges_filter _).subset hs)) with h | ⟨h, log, e, P, M⟩
  · rw [h]; exact Or.inl ⟨rfl, treeMixedSweep_raises h List.filter_sublist (edges_filter _)⟩
  · rw [e]
    refine Or.inr ⟨_, rfl, unpackSegments_isSegments _, ?_⟩
    rw [unpackSegments_pts]
    exact (partOf_pts fun c hc => (P.result M (fun i hi => P.lefts_lt hi) c hc).1).trans
      (segsPts_mono fun s hs => List.filter_sublist.subset hs)

/-- **C76** A complete intersection has parts of the linear operand and points which are on it and on an edge. -/
theorem complete_intersect_any_polygons :
    (treeMixedCompleteIntersection orient B tb linear shaped = .error .sameOperandOverlap ∧ ¬ (NoOverlap a ∧ NoOverlap shaped.edges)) ∨
    ∃ points segments, treeMixedCompleteIntersection orient B tb linear shaped =
        .ok (unpackLinearMix (unpackPoints points) (unpackSegments segments)) ∧
      (∀ p ∈ points, p ∈ segsPts a ∩ segsPts shaped.edges) ∧ ∀ c ∈ segments, PartOf c a := by
  obtain ⟨hs, -, -⟩ := linear_given hl
  obtain ⟨b₁, hb₁⟩ := boxOf_ok ha
  obtain ⟨b₂, hb₂⟩ := polygonsBox_ok hb
  unfold treeMixedCompleteIntersection
  dsimp only
  rw [hs, hb₁, hb₂]
  simp only [bind, Except.bind, pure, Except.pure]
  have emp : ∃ points segments, (Except.ok Geometry.empty : Except Err Geometry) =
        .ok (unpackLinearMix (unpackPoints points) (unpackSegments segments)) ∧
      (∀ p ∈ points, p ∈ segsPts a ∩ segsPts shaped.edges) ∧ ∀ c ∈ segments, PartOf c a := ⟨[], [], rfl, by simp, by simp⟩
  split_ifs with h1 h2 h3
  · exact Or.inr emp
  · exact Or.inr emp
  · exact Or.inr emp
  obtain ⟨m, hm⟩ := maxXOf_ok (l := toIntersectingSegments b₂ a) (by simpa using h2)
  obtain ⟨m', hm'⟩ := polygonsMaxX_any (ps := toIntersectingPolygons orient b₁ shaped.polygons) (by simpa using h3)
    (fun p hp => hv p (List.filter_sublist.subset hp))
  rw [hm, hm']
  dsimp only
  rcases treeMixedSweep_good B (g := selectInside) (fun _ => rfl) tb (some (min m m')) (L := toIntersectingSegments b₂ a)
    (fun s hs => pa s (List.filter_sublist.subset hs)) (ps := toIntersectingPolygons orient b₁ shaped.polygons)
    (fun s hs => pb s ((edges_filter _).subset hs)) with h | ⟨h, log, e, P, M⟩
  · rw [h]; exact Or.inl ⟨rfl, treeMixedSweep_raises h List.filter_sublist (edges_filter _)⟩
  · rw [e]
    have mem : ∀ e ∈ (log.map Prod.fst).insertionSort (fun e f => queueLt h f e = false), EvOk h e := by
      intro e he
      rw [(List.perm_insertionSort _ _).mem_iff, List.mem_map] at he
      obtain ⟨x, hx, rfl⟩ := he
      exact (P.log x hx).1
    refine Or.inr ⟨_, _, rfl, ?_, ?_⟩
    · intro p hp
      unfold commonPoints at hp
      obtain ⟨⟨k, g⟩, hx, rfl⟩ := List.mem_map.1 hp
      obtain ⟨hx, hne⟩ := List.mem_filter.1 hx
      obtain ⟨-, hg⟩ := groupRuns_run hx
      obtain ⟨⟨e, he, fe⟩, f, hf, ff⟩ := exists_both (f := h.evFirst) (g := g) (by
        simp only [Bool.not_or, Bool.and_eq_true, Bool.not_eq_true'] at hne
        exact hne.2)
      have ke := mem e (hg e he).1
      have kf := mem f (hg f hf).1
      obtain ⟨t, ht, h1⟩ := P.first _ (P.primary_lt ke) fe
      obtain ⟨u, hu, h2⟩ := P.second _ (P.primary_lt kf) ff
      have m1 := P.start_mem ke
      have m2 := P.start_mem kf
      rw [(hg e he).2] at m1
      rw [(hg f hf).2] at m2
      exact ⟨⟨t, List.filter_sublist.subset ht, h1 m1⟩, u, (edges_filter _).subset hu, h2 m2⟩
    · intro c hc
      obtain ⟨t, ht, hct⟩ := (P.result M (fun i hi => by
        obtain ⟨e, he, hf⟩ := List.mem_filterMap.1 hi
        cases e with
        | left j => cases hf; exact mem _ he
        | right j => cases hf) c hc).1
      exact ⟨t, List.filter_sublist.subset ht, hct⟩

end

/-- A crossed quadrangle and a triangle which overlap. -/
def exCrossed : List Polygon := [⟨⟨[⟨0, 0⟩, ⟨4, 4⟩, ⟨4, 0⟩, ⟨0, 4⟩]⟩, []⟩, ⟨⟨[⟨1, 0⟩, ⟨5, 0⟩, ⟨5, 4⟩]⟩, []⟩]

example : (∀ s ∈ (multipolygonOperand exCrossed).edges, s.Proper) ∧ (∀ p ∈ exCrossed, p.border.vertices ≠ []) ∧
    (∀ s ∈ [Segment.mk ⟨-1, 1⟩ ⟨6, 1⟩, ⟨⟨3, 3⟩, ⟨2, 2⟩⟩], s.Proper) ∧
    treeMixedIntersection noOrient redBlack .id (multisegmentOperand [⟨⟨-1, 1⟩, ⟨6, 1⟩⟩, ⟨⟨3, 3⟩, ⟨2, 2⟩⟩]) (multipolygonOperand exCrossed) =
      .ok (.multisegment [⟨⟨0, 1⟩, ⟨1, 1⟩⟩, ⟨⟨2, 1⟩, ⟨3, 1⟩⟩, ⟨⟨2, 2⟩, ⟨3, 3⟩⟩, ⟨⟨4, 1⟩, ⟨5, 1⟩⟩]) := by
  refine ⟨by decide +kernel, by decide, by decide +kernel, by decide +kernel⟩

end Clipping
